import Verif.Model.Precompile
import Verif.Props.LocalChunk
/-
Property theorems for the batches that the training step is compiled for (C137).
-/
namespace Verif.Precompile
open Verif.LocalChunk Verif.LocalChunk.Spec

variable {α H : Type} [DecidableEq α]

/-- C137: on every host, `train` compiles the training step for batches of exactly the shapes that it trains on.  `precompile` initialises from the same shapes, but lowers
the step for these batches only if there is one shard, that is, if every host has every row; otherwise for batches with fewer rows, as many as one shard has. -/
theorem C137_batches {m : Mesh α H} {l : α → Nat} {first : H → α → Nat} (hb : Boxes m l first) {axes : List α}
    (hne : axes ≠ []) (hn : axes.Nodup) (hsub : ∀ a ∈ axes, a ∈ m.names) (proc : H → Nat) (b : Nat) (hb0 : b ≠ 0)
    (hdiv : (axes.map m.shape).prod ∣ b) (hH : Nonempty H) (features : Spec) (hf : features ≠ []) :
    ∃ (layout : H → Layout) (n : Nat), (∀ h, getDataLayout (hostChunker m l first h) m.shape (proc h) (some axes) (some b) none = .ok (layout h)) ∧
      0 < n ∧ n ∣ b ∧
      (∀ h, trainDummy (layout h) (elementSpec b (layout h) features) = features.map (fun f => (f.1, b :: f.2)) ∧
        trainingBatch (layout h) (elementSpec b (layout h) features) = features.map (fun f => (f.1, b :: f.2)) ∧
        inputShapes (layout h) (elementSpec b (layout h) features) = features.map (fun f => (f.1, b :: f.2)) ∧
        precompileDummy (elementSpec b (layout h) features) = features.map (fun f => (f.1, b / n :: f.2)) ∧
        (precompileDummy (elementSpec b (layout h) features) = trainingBatch (layout h) (elementSpec b (layout h) features) ↔ n = 1)) ∧
      (n = 1 ↔ ∀ h h' r, HasRow m axes b h r ↔ HasRow m axes b h' r) := by
  obtain ⟨b', n, sid, isFirst, h1, h2, h3, h4, h5, h6, h7, h8, h9, h10⟩ :=
    C42_layout hb hne hn hsub proc (some b) (fun _ e => Option.some.inj e ▸ hdiv) hH
  have e : b' = b := h3 b rfl hb0
  subst e
  have hmul : b' / n * n = b' := Nat.div_mul_cancel h5
  refine ⟨fun h => ⟨some b', sid h, n, isFirst h⟩, n, h1, h4, h5, ?_, ?_⟩
  · intro h
    have t1 : trainingBatch ⟨some b', sid h, n, isFirst h⟩ (elementSpec b' ⟨some b', sid h, n, isFirst h⟩ features) = features.map (fun f => (f.1, b' :: f.2)) := by
      simp only [trainingBatch, elementSpec, List.map_map]
      refine List.map_congr_left fun f _ => ?_
      simp [hmul]
    have t2 : precompileDummy (elementSpec b' ⟨some b', sid h, n, isFirst h⟩ features) = features.map (fun f => (f.1, b' / n :: f.2)) := by
      simp only [precompileDummy, elementSpec, List.map_map]
      exact List.map_congr_left fun f _ => rfl
    refine ⟨?_, t1, ?_, t2, ?_⟩
    · simp only [trainDummy, elementSpec, List.map_map]
      exact List.map_congr_left fun f _ => rfl
    · simp only [inputShapes, elementSpec, List.map_map]
      exact List.map_congr_left fun f _ => rfl
    · rw [t1, t2]
      constructor
      · intro e
        obtain ⟨f, fs, rfl⟩ := List.exists_cons_of_ne_nil hf
        simp only [List.map_cons, List.cons.injEq, Prod.mk.injEq, true_and, and_true] at e
        have e1 := e.1
        rw [e1] at hmul
        have : b' * n = b' * 1 := by rw [hmul, Nat.mul_one]
        exact Nat.eq_of_mul_eq_mul_left (Nat.pos_of_ne_zero hb0) this
      · rintro rfl
        simp
  · constructor
    · rintro rfl h h' r
      exact h9 h h' (by have := h6 h; have := h6 h'; omega) r
    · intro hall
      by_contra hn1
      obtain ⟨s, hs⟩ := h7 0 h4
      obtain ⟨s', hs'⟩ := h7 1 (by omega)
      have hd : sid s ≠ sid s' := by rw [hs, hs']; omega
      -- the first device of the host has a row
      obtain ⟨hf1, hf2⟩ := hb.first_mem s
      have hp : 0 < (axes.map m.shape).prod := Nat.pos_of_ne_zero (fun hz => hb0 (Nat.eq_zero_of_zero_dvd (hz ▸ hdiv)))
      have hlt : blockNumber m.shape (first s) axes < (axes.map m.shape).prod := blockNumber_lt _ _ _ (fun a ha => hf1 a (hsub a ha))
      obtain ⟨q, hq⟩ := hdiv
      have hq0 : 0 < q := Nat.pos_of_ne_zero (fun hz => hb0 (by rw [hq, hz, Nat.mul_zero]))
      have hrow : HasRow m axes b' s (blockNumber m.shape (first s) axes * q) := by
        refine ⟨first s, hf1, hf2, ?_, ?_⟩
        · rw [hq]
          exact Nat.mul_lt_mul_of_pos_right hlt hq0
        · rw [hq, Nat.mul_div_cancel_left _ hp, Nat.mul_div_cancel _ hq0]
      exact h10 s s' hd _ ⟨hrow, (hall s s' _).mp hrow⟩

/-- Four hosts, 16 rows over the data axis of size 4 in two shards: precompiled for 8 rows, trained with 16. -/
example : ([0].map exMesh.shape).prod ∣ 16 ∧
    precompileDummy (elementSpec 16 ⟨some 16, 1, 2, false⟩ [("targets".toList, [7])]) = [("targets".toList, [8, 7])] ∧
    trainingBatch ⟨some 16, 1, 2, false⟩ (elementSpec 16 ⟨some 16, 1, 2, false⟩ [("targets".toList, [7])]) = [("targets".toList, [16, 7])] := by decide

end Verif.Precompile
