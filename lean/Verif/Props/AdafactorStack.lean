import Verif.Lemmas.AdafactorStack
import Verif.Props.AdafactorNum
/- C115: Adafactor trains the layers of a stacked parameter as it trains separate parameters. -/
namespace Verif.AdafactorStack
open Verif.ND Verif.Adafactor Verif.Adafactor.Spec Verif.AdafactorStack.Spec

variable {V : Type}

/-! ### Rules -/

theorem lifts_positions {ax : Nat} {r : List FactorDim} (h : ax ≤ r.length) {c : FactorDim} (hc : c ≠ .batch) :
    Lifts ax (positions r c) (positions (ins ax .batch r) c) := by
  constructor
  · rw [mem_positions, ins_at ax _ r h]
    simpa using hc.symm
  · intro j
    rw [mem_positions, mem_positions, ins_skip ax _ r h]

theorem lifts_avg {ax n : Nat} {r : List FactorDim} {avg : List Nat} (h : ax ≤ r.length) (hb : FactorDim.batch ∉ r)
    (ha : ∀ j, j ∈ avg ↔ j < r.length) (hn : n = r.length + 1) :
    Lifts ax avg (del (positions (ins ax .batch r) .batch) (List.range n)) := by
  constructor
  · rw [mem_del_range, mem_positions, ins_at ax _ r h]
    simp
  · intro j
    rw [mem_del_range, mem_positions, ins_skip ax _ r h, ha j, hn]
    constructor
    · rintro ⟨h1, -⟩
      simp only [skip] at h1
      split_ifs at h1 <;> omega
    · intro h1
      refine ⟨by simp only [skip]; split_ifs <;> omega, fun hx => hb (List.mem_of_getElem? hx)⟩

theorem mem_ins_iff {ax : Nat} {r : List FactorDim} (h : ax ≤ r.length) {c : FactorDim} (hc : c ≠ .batch) : c ∈ ins ax .batch r ↔ c ∈ r := by
  have := lifts_positions h hc
  rw [← not_iff_not, ← notMem_positions, ← notMem_positions]
  constructor
  · intro h1
    rw [List.eq_nil_iff_forall_not_mem] at h1 ⊢
    intro j hj
    exact h1 _ ((this.2 j).2 hj)
  · intro h1
    rw [List.eq_nil_iff_forall_not_mem] at h1 ⊢
    intro j hj
    by_cases hjx : j = ax
    · exact this.1 (hjx ▸ hj)
    · obtain ⟨j', rfl⟩ := exists_skip hjx
      exact h1 _ ((this.2 j').1 hj)

theorem batch_mem_ins {ax : Nat} {r : List FactorDim} (h : ax ≤ r.length) : FactorDim.batch ∈ ins ax .batch r :=
  List.mem_of_getElem? (ins_at ax _ r h)

/-- The number of accumulators of second moments in use. -/
def count : Dims → Nat
  | .dims _ _ => 2
  | _ => 1

theorem init_of_dims (O : Ops V) (D : Def) (momentum : Bool) (path : List Char) {s avg : List Nat} {d : Dims} (hd : dimsFor D path s = .ok (avg, d)) :
    ∃ init, initParam O D momentum path s = .ok init ∧ (∀ i, moments d init i = List.replicate (count d) O.zero) ∧
      ∀ i, init.m.get i = O.zero := by
  unfold initParam
  rw [hd]
  cases d with
  | dims d1 d0 =>
    refine ⟨_, rfl, fun i => rfl, fun i => ?_⟩
    cases momentum <;> rfl
  | unfactored =>
    refine ⟨_, rfl, fun i => rfl, fun i => ?_⟩
    cases momentum <;> rfl
  | heuristic =>
    refine ⟨_, rfl, fun i => rfl, fun i => ?_⟩
    cases momentum <;> rfl

theorem run_ins (O : Ops V) (D D' : Def) (path path' : List Char) (momentum : Bool) {ax n k : Nat} {s avg avg' : List Nat} {d d' : Dims}
    (hs : ∀ l, (D.argsort l).Perm (List.range l.length)) (hs' : ∀ l, (D'.argsort l).Perm (List.range l.length))
    (hk : k < n) (h : ax ≤ s.length) (hd : dimsFor D path s = .ok (avg, d)) (hd' : dimsFor D' path' (ins ax n s) = .ok (avg', d'))
    (ha : Lifts ax avg avg') (hl : LiftsD ax d d')
    {init init' : PState V} (hi : initParam O D momentum path s = .ok init) (hi' : initParam O D' momentum path' (ins ax n s) = .ok init')
    (l : List (HP V × NDArray V)) : ∀ (step : Int) (p q : NDArray V) (st su : PState V), p.shape = ins ax n s → q.shape = s → ShapesOf st init' →
      ShapesOf su init → IsLayer ax k s momentum d d' (q, su) (p, st) →
      (∀ x ∈ l, x.1.learningRate.isSome = true ∧ x.1.beta1.isSome = momentum ∧ x.2.shape = ins ax n s) →
      ∃ x y, run O D' path' step l (p, st) = .ok x ∧ run O D path step (l.map fun e => (e.1, layer ax k e.2)) (q, su) = .ok y ∧
        x.1.shape = ins ax n s ∧ y.1.shape = s ∧ IsLayer ax k s momentum d d' y x := by
  induction l with
  | nil => intro step p q st su hp hq _ _ hr _; exact ⟨_, _, rfl, rfl, hp, hq, hr⟩
  | cons a l ih =>
    obtain ⟨H, g⟩ := a
    intro step p q st su hp hq hst hsu hr hx
    obtain ⟨h1, h2, h3⟩ := hx (H, g) (by simp)
    dsimp only at h1 h2 h3
    obtain ⟨x, y, e1, e2, e3, e4, e5, e6, e7⟩ := step_ins O D D' H step path path' hs hs' hk h hd hd' ha hl h1 (by rw [h2]; exact hi) (by rw [h2]; exact hi')
      hp hq h3 (gk := layer ax k g) (by simp only [layer]; rw [h3, ins_erase ax n s h]) (fun _ _ => rfl) hst hsu (by rw [h2]; exact hr)
    rw [h2] at e7
    obtain ⟨x', y', f1, f2, f3⟩ := ih (step + 1) x.1 y.1 x.2 y.2 e3 e4 e5 e6 e7 (fun z hz => hx z (by simp [hz]))
    exact ⟨x', y', by simp only [run, e1]; exact f1, by simp only [List.map_cons, run, e2]; exact f2, f3⟩

/-- **C115.** Layers stacked along a dimension marked BATCH are trained exactly as separate parameters, whatever the scalar arithmetic: after any
number of updates, layer `k` of the stacked parameter, of its second moments and of its momentum are what updates of layer `k` alone give.  Holds for
layers of rank above 2, and for layers of rank at most 2 that are not factored either way. -/
theorem C115_layers (O : Ops V) (D D' : Def) (path path' : List Char) (m m' : List Char → Option Rule) (r : List FactorDim) (ax n : Nat) (s : List Nat)
    (momentum : Bool) (hs : ∀ l, (D.argsort l).Perm (List.range l.length)) (hs' : ∀ l, (D'.argsort l).Perm (List.range l.length))
    (hsort : ∀ l i j, i < j → j < (D.argsort l).length → l.getD ((D.argsort l).getD i 0) 0 ≤ l.getD ((D.argsort l).getD j 0) 0)
    (hf : D.factored = true) (hf' : D'.factored = true) (hm : D.factorMap = some m) (hm' : D'.factorMap = some m')
    (hr : m path = some (.dims r)) (hr' : m' path' = some (.dims (ins ax .batch r))) (hlen : r.length = s.length) (hb : FactorDim.batch ∉ r)
    (hax : ax ≤ s.length)
    (hc : 2 < s.length ∨ FactorDim.row ∉ r ∧ FactorDim.column ∉ r ∧ (s.length = 2 → ∃ x ∈ s, x < D.minDim)) :
    ∃ avg avg' d d' init init', dimsFor D path s = .ok (avg, d) ∧ dimsFor D' path' (ins ax n s) = .ok (avg', d') ∧
      initParam O D momentum path s = .ok init ∧ initParam O D' momentum path' (ins ax n s) = .ok init' ∧
      ∀ (l : List (HP V × NDArray V)) (step : Int) (p : NDArray V), p.shape = ins ax n s →
        (∀ x ∈ l, x.1.learningRate.isSome = true ∧ x.1.beta1.isSome = momentum ∧ x.2.shape = ins ax n s) →
        ∀ k < n, ∃ x y, run O D' path' step l (p, init') = .ok x ∧
          run O D path step (l.map fun e => (e.1, layer ax k e.2)) (layer ax k p, init) = .ok y ∧
          x.1.shape = ins ax n s ∧ y.1.shape = s ∧ IsLayer ax k s momentum d d' y x := by
  have hax' : ax ≤ r.length := by omega
  have hlen' : (ins ax FactorDim.batch r).length = (ins ax n s).length := by rw [ins_length, ins_length, hlen]
  have hd' := dims_explicit D' path' (ins ax n s) _ m' hf' hm' hr' hlen' (.inl (batch_mem_ins hax'))
  have hnn : (ins ax n s).length = r.length + 1 := by rw [ins_length, hlen]
  have key : ∃ avg d, dimsFor D path s = .ok (avg, d) ∧ (∀ j, j ∈ avg ↔ j < r.length) ∧ LiftsD ax d
      (if FactorDim.row ∉ ins ax .batch r ∧ FactorDim.column ∉ ins ax .batch r then .unfactored
        else .dims (positions (ins ax .batch r) .row) (positions (ins ax .batch r) .column)) := by
    simp only [mem_ins_iff hax' (c := .row) (by decide), mem_ins_iff hax' (c := .column) (by decide)]
    by_cases h2 : 2 < s.length
    · refine ⟨_, _, dims_explicit D path s r m hf hm hr hlen (.inr h2), ?_, ?_⟩
      · intro j
        rw [mem_del_range, mem_positions, hlen]
        exact ⟨fun h => h.1, fun h => ⟨h, fun hx => hb (List.mem_of_getElem? hx)⟩⟩
      · split_ifs with h1
        · trivial
        · exact ⟨lifts_positions hax' (by decide), lifts_positions hax' (by decide)⟩
    · obtain ⟨h3, h4, h5⟩ := hc.resolve_left h2
      obtain ⟨d, e1, -, e3⟩ := (C48_dims D path s hs hsort hf).2 (by omega) (.inr ⟨m, r, hm, hr, hlen, hb⟩)
      refine ⟨_, d, e1, fun j => by rw [List.mem_range, hlen], ?_⟩
      have hu : d = .unfactored := by
        refine e3 ?_
        rintro ⟨k1, k2, k3⟩
        obtain ⟨x, hx, hlt⟩ := h5 k1
        obtain ⟨a, b, rfl⟩ := List.length_eq_two.mp k1
        simp only [List.getD_cons_zero, List.getD_cons_succ] at k2 k3
        simp only [List.mem_cons, List.not_mem_nil, or_false] at hx
        rcases hx with rfl | rfl <;> omega
      rw [if_pos ⟨h3, h4⟩, hu]
      trivial
  obtain ⟨avg, d, hd, havg, hl⟩ := key
  obtain ⟨init, hi, hz, hz'⟩ := init_of_dims O D momentum path hd
  obtain ⟨init', hi', hy, hy'⟩ := init_of_dims O D' momentum path' hd'
  refine ⟨avg, _, d, _, init, init', hd, hd', hi, hi', ?_⟩
  intro l step p hp hx k hk
  refine run_ins O D D' path path' momentum hs hs' hk hax hd hd' (lifts_avg hax' hb havg hnn) hl hi hi' l step p (layer ax k p) init' init hp
    (by simp only [layer]; rw [hp, ins_erase ax n s hax]) ⟨rfl, rfl, rfl, rfl⟩ ⟨rfl, rfl, rfl, rfl⟩ ?_ hx
  intro i _
  refine ⟨rfl, ?_, fun _ => (hz' i).trans (hy' _).symm⟩
  show moments d init i = moments _ init' _
  rw [hz i, hy (ins ax k i)]
  revert hl
  generalize (if FactorDim.row ∉ ins ax .batch r ∧ FactorDim.column ∉ ins ax .batch r then Dims.unfactored
        else .dims (positions (ins ax .batch r) .row) (positions (ins ax .batch r) .column)) = d'
  cases d <;> cases d' <;> simp [LiftsD, count]

/-! ### Matrices -/

section
open Verif.AdafactorNum Verif.AdafactorNum.Spec

theorem mean_ins {ax n k : Nat} {s i dims dims' : List Nat} (hk : k < n) (h : ax ≤ s.length) (hi : InBox s i) (hd : Lifts ax dims dims')
    {f f' : List Nat → ℝ} (hf : ∀ j, InBox s j → f j = f' (ins ax k j)) : mean (ins ax n s) dims' f' (ins ax k i) = mean s dims f i := by
  unfold mean
  rw [slice_ins hk h hi hd, List.map_map, List.length_map]
  congr 2
  refine List.map_congr_left fun j hj => ?_
  simp only [Function.comp, hf j ((mem_slice s dims i j).1 hj).1]

theorem rmsOf_ins {ax n k : Nat} {s i dims dims' : List Nat} (hk : k < n) (h : ax ≤ s.length) (hi : InBox s i) (hd : Lifts ax dims dims')
    {f f' : List Nat → ℝ} (hf : ∀ j, InBox s j → f j = f' (ins ax k j)) : rmsOf (ins ax n s) dims' f' (ins ax k i) = rmsOf s dims f i := by
  unfold rmsOf
  rw [mean_ins hk h hi hd (f := fun j => f j ^ 2) fun j hj => by rw [hf j hj]]

theorem step1_ins (H : HP ℝ) (lr : ℝ) {ax n k : Nat} {s i avg avg' : List Nat} (hk : k < n) (h : ax ≤ s.length) (hi : InBox s i) (hd : Lifts ax avg avg')
    {p p' y y' : List Nat → ℝ} (hp : ∀ j, InBox s j → p j = p' (ins ax k j)) (hy : ∀ j, InBox s j → y j = y' (ins ax k j)) :
    step1 H lr (ins ax n s) avg' p' y' (ins ax k i) = step1 H lr s avg p y i := by
  unfold step1 size
  rw [rmsOf_ins hk h hi hd hp, rmsOf_ins hk h hi hd hy, hy i hi]

theorem mean_swap (n m : Nat) (W : List Nat → ℝ) (i : List Nat) (hi : InBox [n, m] i) :
    mean [n, m] [0] (mean [n, m] [1] W) i = mean [n, m] [1] (mean [n, m] [0] W) i := by
  obtain ⟨x, y, rfl, hx, hy⟩ : ∃ x y, i = [x, y] ∧ x < n ∧ y < m := by
    cases hi with
    | cons h1 h => cases h with
      | cons h2 h => cases h; exact ⟨_, _, rfl, h1, h2⟩
  rw [(mean_two n m x y hx hy _).1, (mean_two n m x y hx hy _).2]
  rw [Finset.sum_congr rfl fun x' hx' => (mean_two n m x' y (Finset.mem_range.1 hx') hy W).1,
    Finset.sum_congr rfl fun y' hy' => (mean_two n m x y' hx (Finset.mem_range.1 hy') W).2, ← Finset.sum_div, ← Finset.sum_div, Finset.sum_comm]
  rw [div_div, div_div, mul_comm]

/-- The estimate of a matrix does not depend on which dimension is called row. -/
theorem estimate_swap (n m : Nat) (W : List Nat → ℝ) (i : List Nat) (hi : InBox [n, m] i) :
    estimate [n, m] (.dims [0] [1]) W i = estimate [n, m] (.dims [1] [0]) W i := by
  unfold estimate
  dsimp only
  rw [mean_swap n m W i hi, mul_comm]

/-- The rows and columns of a matrix, in one order or the other. -/
def Two (d1 d0 : List Nat) : Prop := (d1 = [0] ∧ d0 = [1]) ∨ (d1 = [1] ∧ d0 = [0])

theorem estimate_two {n m : Nat} {d1 d0 e1 e0 : List Nat} (hd : Two d1 d0) (he : Two e1 e0) (W : List Nat → ℝ) (i : List Nat) (hi : InBox [n, m] i) :
    estimate [n, m] (.dims d1 d0) W i = estimate [n, m] (.dims e1 e0) W i := by
  rcases hd with ⟨rfl, rfl⟩ | ⟨rfl, rfl⟩ <;> rcases he with ⟨rfl, rfl⟩ | ⟨rfl, rfl⟩
  · rfl
  · exact estimate_swap n m W i hi
  · exact (estimate_swap n m W i hi).symm
  · rfl

theorem estimate_ins {ax N k n m : Nat} {d1 d0 d1' d0' : List Nat} (hk : k < N) (h : ax ≤ 2) (h1 : Lifts ax d1 d1') (h0 : Lifts ax d0 d0')
    {W W' : List Nat → ℝ} (hW : ∀ j, InBox [n, m] j → W j = W' (ins ax k j)) {i : List Nat} (hi : InBox [n, m] i) :
    estimate (ins ax N [n, m]) (.dims d1' d0') W' (ins ax k i) = estimate [n, m] (.dims d1 d0) W i := by
  unfold estimate
  dsimp only
  rw [mean_ins hk h hi h0 hW, mean_ins hk h hi h1 hW,
    mean_ins hk h hi h1 (f := mean [n, m] d0 W) fun j hj => (mean_ins hk h hj h0 hW).symm]

/-- What is kept along the run of a stacked matrix and of one of its layers. -/
structure Inv (ax k : Nat) (s : List Nat) (momentum : Bool) (d d' : Dims) (s' : List Nat) (init init' : PState ℝ) (y x : NDArray ℝ × PState ℝ)
    (W W' : List Nat → ℝ) : Prop where
  shape : y.1.shape = s
  shape' : x.1.shape = s'
  of : ShapesOf y.2 init
  of' : ShapesOf x.2 init'
  param : ∀ i, InBox s i → y.1.get i = x.1.get (ins ax k i)
  mom : momentum = true → ∀ i, InBox s i → y.2.m.get i = x.2.m.get (ins ax k i)
  holds : Holds s d y.2 W
  holds' : Holds s' d' x.2 W'
  eq : ∀ i, InBox s i → W i = W' (ins ax k i)
  nonneg : ∀ i, 0 ≤ W' i
  nonneg1 : ∀ i, 0 ≤ W i

theorem inv_step (D D' : Def) (H : HP ℝ) (step : Int) (path path' : List Char) {ax N k n m : Nat} {avg avg' d1 d0 e1 e0 d1' d0' : List Nat}
    (hs : ∀ l, (D.argsort l).Perm (List.range l.length)) (hs' : ∀ l, (D'.argsort l).Perm (List.range l.length)) (hk : k < N) (hax : ax ≤ 2)
    (hd : dimsFor D path [n, m] = .ok (avg, .dims e1 e0)) (hd' : dimsFor D' path' (ins ax N [n, m]) = .ok (avg', .dims d1' d0'))
    (ha : Lifts ax avg avg') (h1 : Lifts ax d1 d1') (h0 : Lifts ax d0 d0') (ht : Two d1 d0) (he : Two e1 e0)
    (hlr : H.learningRate.isSome = true) (hdr : 0 < H.decayRate) (heps : 0 < H.eps1) (ho : H.stepOffset ≤ step)
    {init init' : PState ℝ} (hi : initParam realOps D H.beta1.isSome path [n, m] = .ok init)
    (hi' : initParam realOps D' H.beta1.isSome path' (ins ax N [n, m]) = .ok init')
    {q p g gk : NDArray ℝ} {su st : PState ℝ} {W W' : List Nat → ℝ} (hg : g.shape = ins ax N [n, m]) (hgs : gk.shape = [n, m])
    (hgk : ∀ i, gk.get i = g.get (ins ax k i))
    (hv : Inv ax k [n, m] H.beta1.isSome (.dims e1 e0) (.dims d1' d0') (ins ax N [n, m]) init init' (q, su) (p, st) W W') :
    ∃ x y, applyParam realOps D' H step path' p st g = .ok x ∧ applyParam realOps D H step path q su gk = .ok y ∧
      Inv ax k [n, m] H.beta1.isSome (.dims e1 e0) (.dims d1' d0') (ins ax N [n, m]) init init' y x (moment H step W gk.get) (moment H step W' g.get) := by
  obtain ⟨lr, hlr⟩ := Option.isSome_iff_exists.mp hlr
  have hp : p.shape = ins ax N [n, m] := hv.shape'
  have hq : q.shape = [n, m] := hv.shape
  obtain ⟨x, u', hx, hxs, hu', -, hx0, hx1⟩ := C91_step D' H step path' p g st init' lr avg' _ hs' (by rw [hp]; exact hd') hlr (by rw [hg, hp])
    (by rw [hp]; exact hi') hv.of' W' (by rw [hp]; exact hv.holds') (fun i _ => hv.nonneg i) hdr heps ho
  obtain ⟨y, u, hy, hys, hu, -, hy0, hy1⟩ := C91_step D H step path q gk su init lr avg _ hs (by rw [hq]; exact hd) hlr (by rw [hgs, hq])
    (by rw [hq]; exact hi) hv.of W (by rw [hq]; exact hv.holds) (fun i _ => hv.nonneg1 i) hdr heps ho
  obtain ⟨a1, a2, a3⟩ := holds_step D' H step path' p g st init' avg' _ x hs' (by rw [hp]; exact hd') (by rw [hg, hp]) (by rw [hp]; exact hi') hv.of' W'
    (by rw [hp]; exact hv.holds') hx
  obtain ⟨b1, b2, b3⟩ := holds_step D H step path q gk su init avg _ y hs (by rw [hq]; exact hd) (by rw [hgs, hq]) (by rw [hq]; exact hi) hv.of W
    (by rw [hq]; exact hv.holds) hy
  rw [hp] at hxs hu' hx0 hx1 a3
  rw [hq] at hys hu hy0 hy1 b3
  have hmom : ∀ j, InBox [n, m] j → moment H step W gk.get j = moment H step W' g.get (ins ax k j) := by
    intro j hj
    unfold moment
    rw [hv.eq j hj, hgk]
  have huu : ∀ i, InBox [n, m] i → u i = u' (ins ax k i) := by
    intro i hb
    rw [hu i hb, hu' _ (ins_inBox hk hb)]
    refine (step1_ins H lr hk hax hb ha hv.param ?_).symm
    intro j hj
    rw [hgk, estimate_ins hk hax h1 h0 hmom hj, estimate_two he ht _ j hj]
  refine ⟨x, y, hx, hy, ⟨hys, hxs, b2, a2, ?_, ?_, b3, a3, hmom, ?_, ?_⟩⟩
  · intro i hb
    have hb' := ins_inBox (ax := ax) hk hb
    have hpi : q.get i = p.get (ins ax k i) := hv.param i hb
    cases hbeta : H.beta1 with
    | none => rw [hx0 hbeta _ hb', hy0 hbeta i hb, huu i hb, hpi]
    | some b =>
      rw [(hx1 b hbeta _ hb').2, (hy1 b hbeta i hb).2, (hx1 b hbeta _ hb').1, (hy1 b hbeta i hb).1, huu i hb]
      have := hv.mom (by rw [hbeta]; rfl) i hb
      dsimp only at this
      rw [this, hpi]
  · intro hbt i hb
    have hb' := ins_inBox (ax := ax) hk hb
    obtain ⟨b, hbeta⟩ := Option.isSome_iff_exists.mp hbt
    rw [(hx1 b hbeta _ hb').1, (hy1 b hbeta i hb).1, huu i hb]
    have := hv.mom hbt i hb
    dsimp only at this
    rw [this]
  · exact fun i => (moment_pos H hdr heps step ho W' _ i (hv.nonneg i)).le
  · exact fun i => (moment_pos H hdr heps step ho W _ i (hv.nonneg1 i)).le

theorem inv_run (D D' : Def) (path path' : List Char) (momentum : Bool) {ax N k n m : Nat} {avg avg' d1 d0 e1 e0 d1' d0' : List Nat}
    (hs : ∀ l, (D.argsort l).Perm (List.range l.length)) (hs' : ∀ l, (D'.argsort l).Perm (List.range l.length)) (hk : k < N) (hax : ax ≤ 2)
    (hd : dimsFor D path [n, m] = .ok (avg, .dims e1 e0)) (hd' : dimsFor D' path' (ins ax N [n, m]) = .ok (avg', .dims d1' d0'))
    (ha : Lifts ax avg avg') (h1 : Lifts ax d1 d1') (h0 : Lifts ax d0 d0') (ht : Two d1 d0) (he : Two e1 e0)
    {init init' : PState ℝ} (hi : initParam realOps D momentum path [n, m] = .ok init)
    (hi' : initParam realOps D' momentum path' (ins ax N [n, m]) = .ok init') (l : List (HP ℝ × NDArray ℝ)) :
    ∀ (step : Int) (q p : NDArray ℝ) (su st : PState ℝ) (W W' : List Nat → ℝ),
      (∀ x ∈ l, x.1.learningRate.isSome = true ∧ x.1.beta1.isSome = momentum ∧ x.2.shape = ins ax N [n, m] ∧ 0 < x.1.decayRate ∧ 0 < x.1.eps1 ∧
        x.1.stepOffset ≤ step) →
      Inv ax k [n, m] momentum (.dims e1 e0) (.dims d1' d0') (ins ax N [n, m]) init init' (q, su) (p, st) W W' →
      ∃ x y W W', run realOps D' path' step l (p, st) = .ok x ∧ run realOps D path step (l.map fun e => (e.1, layer ax k e.2)) (q, su) = .ok y ∧
        Inv ax k [n, m] momentum (.dims e1 e0) (.dims d1' d0') (ins ax N [n, m]) init init' y x W W' := by
  induction l with
  | nil => intro step q p su st W W' _ hv; exact ⟨_, _, W, W', rfl, rfl, hv⟩
  | cons a l ih =>
    obtain ⟨H, g⟩ := a
    intro step q p su st W W' hx hv
    obtain ⟨k1, k2, k3, k4, k5, k6⟩ := hx (H, g) (by simp)
    dsimp only at k1 k2 k3 k4 k5 k6
    obtain ⟨x, y, e3, e4, e5⟩ := inv_step D D' H step path path' hs hs' hk hax hd hd' ha h1 h0 ht he k1 k4 k5 k6 (by rw [k2]; exact hi)
      (by rw [k2]; exact hi') k3 (gk := layer ax k g) (by simp only [layer]; rw [k3, ins_erase ax N [n, m] hax]) (fun _ => rfl) (by rw [k2]; exact hv)
    rw [k2] at e5
    obtain ⟨x', y', W1, W1', f1, f2, f3⟩ := ih (step + 1) y.1 x.1 y.2 x.2 _ _ (fun z hz => by
      obtain ⟨m1, m2, m3, m4, m5, m6⟩ := hx z (by simp [hz])
      exact ⟨m1, m2, m3, m4, m5, by omega⟩) e5
    exact ⟨x', y', W1, W1', by simp only [run, e3]; exact f1, by simp only [List.map_cons, run, e4]; exact f2, f3⟩

/-- **C115.** Matrices (MLP kernels) whose two dimensions reach `min_dim_size_to_factor`: stacked along a BATCH dimension they are trained as they are
trained separately, in exact arithmetic, although which of the two accumulators is called row may differ. -/
theorem C115_matrices (D D' : Def) (path path' : List Char) (mp mp' : List Char → Option Rule) (r : List FactorDim) (ax N n m : Nat) (momentum : Bool)
    (hs : ∀ l, (D.argsort l).Perm (List.range l.length)) (hs' : ∀ l, (D'.argsort l).Perm (List.range l.length))
    (hsort : ∀ l i j, i < j → j < (D.argsort l).length → l.getD ((D.argsort l).getD i 0) 0 ≤ l.getD ((D.argsort l).getD j 0) 0)
    (hf : D.factored = true) (hf' : D'.factored = true) (hm : D.factorMap = some mp) (hm' : D'.factorMap = some mp')
    (hr : mp path = some (.dims r)) (hr' : mp' path' = some (.dims (ins ax .batch r))) (hrr : r = [.row, .column] ∨ r = [.column, .row]) (hax : ax ≤ 2)
    (hn1 : D.minDim ≤ n) (hn2 : D.minDim ≤ m) :
    ∃ avg avg' d d' init init', dimsFor D path [n, m] = .ok (avg, d) ∧ dimsFor D' path' (ins ax N [n, m]) = .ok (avg', d') ∧
      initParam realOps D momentum path [n, m] = .ok init ∧ initParam realOps D' momentum path' (ins ax N [n, m]) = .ok init' ∧
      ∀ (l : List (HP ℝ × NDArray ℝ)) (step : Int) (p : NDArray ℝ), p.shape = ins ax N [n, m] →
        (∀ x ∈ l, x.1.learningRate.isSome = true ∧ x.1.beta1.isSome = momentum ∧ x.2.shape = ins ax N [n, m] ∧ 0 < x.1.decayRate ∧ 0 < x.1.eps1 ∧
          x.1.stepOffset ≤ step) →
        ∀ k < N, ∃ x y, run realOps D' path' step l (p, init') = .ok x ∧
          run realOps D path step (l.map fun e => (e.1, layer ax k e.2)) (layer ax k p, init) = .ok y ∧
          x.1.shape = ins ax N [n, m] ∧ y.1.shape = [n, m] ∧
          ∀ i, InBox [n, m] i → y.1.get i = x.1.get (ins ax k i) ∧ (moments d y.2 i).Perm (moments d' x.2 (ins ax k i)) ∧
            (momentum = true → y.2.m.get i = x.2.m.get (ins ax k i)) := by
  have hlen : r.length = 2 := by rcases hrr with rfl | rfl <;> rfl
  have hb : FactorDim.batch ∉ r := by rcases hrr with rfl | rfl <;> decide
  have hrow : FactorDim.row ∈ r := by rcases hrr with rfl | rfl <;> decide
  have hax' : ax ≤ r.length := by omega
  have hd' := dims_explicit D' path' (ins ax N [n, m]) _ mp' hf' hm' hr' (by rw [ins_length, ins_length, hlen]; rfl) (.inl (batch_mem_ins hax'))
  rw [if_neg (fun h => h.1 ((mem_ins_iff hax' (by decide)).2 hrow))] at hd'
  obtain ⟨d, hd, e2, -⟩ := (C48_dims D path [n, m] hs hsort hf).2 (by simp) (.inr ⟨mp, r, hm, hr, by simpa using hlen, hb⟩)
  have ht : Two (positions r .row) (positions r .column) := by
    rcases hrr with rfl | rfl
    · exact .inl ⟨rfl, rfl⟩
    · exact .inr ⟨rfl, rfl⟩
  obtain ⟨e1, e0, rfl, he⟩ : ∃ e1 e0, d = .dims e1 e0 ∧ Two e1 e0 := by
    rcases e2 ⟨rfl, hn1, hn2⟩ with ⟨h, -⟩ | ⟨h, -⟩
    · exact ⟨_, _, h, .inl ⟨rfl, rfl⟩⟩
    · exact ⟨_, _, h, .inr ⟨rfl, rfl⟩⟩
  obtain ⟨init, hi, hz, hz'⟩ := init_of_dims realOps D momentum path hd
  obtain ⟨init', hi', hy, hy'⟩ := init_of_dims realOps D' momentum path' hd'
  refine ⟨_, _, _, _, init, init', hd, hd', hi, hi', ?_⟩
  intro l step p hp hx k hk
  have hav : Lifts ax (List.range [n, m].length) (del (positions (ins ax .batch r) .batch) (List.range (ins ax N [n, m]).length)) :=
    lifts_avg hax' hb (fun j => by rw [List.mem_range, hlen]; rfl) (by rw [ins_length, hlen]; rfl)
  have hl1 := lifts_positions hax' (c := .row) (by decide)
  have hl0 := lifts_positions hax' (c := .column) (by decide)
  have hh : ∀ (s : List Nat) (d1 d0 : List Nat) (st : PState ℝ), (∀ i, moments (.dims d1 d0) st i = List.replicate 2 realOps.zero) →
      Holds s (.dims d1 d0) st fun _ => 0 := by
    intro s d1 d0 st h
    refine ⟨fun hne => absurd rfl (hne d1 d0), ?_⟩
    intro f1 f0 hff i _
    cases hff
    have h1 := h i
    simp only [moments, List.replicate_succ, List.replicate_zero, List.cons.injEq, and_true] at h1
    have hz : ∀ (t dims i : List Nat), mean t dims (fun _ => (0 : ℝ)) i = 0 := by
      intro t dims i
      unfold mean
      simp
    rw [h1.1, h1.2, hz, hz]
    exact ⟨rfl, rfl⟩
  obtain ⟨x, y, W, W', f1, f2, f3⟩ := inv_run D D' path path' momentum hs hs' hk hax hd hd' hav hl1 hl0 ht he hi hi' l step (layer ax k p) p init init'
    (fun _ => 0) (fun _ => 0) hx ⟨by simp only [layer]; rw [hp, ins_erase ax N [n, m] hax], hp, ⟨rfl, rfl, rfl, rfl⟩, ⟨rfl, rfl, rfl, rfl⟩, fun _ _ => rfl,
      fun _ i _ => (hz' i).trans (hy' _).symm, hh _ _ _ _ hz, hh _ _ _ _ hy, fun _ _ => rfl, fun _ => le_rfl, fun _ => le_rfl⟩
  refine ⟨x, y, f1, f2, f3.shape', f3.shape, fun i hb' => ⟨f3.param i hb', ?_, fun h => f3.mom h i hb'⟩⟩
  obtain ⟨g1, g2⟩ := f3.holds.2 _ _ rfl i hb'
  obtain ⟨g3, g4⟩ := f3.holds'.2 _ _ rfl _ (ins_inBox (ax := ax) hk hb')
  rw [mean_ins hk hax hb' hl0 f3.eq] at g3
  rw [mean_ins hk hax hb' hl1 f3.eq] at g4
  simp only [moments]
  rw [g1, g2, g3, g4]
  rcases ht with ⟨h1, h2⟩ | ⟨h1, h2⟩ <;> rcases he with ⟨h3, h4⟩ | ⟨h3, h4⟩ <;> rw [h1, h2, h3, h4]
  · exact List.Perm.swap _ _ _
  · exact List.Perm.swap _ _ _

/-! ### Where stacking matters -/

/-- Learning rate 1, nothing optional. -/
noncomputable def H1 (scale : Bool) : HP ℝ := ⟨some 1, none, 4 / 5, 0, scale, none, none, none, none, 1, 1 / 1000, false⟩

theorem decay_first (b : Bool) : decayAt (H1 b) 0 = 0 := by
  simp [decayAt, H1]

theorem moment_first (b : Bool) (W g : List Nat → ℝ) (i : List Nat) : moment (H1 b) 0 W g i = g i ^ 2 + 1 := by
  unfold moment
  rw [decay_first]
  simp [H1]

theorem holds_init {D : Def} {path : List Char} {s avg : List Nat} {d : Dims} {init : PState ℝ} (hd : dimsFor D path s = .ok (avg, d))
    (hi : initParam realOps D false path s = .ok init) : Holds s d init fun _ => 0 := by
  obtain ⟨init2, h1, h2, -⟩ := init_of_dims realOps D false path hd
  rw [hi] at h1
  simp only [Except.ok.injEq] at h1
  subst h1
  have hz : ∀ (t dims i : List Nat), mean t dims (fun _ => (0 : ℝ)) i = 0 := by
    intro t dims i
    unfold mean
    simp
  refine ⟨fun hne i _ => ?_, fun d1 d0 hdd i _ => ?_⟩
  · have := h2 i
    cases d with
    | dims a b => exact absurd rfl (hne a b)
    | _ => simpa [moments, count, realOps] using this
  · subst hdd
    have := h2 i
    simp only [moments, count, List.replicate_succ, List.replicate_zero, List.cons.injEq, and_true] at this
    rw [this.1, this.2, hz, hz]
    exact ⟨rfl, rfl⟩

/-- The first step. -/
theorem first_step {D : Def} {path : List Char} {s avg : List Nat} {d : Dims} (b : Bool) (hs : ∀ l, (D.argsort l).Perm (List.range l.length))
    (hd : dimsFor D path s = .ok (avg, d)) (p g : NDArray ℝ) (hp : p.shape = s) (hg : g.shape = s) :
    ∃ init x, initParam realOps D false path s = .ok init ∧ run realOps D path 0 [(H1 b, g)] (p, init) = .ok x ∧
      ∀ i, InBox s i → x.1.get i = p.get i - step1 (H1 b) 1 s avg p.get (fun j => g.get j / √(estimate s d (fun j => g.get j ^ 2 + 1) j)) i := by
  obtain ⟨init, hi, -⟩ := init_of_dims realOps D false path hd
  subst hp
  obtain ⟨x, u, hx, -, hu, -, h0, -⟩ := C91_step D (H1 b) 0 path p g init init 1 avg d hs hd rfl hg hi ⟨rfl, rfl, rfl, rfl⟩ (fun _ => 0)
    (holds_init hd hi) (fun _ _ => le_rfl) (by simp only [H1]; norm_num) (by simp only [H1]; norm_num) (by simp [H1])
  refine ⟨init, x, hi, by simp only [run, hx], fun i hb => ?_⟩
  have e1 : effDecay realOps (H1 b) 1 = none := by cases b <;> rfl
  have e2 : (moment (H1 b) 0 (fun _ => 0) g.get) = fun j => g.get j ^ 2 + 1 := funext fun j => moment_first b _ _ j
  rw [h0 rfl i hb, hu i hb, e1, e2]
  simp

/-- A matrix of 2 times 2 with the rule (ROW, COLUMN), and `min_dim_size_to_factor` 128 as usual; and the same for one such matrix stacked. -/
def small : Def := ⟨true, some fun _ => some (.dims [.row, .column]), 128, fun l => List.range l.length⟩

def smallStack : Def := ⟨true, some fun _ => some (.dims [.row, .batch, .column]), 128, fun l => List.range l.length⟩

/-- A gradient for the first element only. -/
noncomputable def spike : NDArray ℝ := ⟨[2, 1, 2], fun i => if i = [0, 0, 0] then 1 else 0⟩

/-- The gradient of two equal elements. -/
noncomputable def ones : NDArray ℝ := ⟨[1, 2], fun _ => 1⟩

/-- Two layers of one element. -/
noncomputable def pair : NDArray ℝ := ⟨[1, 2], fun i => if i = [0, 0] then 1 else 7⟩

/-- **C115.** A small matrix is factored when it is stacked, and not factored otherwise: already after one step the values differ. -/
theorem C115_small_differs : ∃ init init' x y, initParam realOps small false [] [2, 2] = .ok init ∧
    initParam realOps smallStack false [] (ins 1 1 [2, 2]) = .ok init' ∧
    run realOps smallStack [] 0 [(H1 false, spike)] (⟨[2, 1, 2], fun _ => 0⟩, init') = .ok x ∧
    run realOps small [] 0 [(H1 false, layer 1 0 spike)] (layer 1 0 ⟨[2, 1, 2], fun _ => 0⟩, init) = .ok y ∧ y.1.get [0, 0] ≠ x.1.get [0, 0, 0] := by
  have hb : InBox [2, 2] [0, 0] := List.Forall₂.cons (by decide) (List.Forall₂.cons (by decide) List.Forall₂.nil)
  have hb' : InBox [2, 1, 2] [0, 0, 0] := ins_inBox (ax := 1) (n := 1) (k := 0) (by decide) hb
  have hd : dimsFor small [] [2, 2] = .ok ([0, 1], .unfactored) := by decide
  have hd' : dimsFor smallStack [] [2, 1, 2] = .ok ([0, 2], .dims [0] [2]) := by decide
  obtain ⟨init', x, h1, h2, h3⟩ := first_step (D := smallStack) false (fun l => List.Perm.refl _) hd' ⟨[2, 1, 2], fun _ => 0⟩ spike rfl rfl
  obtain ⟨init, y, k1, k2, k3⟩ := first_step (D := small) false (fun l => List.Perm.refl _) hd (layer 1 0 ⟨[2, 1, 2], fun _ => 0⟩) (layer 1 0 spike) rfl rfl
  refine ⟨init, init', x, y, k1, h1, h2, k2, ?_⟩
  rw [h3 _ hb', k3 _ hb]
  have hl1 : Lifts 1 [0] [0] := ⟨by decide, fun j => by simp only [skip, List.mem_singleton]; split_ifs <;> simp; omega⟩
  have hl0 : Lifts 1 [1] [2] := ⟨by decide, fun j => by simp only [skip, List.mem_singleton]; split_ifs <;> omega⟩
  have he : estimate [2, 1, 2] (.dims [0] [2]) (fun j => spike.get j ^ 2 + 1) [0, 0, 0] = 9 / 5 := by
    have := estimate_ins (ax := 1) (N := 1) (k := 0) (n := 2) (m := 2) (by decide) (by decide) hl1 hl0
      (W := fun j => spike.get (ins 1 0 j) ^ 2 + 1) (W' := fun j => spike.get j ^ 2 + 1) (fun _ _ => rfl) hb
    refine this.trans ?_
    unfold estimate
    dsimp only
    rw [(mean_two 2 2 0 0 (by decide) (by decide) _).1, (mean_two 2 2 0 0 (by decide) (by decide) _).2, (mean_two 2 2 0 0 (by decide) (by decide) _).2]
    rw [Finset.sum_congr rfl fun x' hx' => (mean_two 2 2 x' 0 (Finset.mem_range.1 hx') (by decide) _).1]
    simp only [Finset.sum_range_succ, Finset.sum_range_zero, spike, ins]
    norm_num
  have he' : estimate [2, 2] .unfactored (fun j => (layer 1 0 spike).get j ^ 2 + 1) [0, 0] = 2 := by
    simp only [estimate, layer, spike, ins]
    norm_num
  have hs1 : ∀ (s avg : List Nat) (p y : List Nat → ℝ) (i : List Nat), step1 (H1 false) 1 s avg p y i = y i := by
    intro s avg p y i
    simp [step1, size, H1]
  rw [hs1, hs1, he, he']
  simp only [layer, spike, ins, if_true]
  intro h
  have h5 : √(2 : ℝ) = √(9 / 5) := by
    have h6 : (1 : ℝ) / √2 = 1 / √(9 / 5) := by linarith
    rw [one_div, one_div] at h6
    exact inv_injective h6
  rw [Real.sqrt_inj (by norm_num) (by norm_num)] at h5
  norm_num at h5

/-- **C115.** With `factored=False` the parameter scale is computed over all layers of a stack: a layer's step depends on the values of the others. -/
theorem C115_unfactored_differs : ∃ init init' x y, initParam realOps ⟨false, none, 128, fun l => List.range l.length⟩ false [] [1] = .ok init ∧
    initParam realOps ⟨false, none, 128, fun l => List.range l.length⟩ false [] (ins 1 2 [1]) = .ok init' ∧
    run realOps ⟨false, none, 128, fun l => List.range l.length⟩ [] 0 [(H1 true, ones)] (pair, init') = .ok x ∧
    run realOps ⟨false, none, 128, fun l => List.range l.length⟩ [] 0 [(H1 true, layer 1 0 ones)] (layer 1 0 pair, init) = .ok y ∧
    y.1.get [0] ≠ x.1.get [0, 0] := by
  have hb : InBox [1] [0] := List.Forall₂.cons (by decide) List.Forall₂.nil
  have hb' : InBox [1, 2] [0, 0] := List.Forall₂.cons (by decide) (List.Forall₂.cons (by decide) List.Forall₂.nil)
  have hd : dimsFor ⟨false, none, 128, fun l => List.range l.length⟩ [] [1] = .ok ([0], .unfactored) := by decide
  have hd' : dimsFor ⟨false, none, 128, fun l => List.range l.length⟩ [] [1, 2] = .ok ([0, 1], .unfactored) := by decide
  obtain ⟨init', x, h1, h2, h3⟩ := first_step true (fun l => List.Perm.refl _) hd' pair ones rfl rfl
  obtain ⟨init, y, k1, k2, k3⟩ := first_step true (fun l => List.Perm.refl _) hd (layer 1 0 pair) (layer 1 0 ones) rfl rfl
  refine ⟨init, init', x, y, k1, h1, h2, k2, ?_⟩
  rw [h3 _ hb', k3 _ hb]
  have e1 : rmsOf [1, 2] [0, 1] pair.get [0, 0] = 5 := by
    have hsl : slice [1, 2] [0, 1] [0, 0] = [[0, 0], [0, 1]] := by decide
    unfold rmsOf mean
    rw [hsl, show (5 : ℝ) = √25 by rw [show (25 : ℝ) = 5 ^ 2 by norm_num, Real.sqrt_sq (by norm_num)]]
    congr 1
    simp [pair]
    norm_num
  have e2 : rmsOf [1] [0] (layer 1 0 pair).get [0] = 1 := by
    have hsl : slice [1] [0] [0] = [[0]] := by decide
    unfold rmsOf mean
    rw [hsl]
    simp [pair, layer, ins]
  have hs1 : ∀ (s avg : List Nat) (p y : List Nat → ℝ) (i : List Nat), step1 (H1 true) 1 s avg p y i = max (rmsOf s avg p i) (1 / 1000) * y i := by
    intro s avg p y i
    simp [step1, size, H1]
  rw [hs1, hs1, e1, e2]
  simp only [estimate, layer, ones, pair, ins]
  norm_num

/-! ### The hypotheses can be met -/

/-- `argsort` by a stable sort of the positions. -/
def argsort (l : List Nat) : List Nat := (List.range l.length).mergeSort fun i j => l.getD i 0 ≤ l.getD j 0

theorem argsort_perm (l : List Nat) : (argsort l).Perm (List.range l.length) := List.mergeSort_perm _ _

theorem argsort_sorted (l : List Nat) (i j : Nat) (h : i < j) (hj : j < (argsort l).length) :
    l.getD ((argsort l).getD i 0) 0 ≤ l.getD ((argsort l).getD j 0) 0 := by
  have hs : (argsort l).Pairwise fun a b => (decide (l.getD a 0 ≤ l.getD b 0)) = true :=
    List.pairwise_mergeSort (fun a b c h1 h2 => by simp only [decide_eq_true_eq] at *; omega) (fun a b => by simp only [Bool.or_eq_true, decide_eq_true_eq]; omega) _
  have := List.pairwise_iff_getElem.1 hs i j (by omega) hj h
  simpa [List.getD_eq_getElem?_getD, List.getElem?_eq_getElem hj, List.getElem?_eq_getElem (show i < (argsort l).length by omega)] using this

/-- The rules of one layer, and of the stack along dimension 1. -/
def one (r : List FactorDim) (minDim : Nat) : Def := ⟨true, some fun _ => some (.dims r), minDim, argsort⟩

/-- The kernels of the attention (rank 3), of 12 layers. -/
example : ∃ avg avg' d d' init init', dimsFor (one [.row, .column, .column] 128) [] [512, 6, 64] = .ok (avg, d) ∧
    dimsFor (one [.row, .batch, .column, .column] 128) [] [512, 12, 6, 64] = .ok (avg', d') ∧
    initParam intOps (one [.row, .column, .column] 128) false [] [512, 6, 64] = .ok init ∧
    initParam intOps (one [.row, .batch, .column, .column] 128) false [] [512, 12, 6, 64] = .ok init' := by
  obtain ⟨avg, avg', d, d', init, init', h1, h2, h3, h4, -⟩ := C115_layers intOps (one [.row, .column, .column] 128)
    (one [.row, .batch, .column, .column] 128) [] [] _ _ [.row, .column, .column] 1 12 [512, 6, 64] false argsort_perm argsort_perm argsort_sorted rfl rfl
    rfl rfl rfl rfl rfl (by decide) (by decide) (.inl (by decide))
  exact ⟨avg, avg', d, d', init, init', h1, h2, h3, h4⟩

/-- The scales of the layer norms, and the position biases of 6 heads. -/
example (p g : NDArray Int) (hp : p.shape = [512, 12]) (hg : g.shape = [512, 12]) (H : HP Int) (h1 : H.learningRate.isSome = true)
    (h2 : H.beta1.isSome = false) : ∃ init init' x y, run intOps (one [.none, .batch] 128) [] 0 [(H, g), (H, g)] (p, init') = .ok x ∧
      run intOps (one [.none] 128) [] 0 [(H, layer 1 3 g), (H, layer 1 3 g)] (layer 1 3 p, init) = .ok y ∧ y.1.get [5] = x.1.get [5, 3] := by
  obtain ⟨avg, avg', d, d', init, init', -, -, -, -, h⟩ := C115_layers intOps (one [.none] 128) (one [.none, .batch] 128) [] [] _ _ [.none] 1 12 [512]
    false argsort_perm argsort_perm argsort_sorted rfl rfl rfl rfl rfl rfl rfl (by decide) (by decide) (.inr ⟨by decide, by decide, by simp⟩)
  obtain ⟨x, y, e1, e2, -, -, e3⟩ := h [(H, g), (H, g)] 0 p hp (by
    intro e he
    simp only [List.mem_cons, List.not_mem_nil, or_false, or_self] at he
    subst he
    exact ⟨h1, h2, hg⟩) 3 (by decide)
  exact ⟨init, init', x, y, e1, e2, (e3 [5] (List.Forall₂.cons (by decide) List.Forall₂.nil)).1⟩

/-- A matrix with 12 layers, stacked along dimension 1: two steps. -/
example (p g : NDArray ℝ) (hp : p.shape = [512, 12, 2048]) (hg : g.shape = [512, 12, 2048]) :
    ∃ init init' x y, run realOps (one [.row, .batch, .column] 128) [] 0 [(H1 true, g), (H1 false, g)] (p, init') = .ok x ∧
      run realOps (one [.row, .column] 128) [] 0 [(H1 true, layer 1 3 g), (H1 false, layer 1 3 g)] (layer 1 3 p, init) = .ok y ∧
      y.1.get [5, 7] = x.1.get [5, 3, 7] := by
  obtain ⟨avg, avg', d, d', init, init', -, -, -, -, h⟩ := C115_matrices (one [.row, .column] 128) (one [.row, .batch, .column] 128) [] [] _ _
    [.row, .column] 1 12 512 2048 false argsort_perm argsort_perm argsort_sorted rfl rfl rfl rfl rfl rfl (.inl rfl) (by decide) (by decide) (by decide)
  obtain ⟨x, y, e1, e2, -, -, e3⟩ := h [(H1 true, g), (H1 false, g)] 0 p hp (by
    intro e he
    simp only [List.mem_cons, List.not_mem_nil, or_false] at he
    rcases he with rfl | rfl <;> refine ⟨rfl, rfl, hg, ?_, ?_, ?_⟩ <;> simp [H1]) 3 (by decide)
  exact ⟨init, init', x, y, e1, e2, (e3 [5, 7] (List.Forall₂.cons (by decide) (List.Forall₂.cons (by decide) List.Forall₂.nil))).1⟩

end

end Verif.AdafactorStack
