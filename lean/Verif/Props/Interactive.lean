import Verif.Model.Interactive
import Mathlib.Data.List.Induction
/-
C70: the training loop of the interactive model.
C71: batches and inferences of the interactive model.
-/
namespace Verif.Interactive

namespace Spec

/-- Train on batches, one after the other; absent and empty batches are skipped. -/
def runTrain {S P C M : Type} (ops : Ops S P C M) : S → List (Option (List Example)) → Option S
  | s, [] => some s
  | s, none :: r => runTrain ops s r
  | s, some [] :: r => runTrain ops s r
  | s, some (e :: b) :: r => (ops.train s (e :: b)).bind fun s' => runTrain ops s' r

end Spec
open Spec

theorem flatten_replicate_get {α : Type} (l : List α) (hl : 0 < l.length) : ∀ (m k : Nat), k < m * l.length → (List.replicate m l).flatten[k]? = l[k % l.length]?
  | 0, k, h => absurd h (by simp)
  | m + 1, k, h => by
    rw [List.replicate_succ, List.flatten_cons]
    rcases Nat.lt_or_ge k l.length with hk | hk
    · rw [List.getElem?_append_left hk, Nat.mod_eq_of_lt hk]
    · rw [List.getElem?_append_right hk, flatten_replicate_get l hl m (k - l.length) (by rw [Nat.succ_mul] at h; omega), Nat.mod_eq_sub_mod hk]

/-- **C70.**  A list of batches that has at least as many batches as steps, or whose number divides the number of steps, gives exactly one batch for every step: batch `k` modulo their number
for step `k`.  A single batch of dicts is used at every step, and without batches every step is skipped. -/
theorem C70_batches (n : Nat) :
    (∀ l : List (List Example), l ≠ [] → (n ≤ l.length ∨ l.length ∣ n) →
      (equalLength (.many l) n).length = n ∧ ∀ k, k < n → (equalLength (.many l) n)[k]? = some (l[k % l.length]?)) ∧
    (∀ i t r, equalLength (.single (.pair i t :: r)) n = List.replicate n (some (.pair i t :: r))) ∧
    equalLength .absent n = List.replicate n none := by
  refine ⟨?_, fun _ _ _ => rfl, rfl⟩
  intro l hl h
  have hp : 0 < l.length := List.length_pos_of_ne_nil hl
  have he : equalLength (.many l) n = repeatCut l n := by
    cases l with
    | nil => exact absurd rfl hl
    | cons a l => rfl
  rw [he]
  unfold repeatCut
  by_cases hlt : l.length < n
  · rw [if_pos hlt]
    have hd : n / l.length * l.length = n := Nat.div_mul_cancel (h.resolve_left (by omega))
    constructor
    · simp [hd]
    · intro k hk
      rw [List.getElem?_map, List.getElem?_take, if_pos hk, flatten_replicate_get l hp _ _ (by omega),
        List.getElem?_eq_getElem (Nat.mod_lt _ hp)]
      rfl
  · rw [if_neg hlt]
    constructor
    · simp; omega
    · intro k hk
      rw [List.getElem?_map, List.getElem?_take, if_pos hk, Nat.mod_eq_of_lt (by omega), List.getElem?_eq_getElem (by omega)]
      rfl

/-- **C70, finding.**  Otherwise there are fewer steps than asked for: the remainder of the division is missing. -/
theorem C70_too_few (l : List (List Example)) (hl : l ≠ []) (n : Nat) (hlt : l.length < n) : (equalLength (.many l) n).length = n - n % l.length := by
  have he : equalLength (.many l) n = repeatCut l n := by
    cases l with
    | nil => exact absurd rfl hl
    | cons a l => rfl
  rw [he]
  unfold repeatCut
  rw [if_pos hlt]
  have := Nat.div_add_mod n l.length
  have h2 : n / l.length * l.length = l.length * (n / l.length) := Nat.mul_comm _ _
  have h3 : (List.replicate (n / l.length) l).flatten.length = n / l.length * l.length := by simp
  rw [List.length_map, List.length_take, h3]
  omega

example : equalLength (.many [[.text ['a']], [.text ['b']]]) 4 = [some [.text ['a']], some [.text ['b']], some [.text ['a']], some [.text ['b']]] := by decide
example : (equalLength (.many [[.text ['a']], [.text ['b']]]) 3).length = 2 := C70_too_few _ (by decide) 3 (by decide)

theorem runTrain_append {S P C M : Type} (ops : Ops S P C M) (a b : List (Option (List Example))) (s : S) :
    runTrain ops s (a ++ b) = (runTrain ops s a).bind fun s' => runTrain ops s' b := by
  induction a generalizing s with
  | nil => rfl
  | cons x a ih =>
    rcases x with _ | _ | ⟨e, x⟩
    · simpa [runTrain] using ih s
    · simpa [runTrain] using ih s
    · simp only [List.cons_append, runTrain]
      cases ops.train s (e :: x) with
      | none => rfl
      | some s' => simpa using ih s'

theorem runTrain_one {S P C M : Type} (ops : Ops S P C M) (b : Option (List Example)) (s : S) : runTrain ops s [b] = trainOn ops s b := by
  rcases b with _ | _ | ⟨e, b⟩
  · rfl
  · rfl
  · simp only [runTrain, trainOn]
    cases ops.train s (e :: b) <;> rfl

theorem loop_append {S P C M : Type} (ops : Ops S P C M) (period : Nat) (pb sb eb : Batches) (a b : List (Option (List Example))) (k : Nat) (v : Vars S P C M) :
    loop ops period pb sb eb k (a ++ b) v = (loop ops period pb sb eb k a v).bind fun v' => loop ops period pb sb eb (k + a.length) b v' := by
  induction a generalizing k v with
  | nil => rfl
  | cons x a ih =>
    simp only [List.cons_append, loop]
    cases trainOn ops v.state x with
    | none => rfl
    | some s =>
      simp only [List.length_cons]
      rw [ih]
      have : k + 1 + a.length = k + (a.length + 1) := by omega
      rw [this]

theorem foldl_last {α β : Type} (g : α → β) (l : List α) (init : Option β) :
    l.foldl (fun _ b => some (g b)) init = (match l.getLast? with | some b => some (g b) | none => init) := by
  induction l using List.reverseRecOn with
  | nil => rfl
  | append_singleton l a _ => simp

/-- **C70.**  The train loop trains on the batches one after the other; it fails only if a train step fails.  What it returns are the results for the last batch at the last step whose
number is a multiple of the period, computed with the state after that step. -/
theorem C70_loop {S P C M : Type} (ops : Ops S P C M) (n period : Nat) (hper : 0 < period) (tb pb sb eb : Batches) (s : S) :
    (trainLoop ops n period tb pb sb eb s).map (·.state) = runTrain ops s (equalLength tb n) ∧
    ∀ v, trainLoop ops n period tb pb sb eb s = some v → (equalLength tb n) ≠ [] →
      ∃ k sk, k < (equalLength tb n).length ∧ k % period = 0 ∧ (∀ k', k < k' → k' < (equalLength tb n).length → k' % period ≠ 0) ∧
        runTrain ops s ((equalLength tb n).take (k + 1)) = some sk ∧
        v.predictions = (iterate pb).getLast?.map (ops.predict sk) ∧ v.scores = (iterate sb).getLast?.map (ops.score sk) ∧
        v.metrics = (iterate eb).getLast?.map (ops.evaluate sk) := by
  unfold trainLoop
  generalize equalLength tb n = bs
  induction bs using List.reverseRecOn with
  | nil => exact ⟨rfl, fun _ _ h => absurd rfl h⟩
  | append_singleton bs b ih =>
    obtain ⟨ih1, ih2⟩ := ih
    rw [loop_append, runTrain_append, ← ih1]
    cases hl : loop ops period pb sb eb 0 bs ⟨s, none, none, none⟩ with
    | none =>
      refine ⟨rfl, ?_⟩
      intro v hv
      simp at hv
    | some v0 =>
      rw [hl] at ih1
      simp only [Option.bind_some, Option.map_some, runTrain_one, loop, Nat.zero_add] at ih1 ⊢
      cases ht : trainOn ops v0.state b with
      | none =>
        refine ⟨rfl, ?_⟩
        intro v hv
        simp at hv
      | some s' =>
        simp only
        constructor
        · split <;> rfl
        · intro v hv _
          have hv := Option.some.inj hv
          by_cases hk : bs.length % period = 0
          · rw [if_pos hk] at hv
            refine ⟨bs.length, s', by simp, hk, ?_, ?_, ?_, ?_, ?_⟩
            · intro k' h1 h2; simp at h2; omega
            · rw [List.take_of_length_le (by simp), runTrain_append, ← ih1]
              simp only [Option.bind_some, runTrain_one, ht]
            all_goals
              rw [← hv]
              simp only [runEval, foldl_last]
            · cases hg : (iterate pb).getLast? with
              | some b => rfl
              | none =>
                rcases eq_or_ne bs [] with rfl | hne
                · simp only [loop, Option.some.injEq] at hl; rw [← hl]; rfl
                · obtain ⟨_, _, _, _, _, _, h, _, _⟩ := ih2 v0 hl hne
                  rw [h, hg]; rfl
            · cases hg : (iterate sb).getLast? with
              | some b => rfl
              | none =>
                rcases eq_or_ne bs [] with rfl | hne
                · simp only [loop, Option.some.injEq] at hl; rw [← hl]; rfl
                · obtain ⟨_, _, _, _, _, _, _, h, _⟩ := ih2 v0 hl hne
                  rw [h, hg]; rfl
            · cases hg : (iterate eb).getLast? with
              | some b => rfl
              | none =>
                rcases eq_or_ne bs [] with rfl | hne
                · simp only [loop, Option.some.injEq] at hl; rw [← hl]; rfl
                · obtain ⟨_, _, _, _, _, _, _, _, h⟩ := ih2 v0 hl hne
                  rw [h, hg]; rfl
          · rw [if_neg hk] at hv
            have hne : bs ≠ [] := by
              rintro rfl
              exact hk (by simp)
            obtain ⟨k, sk, h1, h2, h3, h4, h5, h6, h7⟩ := ih2 v0 hl hne
            refine ⟨k, sk, by simp; omega, h2, ?_, ?_, ?_, ?_, ?_⟩
            · intro k' ha hb
              simp at hb
              rcases Nat.lt_or_ge k' bs.length with h | h
              · exact h3 k' ha h
              · have : k' = bs.length := by omega
                rw [this]; exact hk
            · rw [List.take_append_of_le_length (by omega)]; exact h4
            · rw [← hv]; exact h5
            · rw [← hv]; exact h6
            · rw [← hv]; exact h7

/-- **C70, finding.**  A single batch of dicts given for prediction (scoring, evaluation) is not used: the model predicts for the texts "input" and "target" instead. -/
theorem C70_single_batch {S P C M : Type} (ops : Ops S P C M) (n period : Nat) (hper : 0 < period) (tb sb eb : Batches) (b : List Example) (hb : b ≠ [])
    (hd : ∀ e ∈ b, ∃ i t, e = .pair i t) (s : S) (htb : (equalLength tb n) ≠ []) (v : Vars S P C M)
    (hv : trainLoop ops n period tb (.single b) sb eb s = some v) :
    ∃ s', v.predictions = some (ops.predict s' [.text "input".toList, .text "target".toList]) := by
  obtain ⟨_, h⟩ := C70_loop ops n period hper tb (.single b) sb eb s
  obtain ⟨k, sk, _, _, _, _, hp, _⟩ := h v hv htb
  refine ⟨sk, ?_⟩
  rw [hp]
  obtain ⟨e, he⟩ : ∃ e, b.getLast? = some e := by
    rw [List.getLast?_eq_some_getLast hb]; exact ⟨_, rfl⟩
  obtain ⟨i, t, rfl⟩ := hd e (List.mem_of_getLast? he)
  simp only [iterate, List.getLast?_map, he, Option.map_some, asBatch]

/-- Training counts batches, predictions are the count and the batch. -/
def countOps : Ops Nat (Nat × List Example) Nat Nat := ⟨fun s _ => some (s + 1), fun s b => (s, b), fun s _ => s, fun s _ => s⟩

example : (trainLoop countOps 4 3 (.many [[.text ['a']], [.text ['b']]]) (.many [[.text ['c']]]) .absent (.many [[], []]) 0).map
    (fun v => (v.state, v.predictions, v.scores, v.metrics)) = some (4, some (4, [.text ['c']]), none, some 4) := by decide
example : (trainLoop countOps 2 3 (.many [[.text ['a']], [.text ['b']]]) (.single [.pair ['x'] ['y']]) .absent .absent 0).map
    (fun v => (v.state, v.predictions)) = some (2, some (1, [.text "input".toList, .text "target".toList])) := by decide

/-! ### Batches and inferences -/

theorem collect_short {α : Type} (size : Nat) (d : List α) (all : List (List α)) (cur : List α) (h : cur.length + d.length < size) :
    collect size d (all, cur) = (all, cur ++ d) := by
  induction d generalizing cur with
  | nil => simp [collect]
  | cons x d ih =>
    simp only [collect]
    rw [if_neg (by simp at h ⊢; omega), ih _ (by simp at h ⊢; omega)]
    simp

theorem collect_full {α : Type} (size : Nat) (d : List α) (r : List α) (all : List (List α)) (cur : List α) (h : cur.length + d.length = size) (hd : d ≠ []) :
    collect size (d ++ r) (all, cur) = collect size r (all ++ [cur ++ d], []) := by
  induction d generalizing cur with
  | nil => exact absurd rfl hd
  | cons x d ih =>
    simp only [List.cons_append, collect]
    cases d with
    | nil =>
      rw [if_pos (by simp at h ⊢; omega)]
      simp
    | cons y d =>
      rw [if_neg (by simp at h ⊢; omega), ih _ (by simp at h ⊢; omega) (by simp)]
      simp

theorem collect_all {α : Type} (size : Nat) (hs : 0 < size) (num : Nat) (d : List α) (all : List (List α)) (h : d.length = size * num) :
    collect size d (all, []) = (all ++ (List.range num).map fun k => (d.drop (k * size)).take size, []) := by
  induction num generalizing d all with
  | zero =>
    have : d = [] := by simpa using h
    subst this; simp [collect]
  | succ num ih =>
    have hle : size ≤ d.length := by rw [h, Nat.mul_succ]; omega
    have hsplit : d = d.take size ++ d.drop size := (List.take_append_drop size d).symm
    rw [hsplit, collect_full size (d.take size) (d.drop size) all [] (by simp; omega) (fun h0 => by have := congrArg List.length h0; rw [List.length_take, List.length_nil] at this; omega), ih]
    · rw [← hsplit, List.range_succ_eq_map, List.map_cons, List.map_map]
      simp only [List.nil_append, List.append_assoc, List.singleton_append, Nat.zero_mul, List.drop_zero, Prod.mk.injEq, and_true]
      congr 2
      apply List.map_congr_left
      intro k _
      simp only [Function.comp, List.drop_drop]
      congr 2
      rw [Nat.succ_mul]; omega
    · rw [List.length_drop, h, Nat.mul_succ]; omega

/-- **C71.**  `get_batches_from_seqio` gives the first examples of the dataset, in order, cut into the wanted number of batches of the wanted size, and fails if there are not enough. -/
theorem C71_batches {α : Type} (size num : Nat) (hs : 0 < size) (data : List α) :
    (size * num ≤ data.length → ∃ r, seqioBatches size num data = some r ∧ r.length = num ∧ (∀ b ∈ r, b.length = size) ∧ r.flatten = data.take (size * num)) ∧
    (data.length < size * num → seqioBatches size num data = none) := by
  constructor
  · intro h
    have hlen : (data.take (size * num)).length = size * num := by simp; omega
    refine ⟨_, by simp only [seqioBatches]; rw [if_neg (by omega), collect_all size hs num _ [] hlen], by simp, ?_, ?_⟩
    · intro b hb
      simp only [List.nil_append, List.mem_map, List.mem_range] at hb
      obtain ⟨k, hk, rfl⟩ := hb
      rw [List.length_take, List.length_drop, hlen]
      have : k * size + size ≤ size * num := by
        rw [Nat.mul_comm size num, ← Nat.succ_mul]; exact Nat.mul_le_mul_right _ hk
      omega
    · simp only [List.nil_append]
      generalize data.take (size * num) = d at hlen
      have : ∀ m, ((List.range m).map fun k => (d.drop (k * size)).take size).flatten = d.take (m * size) := by
        intro m
        induction m with
        | zero => simp
        | succ m ih => rw [List.range_succ, List.map_append, List.flatten_append, ih, Nat.succ_mul, List.take_add]; simp
      rw [this, List.take_of_length_le (by rw [hlen, Nat.mul_comm])]
  · intro h
    simp only [seqioBatches]
    rw [if_pos]
    simp; omega

example : seqioBatches 2 2 [1, 2, 3, 4, 5] = some [[1, 2], [3, 4]] := by decide
example : seqioBatches 2 3 [1, 2, 3, 4, 5] = none := (C71_batches 2 3 (by decide) _).2 (by decide)

theorem chunks_flatten {α : Type} (size : Nat) (hs : 0 < size) (l : List α) : (chunks size l).flatten = l := by
  have : ∀ m, ((List.range m).map fun k => (l.drop (k * size)).take size).flatten = l.take (m * size) := by
    intro m
    induction m with
    | zero => simp
    | succ m ih => rw [List.range_succ, List.map_append, List.flatten_append, ih, Nat.succ_mul, List.take_add]; simp
  unfold chunks
  rw [this, List.take_of_length_le]
  have h1 := Nat.div_add_mod (l.length + size - 1) size
  have h2 := Nat.mod_lt (l.length + size - 1) hs
  have h3 : (l.length + size - 1) / size * size = size * ((l.length + size - 1) / size) := Nat.mul_comm _ _
  omega

theorem chunks_ne_nil {α : Type} (size : Nat) (hs : 0 < size) (l : List α) (hl : l ≠ []) : chunks size l ≠ [] := by
  intro h
  have := chunks_flatten size hs l
  rw [h] at this
  exact hl this.symm

theorem pairUp_eq {X Y : Type} : ∀ (xs : List X) (ys : List Y), xs.length = ys.length → pairUp xs ys = some (xs.zip ys)
  | [], ys, h => by cases ys with | nil => rfl | cons => simp at h
  | x :: xs, [], h => by simp at h
  | x :: xs, y :: ys, h => by simp only [pairUp, pairUp_eq xs ys (by simpa using h), List.zip_cons_cons]

theorem addAux_keys {A : Type} (f g : String → List A) (ks : List String) : ∀ (rest done : List String), (done ++ rest).Nodup → (∀ k ∈ rest, k ∈ ks) →
    addAux (ks.map fun k => (k, if k ∈ done then f k ++ g k else f k)) (rest.map fun k => (k, g k))
      = some (ks.map fun k => (k, if k ∈ done ++ rest then f k ++ g k else f k))
  | [], done, _, _ => by simp [addAux]
  | x :: rest, done, hnd, hm => by
    simp only [List.map_cons, addAux]
    rw [if_pos (by simpa using hm x List.mem_cons_self)]
    have hx : x ∉ done := by
      intro hc
      rw [List.nodup_append] at hnd
      exact hnd.2.2 x hc x List.mem_cons_self rfl
    have : (ks.map fun k => (k, if k ∈ done then f k ++ g k else f k)).map (fun e => if e.1 = x then (e.1, e.2 ++ g x) else e)
        = ks.map fun k => (k, if k ∈ done ++ [x] then f k ++ g k else f k) := by
      rw [List.map_map]
      apply List.map_congr_left
      intro k _
      simp only [Function.comp]
      by_cases hk : k = x
      · subst hk; simp [hx]
      · simp [hk]
    rw [this, addAux_keys f g ks rest (done ++ [x]) (by simpa using hnd) (fun k hk => hm k (List.mem_cons_of_mem _ hk))]
    simp

theorem addAux_same {A : Type} (f g : String → List A) (ks : List String) (hk : ks.Nodup) :
    addAux (ks.map fun k => (k, f k)) (ks.map fun k => (k, g k)) = some (ks.map fun k => (k, f k ++ g k)) := by
  have h := addAux_keys f g ks ks [] (by simpa using hk) (fun _ h => h)
  simp only [List.not_mem_nil, if_false, List.nil_append] at h
  rw [h]
  congr 1
  apply List.map_congr_left
  intro k hk
  rw [if_pos hk]

theorem inferLoop_eq {X Y A : Type} (infer : Nat → List X → List Y × List (String × List A)) (ks : List String) (hks : ks.Nodup)
    (f : Nat → List X → String → List A) (hlen : ∀ k c, (infer k c).1.length = c.length) (haux : ∀ k c, (infer k c).2 = ks.map fun key => (key, f k c key)) :
    ∀ (cs : List (List X)) (k : Nat) (inf : List (X × Y)) (g : String → List A),
      inferLoop infer k cs (inf, ks.map fun key => (key, g key))
        = some (inf ++ (cs.zipIdx k).flatMap (fun p => p.1.zip (infer p.2 p.1).1),
            ks.map fun key => (key, g key ++ (cs.zipIdx k).flatMap (fun p => f p.2 p.1 key)))
  | [], k, inf, g => by simp [inferLoop]
  | c :: cs, k, inf, g => by
    have hadd : (if (ks.map fun key => (key, g key)).isEmpty then some (infer k c).2 else addAux (ks.map fun key => (key, g key)) (infer k c).2)
        = some (ks.map fun key => (key, g key ++ f k c key)) := by
      rw [haux]
      cases ks with
      | nil => rfl
      | cons a ks => rw [if_neg (by simp), addAux_same _ _ _ hks]
    simp only [inferLoop, pairUp_eq c _ (hlen k c).symm, hadd]
    rw [inferLoop_eq infer ks hks f hlen haux cs (k + 1)]
    simp only [List.zipIdx_cons, List.flatMap_cons, List.append_assoc]

/-- **C71.**  Inference returns one entry for every example, in order, whatever the batch size: the predictions are those of the batches, each with the random key of its number, one after the other,
and so is every auxiliary value. -/
theorem C71_infer {X Y A : Type} (infer : Nat → List X → List Y × List (String × List A)) (ks : List String) (hks : ks.Nodup)
    (f : Nat → List X → String → List A) (hlen : ∀ k c, (infer k c).1.length = c.length) (haux : ∀ k c, (infer k c).2 = ks.map fun key => (key, f k c key))
    (size : Nat) (hs : 0 < size) (examples : List X) (hne : examples ≠ []) :
    ∃ r aux, inferAll infer size examples = some (r, aux) ∧ r.map (·.1) = examples ∧
      r.map (·.2) = (chunks size examples).zipIdx.flatMap (fun p => (infer p.2 p.1).1) ∧
      aux = ks.map fun key => (key, (chunks size examples).zipIdx.flatMap fun p => f p.2 p.1 key) := by
  have key : inferAll infer size examples = some ((chunks size examples).zipIdx.flatMap (fun p => p.1.zip (infer p.2 p.1).1),
      ks.map fun key => (key, (chunks size examples).zipIdx.flatMap fun p => f p.2 p.1 key)) := by
    unfold inferAll
    cases hc : chunks size examples with
    | nil => exact absurd hc (chunks_ne_nil size hs examples hne)
    | cons c cs =>
      simp only [inferLoop, pairUp_eq c _ (hlen 0 c).symm, List.isEmpty_nil, if_true, haux]
      rw [inferLoop_eq infer ks hks f hlen haux cs 1]
      simp only [List.zipIdx_cons, List.flatMap_cons, List.nil_append]
  refine ⟨_, _, key, ?_, ?_, rfl⟩
  · rw [List.map_flatMap]
    conv_rhs => rw [← chunks_flatten size hs examples]
    rw [← List.flatMap_id]
    have : (chunks size examples).zipIdx.flatMap (fun p => (p.1.zip (infer p.2 p.1).1).map (·.1)) = (chunks size examples).zipIdx.flatMap (fun p => p.1) := by
      apply List.flatMap_congr
      intro p _
      exact List.map_fst_zip (by rw [hlen])
    rw [this]
    conv_rhs => rw [← List.zipIdx_map_fst 0 (chunks size examples)]
    rw [List.flatMap_map]
    rfl
  · rw [List.map_flatMap]
    apply List.flatMap_congr
    intro p _
    exact List.map_snd_zip (by rw [hlen])

/-- **C71.**  If the model treats examples one by one and uses no randomness (scoring), the batch size does not matter. -/
theorem C71_batch_size {X Y A : Type} (g : X → Y) (ks : List String) (hks : ks.Nodup) (h : String → X → A) (size : Nat) (hs : 0 < size)
    (examples : List X) (hne : examples ≠ []) :
    inferAll (fun _ c => (c.map g, ks.map fun key => (key, c.map (h key)))) size examples
      = some (examples.map fun x => (x, g x), ks.map fun key => (key, examples.map (h key))) := by
  obtain ⟨r, aux, h1, h2, h3, h4⟩ := C71_infer (fun _ c => (c.map g, ks.map fun key => (key, c.map (h key)))) ks hks (fun _ c key => c.map (h key))
    (fun k c => by simp) (fun k c => rfl) size hs examples hne
  have hfl : ∀ {Z : Type} (q : X → Z), (chunks size examples).zipIdx.flatMap (fun p => p.1.map q) = examples.map q := by
    intro Z q
    conv_rhs => rw [← chunks_flatten size hs examples]
    rw [List.map_flatten, ← List.flatMap_def]
    conv_rhs => rw [← List.zipIdx_map_fst 0 (chunks size examples)]
    rw [List.flatMap_map]
  rw [h1, h4]
  simp only [hfl] at h3 ⊢
  congr 2
  apply List.ext_getElem?
  intro i
  have a := congrArg (fun l => l[i]?) h2
  have b := congrArg (fun l => l[i]?) h3
  simp only [List.getElem?_map] at a b ⊢
  cases hr : r[i]? with
  | none => rw [hr] at a; rw [← a]; rfl
  | some p =>
    rw [hr] at a b
    rw [← a] at b ⊢
    simp only [Option.map_some, Option.some.injEq] at b ⊢
    exact Prod.ext rfl b

theorem pairUp_none {X Y : Type} : ∀ (xs : List X) (ys : List Y), ys.length < xs.length → pairUp xs ys = none
  | [], ys, h => by simp at h
  | _ :: _, [], _ => rfl
  | x :: xs, y :: ys, h => by simp only [pairUp, pairUp_none xs ys (by simpa using h)]

/-- **C71** (too few predictions).  An inference function that returns fewer predictions than a chunk has examples makes the whole call fail;
no example is left without a prediction silently. -/
theorem C71_too_few {X Y A : Type} (infer : Nat → List X → List Y × List (String × List A)) (size : Nat) (examples : List X)
    (k : Nat) (c : List X) (hc : (chunks size examples)[k]? = some c) (hs : (infer k c).1.length < c.length) :
    inferAll infer size examples = none := by
  have key : ∀ (cs : List (List X)) (j k : Nat) (acc : List (X × Y) × List (String × List A)), cs[k]? = some c →
      (infer (j + k) c).1.length < c.length → inferLoop infer j cs acc = none := by
    intro cs
    induction cs with
    | nil => intro j k acc h; simp at h
    | cons d cs ih =>
      intro j k acc h hl
      obtain ⟨inf, aux⟩ := acc
      cases k with
      | zero =>
        simp only [List.getElem?_cons_zero, Option.some.injEq] at h
        subst h
        rw [Nat.add_zero] at hl
        simp only [inferLoop, pairUp_none d _ hl]
      | succ k =>
        simp only [List.getElem?_cons_succ] at h
        unfold inferLoop
        dsimp only
        split
        · exact ih (j + 1) k _ h (by rwa [show j + 1 + k = j + (k + 1) by omega])
        · rfl
  exact key _ 0 k _ hc (by simpa using hs)

example : inferAll (X := Nat) (Y := Nat) (A := Nat) (fun k c => (c.drop k, [])) 2 [1, 2, 3, 4] = none :=
  C71_too_few _ 2 _ 1 [3, 4] (by decide) (by decide)

example : inferAll (X := Nat) (Y := Nat) (A := Nat) (fun k c => (c.map (· + 10 * k), [("s", c)])) 2 [1, 2, 3] = some ([(1, 1), (2, 2), (3, 13)], [("s", [1, 2, 3])]) := by decide

end Verif.Interactive
