import Verif.Spec.Bytes
import Mathlib.Algebra.BigOperators.Ring.Finset
import Mathlib.Algebra.Order.BigOperators.Group.Finset
/- Property C25. -/
namespace Verif.Bytes
open Spec

def held1 (s : Sys) (st : State) (j i : ℕ) : ℕ :=
  if st.pc i = .holding ∧ s.cvOf i = j then request s.limit (s.sizes.getD i 0) else 0

/-- The main invariant: what is available and what is held add up to the limit. -/
structure Inv (s : Sys) (st : State) : Prop where
  max : ∀ j, (st.cv j).max = s.limit
  bal : ∀ j, (st.cv j).avail + heldOn s st j = s.limit

theorem heldOn_set (s : Sys) (st st' : State) (j i : ℕ) (hi : i < s.sizes.length) (h : ∀ k, k ≠ i → st'.pc k = st.pc k) :
    heldOn s st' j + held1 s st j i = heldOn s st j + held1 s st' j i := by
  unfold heldOn
  have hm : i ∈ Finset.range s.sizes.length := Finset.mem_range.2 hi
  rw [← Finset.add_sum_erase _ _ hm, ← Finset.add_sum_erase (a := i) (Finset.range s.sizes.length)
    (fun i => if st.pc i = .holding ∧ s.cvOf i = j then request s.limit (s.sizes.getD i 0) else 0) hm]
  have : ∀ k ∈ (Finset.range s.sizes.length).erase i,
      (if st'.pc k = .holding ∧ s.cvOf k = j then request s.limit (s.sizes.getD k 0) else 0) =
      (if st.pc k = .holding ∧ s.cvOf k = j then request s.limit (s.sizes.getD k 0) else 0) := by
    intro k hk
    rw [h k (Finset.ne_of_mem_erase hk)]
  rw [Finset.sum_congr rfl this]
  unfold held1
  omega

theorem inv_step (s : Sys) (a b : State) (h : Inv s a) (hs : Step s a b) : Inv s b := by
  cases hs with
  | acquire i n c hi hp hc =>
    have hlt := (List.getElem?_eq_some_iff.1 hi).1
    have hn : s.sizes.getD i 0 = n := by rw [List.getD_eq_getElem?_getD, hi]; rfl
    unfold waitForBytes at hc
    split_ifs at hc with hav
    obtain rfl := Option.some.inj hc
    refine ⟨?_, ?_⟩
    · intro j
      show (setCv _ _ _ j).max = _
      unfold setCv
      split_ifs
      · exact h.max _
      · exact h.max _
    · intro j
      have this := fun cv => heldOn_set s a ⟨cv, setPc a.pc i .holding⟩ j i hlt (by
        intro k hk; show setPc _ _ _ _ = _; unfold setPc; rw [if_neg hk])
      have hb := h.bal j
      have h1 : held1 s a j i = 0 := by unfold held1; rw [hp]; simp
      rw [h1] at this
      by_cases hj : j = s.cvOf i
      · have h2 : ∀ cv, held1 s ⟨cv, setPc a.pc i .holding⟩ j i = request s.limit n := by
          intro cv; unfold held1 setPc; simp [hj, hi]
        simp only [h2, Nat.add_zero] at this
        rw [this]
        show (setCv _ _ _ j).avail + _ = _
        unfold setCv
        rw [if_pos hj]
        subst hj
        dsimp only
        omega
      · have h2 : ∀ cv, held1 s ⟨cv, setPc a.pc i .holding⟩ j i = 0 := by
          intro cv; unfold held1; rw [if_neg]; rintro ⟨_, h⟩; exact hj h.symm
        simp only [h2, Nat.add_zero] at this
        rw [this]
        show (setCv _ _ _ j).avail + _ = _
        unfold setCv
        rw [if_neg hj]; exact hb
  | release i n c hi hp hc =>
    have hlt := (List.getElem?_eq_some_iff.1 hi).1
    have hn : s.sizes.getD i 0 = n := by rw [List.getD_eq_getElem?_getD, hi]; rfl
    unfold returnBytes at hc
    split_ifs at hc with hav
    obtain rfl := Option.some.inj hc
    refine ⟨?_, ?_⟩
    · intro j
      show (setCv _ _ _ j).max = _
      unfold setCv
      split_ifs
      · exact h.max _
      · exact h.max _
    · intro j
      have this := fun cv => heldOn_set s a ⟨cv, setPc a.pc i .done⟩ j i hlt (by
        intro k hk; show setPc _ _ _ _ = _; unfold setPc; rw [if_neg hk])
      have hb := h.bal j
      have h2 : ∀ cv, held1 s ⟨cv, setPc a.pc i .done⟩ j i = 0 := by
        intro cv; unfold held1 setPc; simp
      simp only [h2, Nat.add_zero] at this
      have this := this (setCv a.cv (s.cvOf i) ⟨(a.cv (s.cvOf i)).max, (a.cv (s.cvOf i)).avail + request s.limit n⟩)
      show (setCv _ _ _ j).avail + _ = _
      by_cases hj : j = s.cvOf i
      · have h1 : held1 s a j i = request s.limit n := by unfold held1; rw [hp, hn]; simp [hj]
        rw [h1] at this
        have hc : (setCv a.cv (s.cvOf i) ⟨(a.cv (s.cvOf i)).max, (a.cv (s.cvOf i)).avail + request s.limit n⟩ j).avail =
          (a.cv j).avail + request s.limit n := by unfold setCv; rw [if_pos hj, hj]
        rw [hc]
        omega
      · have h1 : held1 s a j i = 0 := by unfold held1; rw [if_neg]; rintro ⟨_, h⟩; exact hj h.symm
        rw [h1] at this
        have hc : (setCv a.cv (s.cvOf i) ⟨(a.cv (s.cvOf i)).max, (a.cv (s.cvOf i)).avail + request s.limit n⟩ j).avail =
          (a.cv j).avail := by unfold setCv; rw [if_neg hj]
        rw [hc]
        omega

theorem inv_run (s : Sys) (n : ℕ) (st : State) (h : Run s n st) : Inv s st := by
  induction h with
  | zero =>
    refine ⟨fun _ => rfl, fun j => ?_⟩
    have : heldOn s (init s) j = 0 := by
      unfold heldOn init
      apply Finset.sum_eq_zero
      intro i _; simp
    rw [this]; rfl
  | succ n a b _ hs ih => exact inv_step s a b ih hs

/-- C25: through one condition variable never more than the limit is handed out. -/
theorem C25_never_exceeds (s : Sys) (n : ℕ) (st : State) (h : Run s n st) (j : ℕ) : heldOn s st j ≤ s.limit := by
  have := (inv_run s n st h).bal j
  omega

/-- C25: so with a variable shared by all writers, the arrays in flight together stay within the limit, as
long as each of them does. -/
theorem C25_shared_limit (limit : ℕ) (sizes : List ℕ) (n : ℕ) (st : State) (h : Run (shared limit sizes) n st)
    (hs : ∀ x ∈ sizes, x ≤ limit) : inFlight (shared limit sizes) st ≤ limit := by
  have := C25_never_exceeds _ n st h 0
  refine le_trans ?_ this
  unfold inFlight heldOn
  apply Finset.sum_le_sum
  intro i hi
  have hi := Finset.mem_range.1 hi
  have : (shared limit sizes).sizes.getD i 0 ≤ limit := by
    apply hs
    rw [List.getD_eq_getElem?_getD, List.getElem?_eq_getElem hi]
    exact List.getElem_mem hi
  simp only [shared, and_true] at *
  split_ifs
  · unfold request; split_ifs <;> omega
  · exact le_rfl

/-- C25: the assertions never fail: a writer that holds bytes can return them. -/
theorem C25_asserts (s : Sys) (n : ℕ) (st : State) (h : Run s n st) (i size : ℕ) (hi : s.sizes[i]? = some size)
    (hp : st.pc i = .holding) : ∃ c, returnBytes (st.cv (s.cvOf i)) (request s.limit size) = some c := by
  have hI := inv_run s n st h
  have hlt := (List.getElem?_eq_some_iff.1 hi).1
  have hn : s.sizes.getD i 0 = size := by rw [List.getD_eq_getElem?_getD, hi]; rfl
  have hle : request s.limit size ≤ heldOn s st (s.cvOf i) := by
    unfold heldOn
    have := Finset.single_le_sum (f := fun i' => if st.pc i' = .holding ∧ s.cvOf i' = s.cvOf i then
      request s.limit (s.sizes.getD i' 0) else 0) (fun _ _ => Nat.zero_le _) (Finset.mem_range.2 hlt)
    simp only [hp, hn, and_self, if_true] at this
    exact this
  have := hI.bal (s.cvOf i)
  have := hI.max (s.cvOf i)
  unfold returnBytes
  rw [if_pos (by omega)]
  exact ⟨_, rfl⟩

/-- C25: when all writers are done, all bytes have been returned. -/
theorem C25_all_returned (s : Sys) (n : ℕ) (st : State) (h : Run s n st) (hd : allDone s st) (j : ℕ) :
    (st.cv j).avail = s.limit := by
  have := (inv_run s n st h).bal j
  have h0 : heldOn s st j = 0 := by
    unfold heldOn
    apply Finset.sum_eq_zero
    intro i hi
    rw [hd i (Finset.mem_range.1 hi)]; simp
  omega

/-- C25: if every array is smaller than the limit, then no execution gets stuck: some writer can always go on
until all are done. -/
theorem C25_progress (s : Sys) (hs : ∀ x ∈ s.sizes, x < s.limit) (n : ℕ) (st : State) (h : Run s n st)
    (hd : ¬ allDone s st) : ∃ st', Step s st st' := by
  have hI := inv_run s n st h
  by_cases hh : ∃ i, i < s.sizes.length ∧ st.pc i = .holding
  · obtain ⟨i, hi, hp⟩ := hh
    have hi' : s.sizes[i]? = some s.sizes[i] := List.getElem?_eq_getElem hi
    obtain ⟨c, hc⟩ := C25_asserts s n st h i _ hi' hp
    exact ⟨_, Step.release st i _ c hi' hp hc⟩
  · unfold allDone at hd
    push Not at hd hh
    obtain ⟨i, hi, hp⟩ := hd
    have hi' : s.sizes[i]? = some s.sizes[i] := List.getElem?_eq_getElem hi
    have hw : st.pc i = .waiting := by
      cases hpc : st.pc i with
      | waiting => rfl
      | holding => exact absurd hpc (hh i hi)
      | done => exact absurd hpc hp
    have h0 : heldOn s st (s.cvOf i) = 0 := by
      unfold heldOn
      apply Finset.sum_eq_zero
      intro k hk
      rw [if_neg]; rintro ⟨h1, _⟩; exact hh k (Finset.mem_range.1 hk) h1
    have := hI.bal (s.cvOf i)
    have hlt := hs _ (List.getElem_mem hi)
    have hr : request s.limit s.sizes[i] < s.limit := by unfold request; split_ifs <;> omega
    refine ⟨_, Step.acquire st i _ { st.cv (s.cvOf i) with avail := (st.cv (s.cvOf i)).avail - request s.limit s.sizes[i] }
      hi' hw ?_⟩
    unfold waitForBytes; rw [if_pos (by omega)]

def rank : Pc → ℕ
  | .waiting => 0
  | .holding => 1
  | .done => 2

theorem rank_run (s : Sys) (n : ℕ) (st : State) (h : Run s n st) :
    ∑ i ∈ Finset.range s.sizes.length, rank (st.pc i) = n := by
  induction h with
  | zero => simp [init, rank]
  | succ n a b _ hs ih =>
    have key : ∀ i p, i < s.sizes.length → rank p = rank (a.pc i) + 1 →
        ∑ k ∈ Finset.range s.sizes.length, rank (setPc a.pc i p k) = n + 1 := by
      intro i p hi hp
      have hm : i ∈ Finset.range s.sizes.length := Finset.mem_range.2 hi
      rw [← Finset.add_sum_erase _ _ hm] at ih ⊢
      have : ∀ k ∈ (Finset.range s.sizes.length).erase i, rank (setPc a.pc i p k) = rank (a.pc k) := by
        intro k hk; unfold setPc; rw [if_neg (Finset.ne_of_mem_erase hk)]
      rw [Finset.sum_congr rfl this]
      have : setPc a.pc i p i = p := by unfold setPc; rw [if_pos rfl]
      rw [this, hp]; omega
    cases hs with
    | acquire i m c hi hp hc => exact key i .holding (List.getElem?_eq_some_iff.1 hi).1 (by rw [hp]; rfl)
    | release i m c hi hp hc => exact key i .done (List.getElem?_eq_some_iff.1 hi).1 (by rw [hp]; rfl)

/-- C25: every execution has at most two steps per writer, so together with C25_progress every execution that
goes on as long as it can ends with all writers done, whatever the schedule. -/
theorem C25_terminates (s : Sys) (hs : ∀ x ∈ s.sizes, x < s.limit) (n : ℕ) (st : State) (h : Run s n st) :
    n ≤ 2 * s.sizes.length ∧ ((¬ ∃ st', Step s st st') → allDone s st) := by
  refine ⟨?_, ?_⟩
  · rw [← rank_run s n st h]
    have : ∑ i ∈ Finset.range s.sizes.length, rank (st.pc i) ≤ ∑ i ∈ Finset.range s.sizes.length, 2 := by
      apply Finset.sum_le_sum
      intro i _
      cases st.pc i <;> decide
    simp at this; omega
  · intro hno
    by_contra hd
    exact hno (C25_progress s hs n st h hd)

/-- C25, where it fails: an array of at least the limit waits for ever, since the request is cut to the limit
but the condition asks for strictly more; the save never completes. -/
theorem C25_large_array_hangs (s : Sys) (i size : ℕ) (hi : s.sizes[i]? = some size) (hbig : s.limit ≤ size)
    (n : ℕ) (st : State) (h : Run s n st) : st.pc i = .waiting ∧ ¬ allDone s st := by
  have hw : st.pc i = .waiting := by
    induction h with
    | zero => rfl
    | succ n a b hr hs ih =>
      have hI := inv_run s n a hr
      cases hs with
      | acquire k m c hk hp hc =>
        by_cases hik : i = k
        · subst hik
          rw [hi] at hk
          obtain rfl := Option.some.inj hk
          have := hI.bal (s.cvOf i)
          unfold waitForBytes request at hc
          split_ifs at hc <;> omega
        · show setPc _ _ _ _ = _; unfold setPc; rw [if_neg hik]; exact ih
      | release k m c hk hp hc =>
        by_cases hik : i = k
        · subst hik; rw [ih] at hp; cases hp
        · show setPc _ _ _ _ = _; unfold setPc; rw [if_neg hik]; exact ih
  refine ⟨hw, fun hd => ?_⟩
  have := hd i (List.getElem?_eq_some_iff.1 hi).1
  rw [hw] at this; cases this

/-- C25, where it fails: since every call makes its own condition variable, nothing limits the arrays of the
different writers together: for all arrays below the limit there is an execution in which all are in flight
at once. -/
theorem C25_no_common_limit (limit : ℕ) (sizes : List ℕ) (hs : ∀ x ∈ sizes, x < limit) :
    ∃ st, Run (code limit sizes) sizes.length st ∧ inFlight (code limit sizes) st = sizes.sum := by
  have key : ∀ k, k ≤ sizes.length → ∃ st, Run (code limit sizes) k st ∧ (∀ i < k, st.pc i = .holding) ∧
      ∀ i, k ≤ i → st.pc i = .waiting ∧ st.cv i = ⟨limit, limit⟩ := by
    intro k
    induction k with
    | zero => intro _; exact ⟨_, Run.zero, by simp, fun i _ => ⟨rfl, rfl⟩⟩
    | succ k ih =>
      intro hk
      obtain ⟨st, h1, h2, h3⟩ := ih (by omega)
      have hk' : k < sizes.length := by omega
      have hlt := hs _ (List.getElem_mem hk')
      refine ⟨_, Run.succ k st _ h1 (Step.acquire st k sizes[k] ⟨limit, limit - request limit sizes[k]⟩
        (List.getElem?_eq_getElem hk') (h3 k le_rfl).1 ?_), ?_, ?_⟩
      · show waitForBytes (st.cv k) _ = _
        rw [(h3 k le_rfl).2]
        unfold waitForBytes
        have : request limit sizes[k] < limit := by unfold request; split_ifs <;> omega
        exact if_pos this
      · intro i hi
        show setPc _ _ _ _ = _
        unfold setPc
        split_ifs with hik
        · rfl
        · exact h2 i (by omega)
      · intro i hi
        refine ⟨?_, ?_⟩
        · show setPc _ _ _ _ = _
          unfold setPc; rw [if_neg (by omega)]; exact (h3 i (by omega)).1
        · show setCv _ _ _ _ = _
          unfold setCv
          show (if i = k then _ else _) = _
          rw [if_neg (by omega)]; exact (h3 i (by omega)).2
  obtain ⟨st, h1, h2, h3⟩ := key sizes.length le_rfl
  refine ⟨st, h1, ?_⟩
  unfold inFlight
  show ∑ i ∈ Finset.range sizes.length, _ = _
  rw [Finset.sum_congr rfl (g := fun i => sizes.getD i 0)]
  · clear key h1 h2 h3 hs
    induction sizes with
    | nil => rfl
    | cons a l ih =>
      rw [List.length_cons, Finset.sum_range_succ']
      simp only [List.getD_cons_succ, List.getD_cons_zero, List.sum_cons]
      rw [ih, Nat.add_comm]
  · intro i hi
    rw [h2 i (Finset.mem_range.1 hi)]; rfl

/-- The hypotheses are met: three arrays below the limit, of more than the limit together. -/
example : (∀ x ∈ [6, 7, 8], x < 10) ∧ 10 < [6, 7, 8].sum := by decide

end Verif.Bytes
