import Verif.Spec.AdafactorStack
import Verif.Props.Adafactor
namespace Verif.AdafactorStack
open Verif.ND Verif.Adafactor Verif.Adafactor.Spec Verif.AdafactorStack.Spec

/-- Where a dimension goes. -/
def skip (ax j : Nat) : Nat := if j < ax then j else j + 1

theorem skip_zero (j : Nat) : skip 0 j = j + 1 := rfl

theorem skip_succ_zero (ax : Nat) : skip (ax + 1) 0 = 0 := by simp [skip]

theorem skip_succ_succ (ax j : Nat) : skip (ax + 1) (j + 1) = skip ax j + 1 := by
  simp only [skip]
  split_ifs <;> omega

theorem skip_ne (ax j : Nat) : skip ax j ≠ ax := by
  simp only [skip]
  split_ifs <;> omega

theorem skip_inj {ax j j' : Nat} (h : skip ax j = skip ax j') : j = j' := by
  simp only [skip] at h
  split_ifs at h <;> omega

theorem exists_skip {ax k : Nat} (h : k ≠ ax) : ∃ j, skip ax j = k := by
  by_cases hk : k < ax
  · exact ⟨k, by simp [skip, hk]⟩
  · exact ⟨k - 1, by simp only [skip]; split_ifs <;> omega⟩

variable {α : Type}

theorem ins_length (ax : Nat) (k : α) (l : List α) : (ins ax k l).length = l.length + 1 := by
  induction ax generalizing l with
  | zero => rfl
  | succ ax ih =>
    cases l with
    | nil => rfl
    | cons x l => simp [ins, ih]

theorem ins_skip (ax : Nat) (k : α) (l : List α) (h : ax ≤ l.length) (j : Nat) : (ins ax k l)[skip ax j]? = l[j]? := by
  induction ax generalizing l j with
  | zero => simp [ins, skip_zero]
  | succ ax ih =>
    cases l with
    | nil => simp at h
    | cons x l =>
      cases j with
      | zero => simp [ins, skip_succ_zero]
      | succ j =>
        simp only [ins, skip_succ_succ, List.getElem?_cons_succ]
        exact ih l (by simpa using h) j

theorem ins_at (ax : Nat) (k : α) (l : List α) (h : ax ≤ l.length) : (ins ax k l)[ax]? = some k := by
  induction ax generalizing l with
  | zero => rfl
  | succ ax ih =>
    cases l with
    | nil => simp at h
    | cons x l => simpa [ins] using ih l (by simpa using h)

theorem ins_erase (ax : Nat) (k : α) (l : List α) (h : ax ≤ l.length) : (ins ax k l).eraseIdx ax = l := by
  induction ax generalizing l with
  | zero => rfl
  | succ ax ih =>
    cases l with
    | nil => simp at h
    | cons x l => simpa [ins] using ih l (by simpa using h)

theorem ins_inBox {ax n k : Nat} {s i : List Nat} (hk : k < n) (h : InBox s i) : InBox (ins ax n s) (ins ax k i) := by
  induction ax generalizing s i with
  | zero => exact List.Forall₂.cons hk h
  | succ ax ih =>
    cases h with
    | nil => exact List.Forall₂.cons hk List.Forall₂.nil
    | cons h1 h2 => exact List.Forall₂.cons h1 (ih h2)

/-- The indices of a box whose coordinates fulfil predicates. -/
def pick (s : List Nat) (P : Nat → Nat → Bool) : List (List Nat) :=
  (box s).filter fun i => (List.range s.length).all fun j => P j (i.getD j 0)

theorem pick_cons (n : Nat) (s : List Nat) (P : Nat → Nat → Bool) :
    pick (n :: s) P = ((List.range n).filter (P 0)).flatMap fun x => (pick s fun j => P (j + 1)).map (x :: ·) := by
  unfold pick
  simp only [box]
  rw [List.filter_flatMap]
  generalize List.range n = l
  induction l with
  | nil => rfl
  | cons x l ih =>
    rw [List.flatMap_cons, ih, List.filter_cons, List.filter_map]
    have hP : ((fun i : List Nat => (List.range (n :: s).length).all fun j => P j (i.getD j 0)) ∘ fun i => x :: i) =
        fun i => P 0 x && (List.range s.length).all fun j => P (j + 1) (i.getD j 0) := by
      funext i
      simp only [Function.comp, List.length_cons, List.range_succ_eq_map, List.all_cons, List.getD_cons_zero, List.all_map]
      rfl
    rw [hP]
    cases h : P 0 x with
    | true => simp
    | false => simp

theorem pick_ins (ax n k : Nat) (hk : k < n) (s : List Nat) (h : ax ≤ s.length) (P P' : Nat → Nat → Bool)
    (h1 : ∀ j x, P' (skip ax j) x = P j x) (h2 : ∀ x, P' ax x = (x == k)) : pick (ins ax n s) P' = (pick s P).map (ins ax k) := by
  induction ax generalizing s P P' with
  | zero =>
    simp only [ins, pick_cons]
    have e1 : (List.range n).filter (P' 0) = [k] := by
      have : P' 0 = fun x => x == k := funext h2
      rw [this]
      clear this h1 h2
      induction n with
      | zero => omega
      | succ n ih =>
        rw [List.range_succ, List.filter_append]
        by_cases hn : k = n
        · subst hn
          simp
          omega
        · rw [ih (by omega)]
          simp [Ne.symm hn]
    have e2 : (fun j => P' (j + 1)) = P := by funext j x; exact h1 j x
    rw [e1, e2]
    simp [ins]
  | succ ax ih =>
    cases s with
    | nil => simp at h
    | cons m s =>
      simp only [ins, pick_cons]
      have e1 : P' 0 = P 0 := by funext x; have := h1 0 x; rwa [skip_succ_zero] at this
      rw [e1, List.map_flatMap]
      rw [ih s (by simpa using h) (fun j => P (j + 1)) (fun j => P' (j + 1))
        (fun j x => by have := h1 (j + 1) x; rwa [skip_succ_succ] at this) h2]
      simp only [List.map_map]
      rfl

/-- Sets of dimensions of a layer and of the stack that correspond. -/
def Lifts (ax : Nat) (dims dims' : List Nat) : Prop := ax ∉ dims' ∧ ∀ j, skip ax j ∈ dims' ↔ j ∈ dims

theorem slice_ins {ax n k : Nat} {s i dims dims' : List Nat} (hk : k < n) (h : ax ≤ s.length) (hi : InBox s i) (hd : Lifts ax dims dims') :
    slice (ins ax n s) dims' (ins ax k i) = (slice s dims i).map (ins ax k) := by
  have hlen : ax ≤ i.length := by rw [List.Forall₂.length_eq hi]; exact h
  refine pick_ins ax n k hk s h (fun j x => dims.contains j || x == i.getD j 0)
    (fun j x => dims'.contains j || x == (ins ax k i).getD j 0) ?_ ?_
  · intro j x
    have e1 : dims'.contains (skip ax j) = dims.contains j := by
      rw [Bool.eq_iff_iff, List.contains_iff_mem, List.contains_iff_mem]; exact hd.2 j
    simp only [e1, List.getD_eq_getElem?_getD, ins_skip ax k i hlen]
  · intro x
    have e1 : dims'.contains ax = false := by
      rw [Bool.eq_false_iff, Ne, List.contains_iff_mem]; exact hd.1
    simp only [e1, Bool.false_or, List.getD_eq_getElem?_getD, ins_at ax k i hlen, Option.getD_some]

variable {V : Type}

theorem rms_ins (O : Ops V) {ax n k : Nat} {s i dims dims' : List Nat} (hk : k < n) (h : ax ≤ s.length) (hi : InBox s i) (hd : Lifts ax dims dims')
    {f f' : List Nat → V} (hf : ∀ j, InBox s j → f j = f' (ins ax k j)) : rms O (ins ax n s) dims' f' (ins ax k i) = rms O s dims f i := by
  unfold rms
  rw [slice_ins hk h hi hd, List.map_map]
  congr 2
  refine List.map_congr_left fun j hj => ?_
  simp only [Function.comp, hf j ((mem_slice s dims i j).1 hj).1]

theorem rowEst_ins (O : Ops V) (H : HP V) (decay : V) {ax n k : Nat} {s i d d' : List Nat} (hk : k < n) (h : ax ≤ s.length) (hi : InBox s i)
    (hd : Lifts ax d d') {v v' g g' : List Nat → V} (hv : v (del d i) = v' (del d' (ins ax k i))) (hg : ∀ j, InBox s j → g j = g' (ins ax k j)) :
    rowEst O H decay (ins ax n s) d' v' g' (ins ax k i) = rowEst O H decay s d v g i := by
  unfold rowEst
  rw [slice_ins hk h hi hd, List.map_map, ← hv]
  congr 2
  refine List.map_congr_left fun j hj => ?_
  simp only [Function.comp, sqr, hg j ((mem_slice s d i j).1 hj).1]

theorem subtrahend_ins (O : Ops V) (H : HP V) (lr : V) {ax n k : Nat} {s i avg avg' : List Nat} (hk : k < n) (h : ax ≤ s.length) (hi : InBox s i)
    (hd : Lifts ax avg avg') {p p' m m' y y' : List Nat → V} (hp : ∀ j, InBox s j → p j = p' (ins ax k j))
    (hm : H.beta1.isSome = true → m i = m' (ins ax k i)) (hy : ∀ j, InBox s j → y j = y' (ins ax k j)) :
    subtrahend O H lr (ins ax n s) avg' p' m' y' (ins ax k i) = subtrahend O H lr s avg p m y i := by
  have h1 : stepSize O H lr (ins ax n s) avg' p' (ins ax k i) = stepSize O H lr s avg p i := by
    unfold stepSize
    rw [rms_ins O hk h hi hd hp]
  have h2 : clipped O H.clip (ins ax n s) avg' y' (ins ax k i) = clipped O H.clip s avg y i := by
    unfold clipped
    rw [rms_ins O hk h hi hd hy, hy i hi]
  unfold subtrahend
  rw [h1, h2]
  cases hb : H.beta1 with
  | none => rfl
  | some b =>
    dsimp only
    rw [hm (by rw [hb]; rfl)]

theorem newParam_ins (O : Ops V) (H : HP V) (lr : V) {ax n k : Nat} {s i avg avg' : List Nat} (hk : k < n) (h : ax ≤ s.length) (hi : InBox s i)
    (hd : Lifts ax avg avg') {p p' m m' y y' : List Nat → V} (hp : ∀ j, InBox s j → p j = p' (ins ax k j))
    (hm : H.beta1.isSome = true → m i = m' (ins ax k i)) (hy : ∀ j, InBox s j → y j = y' (ins ax k j)) :
    newParam O H lr (ins ax n s) avg' p' m' y' (ins ax k i) = newParam O H lr s avg p m y i := by
  unfold newParam
  rw [subtrahend_ins O H lr hk h hi hd hp hm hy, hp i hi]

/-- Factored dimensions of a layer and of the stack that correspond. -/
def LiftsD (ax : Nat) : Dims → Dims → Prop
  | .dims d1 d0, .dims d1' d0' => Lifts ax d1 d1' ∧ Lifts ax d0 d0'
  | .dims _ _, _ => False
  | _, .dims _ _ => False
  | _, _ => True

theorem step_ins (O : Ops V) (D D' : Def) (H : HP V) (step : Int) (path path' : List Char) {ax n k : Nat} {s avg avg' : List Nat} {d d' : Dims}
    (hs : ∀ l, (D.argsort l).Perm (List.range l.length)) (hs' : ∀ l, (D'.argsort l).Perm (List.range l.length))
    (hk : k < n) (h : ax ≤ s.length) (hd : dimsFor D path s = .ok (avg, d)) (hd' : dimsFor D' path' (ins ax n s) = .ok (avg', d'))
    (ha : Lifts ax avg avg') (hl : LiftsD ax d d') (hlr : H.learningRate.isSome = true)
    {init init' : PState V} (hi : initParam O D H.beta1.isSome path s = .ok init) (hi' : initParam O D' H.beta1.isSome path' (ins ax n s) = .ok init')
    {p q g gk : NDArray V} {st su : PState V} (hp : p.shape = ins ax n s) (hq : q.shape = s) (hg : g.shape = ins ax n s) (hgs : gk.shape = s)
    (hgk : ∀ i, InBox s i → gk.get i = g.get (ins ax k i)) (hst : ShapesOf st init') (hsu : ShapesOf su init)
    (hr : IsLayer ax k s H.beta1.isSome d d' (q, su) (p, st)) :
    ∃ x y, applyParam O D' H step path' p st g = .ok x ∧ applyParam O D H step path q su gk = .ok y ∧ x.1.shape = ins ax n s ∧ y.1.shape = s ∧
      ShapesOf x.2 init' ∧ ShapesOf y.2 init ∧ IsLayer ax k s H.beta1.isSome d d' y x := by
  obtain ⟨lr, hlr⟩ := Option.isSome_iff_exists.mp hlr
  obtain ⟨avg1, d1, np, st', hd1, he, hnp, hst', hF, hU⟩ :=
    C48_update O D' H step path' p g st init' lr hs' hlr (by rw [hg, hp]) (by rw [hp]; exact hi') hst
  obtain ⟨avg2, d2, nq, su', hd2, he2, hnq, hsu', hF2, hU2⟩ :=
    C48_update O D H step path q gk su init lr hs hlr (by rw [hgs, hq]) (by rw [hq]; exact hi) hsu
  rw [hp] at hd1 hnp hF hU
  rw [hq] at hd2 hnq hF2 hU2
  rw [hd'] at hd1
  rw [hd] at hd2
  simp only [Except.ok.injEq, Prod.mk.injEq] at hd1 hd2
  obtain ⟨rfl, rfl⟩ := hd1
  obtain ⟨rfl, rfl⟩ := hd2
  refine ⟨_, _, he, he2, hnp, hnq, hst', hsu', ?_⟩
  have hpp : ∀ j, InBox s j → q.get j = p.get (ins ax k j) := fun j hj => (hr j hj).1
  have hmm : ∀ j, InBox s j → H.beta1.isSome = true → su.m.get j = st.m.get (ins ax k j) := fun j hj hb => (hr j hj).2.2 hb
  intro i hb
  have hb' := ins_inBox (ax := ax) hk hb
  cases d with
  | dims e1 e0 =>
    cases d' with
    | dims e1' e0' =>
      obtain ⟨l1, l0⟩ := hl
      have hv : ∀ j, InBox s j → su.vRow.get (del e0 j) = st.vRow.get (del e0' (ins ax k j)) ∧
          su.vCol.get (del e1 j) = st.vCol.get (del e1' (ins ax k j)) := by
        intro j hj
        have := (hr j hj).2.1
        simpa [moments] using this
      have hR : ∀ j, InBox s j → rowEst O H (O.decayPow (step - H.stepOffset) H.decayRate) (ins ax n s) e0' st.vRow.get g.get (ins ax k j) =
          rowEst O H (O.decayPow (step - H.stepOffset) H.decayRate) s e0 su.vRow.get gk.get j :=
        fun j hj => rowEst_ins O H _ hk h hj l0 (hv j hj).1 hgk
      have hC : ∀ j, InBox s j → rowEst O H (O.decayPow (step - H.stepOffset) H.decayRate) (ins ax n s) e1' st.vCol.get g.get (ins ax k j) =
          rowEst O H (O.decayPow (step - H.stepOffset) H.decayRate) s e1 su.vCol.get gk.get j :=
        fun j hj => rowEst_ins O H _ hk h hj l1 (hv j hj).2 hgk
      have hy : ∀ j, InBox s j →
          yFactored O H (O.decayPow (step - H.stepOffset) H.decayRate) s e1 e0 su.vRow.get su.vCol.get gk.get j =
          yFactored O H (O.decayPow (step - H.stepOffset) H.decayRate) (ins ax n s) e1' e0' st.vRow.get st.vCol.get g.get (ins ax k j) := by
        intro j hj
        unfold yFactored
        rw [hR j hj, hC j hj, hgk j hj, slice_ins hk h hj l1, List.map_map]
        congr 5
        exact (List.map_congr_left fun j' hj' => (hR j' ((mem_slice s e1 j j').1 hj').1).symm)
      obtain ⟨f1, f2, f3, f4⟩ := hF _ _ rfl _ hb'
      obtain ⟨k1, k2, k3, k4⟩ := hF2 _ _ rfl i hb
      refine ⟨?_, ?_, ?_⟩
      · rw [f1, k1, newParam_ins O H lr hk h hb ha hpp (hmm i hb) hy, hpp i hb]
      · simp only [moments]
        rw [f2, f3, k2, k3, hR i hb, hC i hb, (hv i hb).1, (hv i hb).2]
      · intro hbeta
        rw [f4 hbeta, k4 hbeta, subtrahend_ins O H lr hk h hb ha hpp (hmm i hb) hy, hmm i hb hbeta]
    | unfactored => exact absurd hl (by simp [LiftsD])
    | heuristic => exact absurd hl (by simp [LiftsD])
  | _ =>
    have hd2 : ∀ e1 e0, d' ≠ .dims e1 e0 := by
      rintro e1 e0 rfl
      simp [LiftsD] at hl
    have hm' : ∀ (w : PState V) j, moments d' w j = [w.v.get j] := by
      intro w j
      cases d' with
      | dims a b => exact absurd rfl (hd2 a b)
      | _ => rfl
    have hv : ∀ j, InBox s j → su.v.get j = st.v.get (ins ax k j) := by
      intro j hj
      have := (hr j hj).2.1
      rw [hm'] at this
      simpa [moments] using this
    have hy : ∀ j, InBox s j → yPlain O H (O.decayPow (step - H.stepOffset) H.decayRate) su.v.get gk.get j =
        yPlain O H (O.decayPow (step - H.stepOffset) H.decayRate) st.v.get g.get (ins ax k j) := by
      intro j hj
      simp only [yPlain, sqr, hv j hj, hgk j hj]
    obtain ⟨f1, f2, f4⟩ := hU hd2 _ hb'
    obtain ⟨k1, k2, k4⟩ := hU2 (by intro a b; simp) i hb
    refine ⟨?_, ?_, ?_⟩
    · rw [f1, k1, newParam_ins O H lr hk h hb ha hpp (hmm i hb) hy, hpp i hb]
    · rw [hm']
      simp only [moments]
      rw [f2, k2, hv i hb]
      simp only [sqr, hgk i hb]
    · intro hbeta
      rw [f4 hbeta, k4 hbeta, subtrahend_ins O H lr hk h hb ha hpp (hmm i hb) hy, hmm i hb hbeta]

end Verif.AdafactorStack
