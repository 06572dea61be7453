import Verif.Spec.InferRestart
import Verif.Props.Infer
/- Property C37. -/
namespace Verif.InferRestart

open Spec

variable {L : Type}

theorem applyAll_append (d : Disk L) (a b : List (Op L)) : applyAll d (a ++ b) = applyAll (applyAll d a) b := by
  simp [applyAll]

theorem applyAll_cons (d : Disk L) (o : Op L) (b : List (Op L)) : applyAll d (o :: b) = applyAll (apply d o) b := rfl

/-- `P` holds wherever the operations are cut. -/
def Safe (P : Disk L → Prop) (ops : List (Op L)) (d : Disk L) : Prop := ∀ c, P (applyAll d (ops.take c))

theorem Safe.nil {P : Disk L → Prop} {d : Disk L} (h : P d) : Safe P [] d := by intro c; simpa [applyAll] using h

theorem Safe.append {P : Disk L → Prop} {a b : List (Op L)} {d : Disk L} (h1 : Safe P a d) (h2 : Safe P b (applyAll d a)) :
    Safe P (a ++ b) d := by
  intro c
  rw [List.take_append, applyAll_append]
  by_cases h : c ≤ a.length
  · have := h1 c
    rw [show c - a.length = 0 by omega, List.take_zero]
    exact this
  · rw [List.take_of_length_le (show a.length ≤ c by omega)]
    exact h2 _

theorem Safe.cons {P : Disk L → Prop} {o : Op L} {b : List (Op L)} {d : Disk L} (h1 : P d) (h2 : Safe P b (apply d o)) :
    Safe P (o :: b) d := by
  intro c
  cases c with
  | zero => exact h1
  | succ c => exact h2 c

theorem Safe.all {P : Disk L → Prop} {a : List (Op L)} {d : Disk L} (h : Safe P a d) : P (applyAll d a) := by
  have := h a.length; rwa [List.take_length] at this

theorem Safe.first {P : Disk L → Prop} {a : List (Op L)} {d : Disk L} (h : Safe P a d) : P d := h 0

theorem Safe.imp {P Q : Disk L → Prop} (hpq : ∀ d, P d → Q d) {a : List (Op L)} {d : Disk L} (h : Safe P a d) : Safe Q a d :=
  fun c => hpq _ (h c)

/-- Operations that each keep `P`. -/
theorem Safe.each {P : Disk L → Prop} {a : List (Op L)} (h : ∀ o ∈ a, ∀ d, P d → P (apply d o)) : ∀ {d : Disk L}, P d → Safe P a d := by
  induction a with
  | nil => intro d hd; exact Safe.nil hd
  | cons o a ih =>
    intro d hd
    exact Safe.cons hd (ih (fun o' ho' => h o' (List.mem_cons_of_mem _ ho')) (h o List.mem_cons_self d hd))

/-! Writing a file -/

@[simp] theorem set_same {A : Type} (f : Nat → A) (k : Nat) (a : A) : set f k a k = a := by simp [set]
theorem set_ne {A : Type} (f : Nat → A) (k j : Nat) (a : A) (h : j ≠ k) : set f k a j = f j := by simp [set, h]
@[simp] theorem set_set {A : Type} (f : Nat → A) (k : Nat) (a b : A) : set (set f k a) k b = set f k b := by
  funext j; unfold set; split_ifs <;> rfl

theorem lines_apply (k : Nat) (ls : List L) (d : Disk L) :
    applyAll d (ls.map (Op.line k)) = { d with chunk := set d.chunk k ((d.chunk k).map (· ++ ls)) } := by
  induction ls generalizing d with
  | nil =>
    have : set d.chunk k (d.chunk k) = d.chunk := by funext j; unfold set; split_ifs with h <;> simp [h]
    simp [applyAll, this]
  | cons l ls ih =>
    rw [List.map_cons, applyAll_cons, ih]
    simp only [apply, set_same, set_set, Option.map_map]
    congr 3
    funext x; simp

theorem outLines_apply (ls : List L) (d : Disk L) :
    applyAll d (ls.map Op.outLine) = { d with out := d.out.map (· ++ ls) } := by
  induction ls generalizing d with
  | nil => simp [applyAll]
  | cons l ls ih =>
    rw [List.map_cons, applyAll_cons, ih]
    simp only [apply, Option.map_map]
    congr 2
    funext x; simp

theorem chunkOps_apply (iter : Bool) (k : Nat) (ls : List L) (d : Disk L) :
    applyAll d (chunkOps iter k ls) =
      { d with chunk := set d.chunk k (some ls), marker := set d.marker k true,
               ckptD := if iter then some (k + 1) else d.ckptD, ckptI := if iter then some (k + 1) else d.ckptI } := by
  unfold chunkOps
  rw [List.cons_append, applyAll_cons, applyAll_append, lines_apply, applyAll_cons]
  cases iter <;> simp [applyAll, apply]

/-! Merging -/

theorem mergeOps_ok (limit n : Nat) (hn : 0 < n) (hlim : n ≤ limit) (content : Nat → List L) (d : Disk L)
    (h1 : ∀ k, k < n → d.chunk k = some (content k)) (h2 : ∀ k, n ≤ k → d.chunk k = none) :
    mergeOps limit d = (Op.openOut :: (wanted n content).map Op.outLine, none) := by
  have hks : (List.range limit).filter (fun k => (d.chunk k).isSome) = List.range n := by
    obtain ⟨m, rfl⟩ := Nat.exists_eq_add_of_le hlim
    rw [List.range_add, List.filter_append, List.filter_eq_self.2, List.filter_eq_nil_iff.2, List.append_nil]
    · intro a ha
      simp only [List.mem_map, List.mem_range] at ha
      obtain ⟨b, _, rfl⟩ := ha
      simp [h2 (n + b) (by omega)]
    · intro a ha
      simp [h1 a (List.mem_range.1 ha)]
  obtain ⟨m, rfl⟩ : ∃ m, n = m + 1 := ⟨n - 1, by omega⟩
  unfold mergeOps
  dsimp only
  rw [hks]
  have : (List.range (m + 1)).getLast? = some m := by simp [List.range_succ]
  rw [this]
  dsimp only
  rw [if_neg (by simp)]
  congr 3
  unfold wanted
  apply List.flatMap_congr
  intro k hk
  rw [h1 k (List.mem_range.1 hk)]; rfl

theorem merge_apply (ls : List L) (d : Disk L) :
    applyAll d (Op.openOut :: ls.map Op.outLine) = { d with out := some ls } := by
  rw [applyAll_cons, outLines_apply]; simp [apply]

/-! The two invariants -/

section

variable (iter : Bool) (limit n : Nat) (content : Nat → List L)

/-- What is true of every disk.  With iterator checkpoints: the chunks before the position are complete.  With markers:
the marked chunks are complete (`weak`: or gone). -/
def Inv (weak : Bool) (d : Disk L) : Prop :=
  (d.done = true → d.out = some (wanted n content)) ∧ (∀ k, n ≤ k → d.chunk k = none) ∧
  (if iter then ∀ p, start true d = some p → p ≤ n ∧ ∀ k, k < p → d.chunk k = some (content k)
   else ∀ k, d.marker k = true → d.chunk k = some (content k) ∨ (weak = true ∧ d.chunk k = none))

/-- The state of the loop about to work on chunk k. -/
def At (weak : Bool) (k : Nat) (d : Disk L) : Prop :=
  Inv iter n content weak d ∧ d.done = false ∧ (∀ j, j < k → d.chunk j = some (content j)) ∧ (iter = true → start true d = some k)

theorem inv_empty (weak : Bool) : Inv iter n content weak (Disk.empty : Disk L) := by
  refine ⟨by simp [Disk.empty], by simp [Disk.empty], ?_⟩
  cases iter
  · simp [Disk.empty]
  · intro p hp
    simp [start, Disk.empty] at hp
    subst hp; simp

theorem chunkOps_safe (weak : Bool) (k : Nat) (hk : k < n) (d : Disk L) (h : At iter n content weak k d)
    (hm : iter = false → d.marker k = false) :
    Safe (Inv iter n content weak) (chunkOps iter k (content k)) d ∧
      At iter n content weak (k + 1) (applyAll d (chunkOps iter k (content k))) := by
  obtain ⟨⟨i1, i2, i3⟩, h1, h2, h3⟩ := h
  -- while the file is being written, only chunk k differs
  have hW : ∀ d' : Disk L, d'.done = false → d'.marker = d.marker → d'.ckptD = d.ckptD → d'.ckptI = d.ckptI →
      (∀ j, j ≠ k → d'.chunk j = d.chunk j) → Inv iter n content weak d' := by
    intro d' e1 e2 e3 e4 e5
    refine ⟨by simp [e1], fun j hj => by rw [e5 j (by omega)]; exact i2 j hj, ?_⟩
    cases iter with
    | true =>
      simp only [if_true] at i3 ⊢
      have hst : start true d' = start true d := by simp [start, e3, e4]
      rw [hst, h3 rfl]
      rintro p hp
      simp only [Option.some.injEq] at hp
      subst hp
      exact ⟨by omega, fun j hj => by rw [e5 j (by omega)]; exact h2 j hj⟩
    | false =>
      simp only [Bool.false_eq_true, if_false] at i3 ⊢
      rw [e2]
      intro j hj
      have : j ≠ k := by rintro rfl; rw [hm rfl] at hj; simp at hj
      rw [e5 j this]; exact i3 j hj
  set P : Disk L → Prop := fun d' => d'.done = false ∧ d'.marker = d.marker ∧ d'.ckptD = d.ckptD ∧ d'.ckptI = d.ckptI ∧
      (∀ j, j ≠ k → d'.chunk j = d.chunk j) with hP
  have hPI : ∀ d', P d' → Inv iter n content weak d' := fun d' ⟨a, b, c, e, f⟩ => hW d' a b c e f
  have hwrite : Safe P (Op.openChunk k :: (content k).map (Op.line k)) d := by
    apply Safe.each
    · intro o ho d' ⟨a, b, c, e, f⟩
      simp only [List.mem_cons, List.mem_map] at ho
      rcases ho with rfl | ⟨l, _, rfl⟩
      · exact ⟨a, b, c, e, fun j hj => by simp only [apply]; rw [set_ne _ _ _ _ hj]; exact f j hj⟩
      · exact ⟨a, b, c, e, fun j hj => by simp only [apply]; rw [set_ne _ _ _ _ hj]; exact f j hj⟩
    · exact ⟨h1, rfl, rfl, rfl, fun _ _ => rfl⟩
  -- the state at the end
  have hend : At iter n content weak (k + 1) (applyAll d (chunkOps iter k (content k))) := by
    rw [chunkOps_apply]
    refine ⟨⟨by simp [h1], ?_, ?_⟩, h1, ?_, ?_⟩
    · intro j hj; simp only; rw [set_ne _ _ _ _ (by omega)]; exact i2 j hj
    · cases iter with
      | true =>
        simp only [if_true, start]
        rintro p hp
        simp only [Option.some.injEq] at hp
        subst hp
        refine ⟨by omega, fun j hj => ?_⟩
        by_cases hjk : j = k
        · subst hjk; simp
        · rw [set_ne _ _ _ _ hjk]; exact h2 j (by omega)
      | false =>
        simp only [Bool.false_eq_true, if_false] at i3 ⊢
        intro j hj
        by_cases hjk : j = k
        · subst hjk; simp
        · rw [set_ne _ _ _ _ hjk] at hj ⊢; exact i3 j hj
    · intro j hj
      by_cases hjk : j = k
      · subst hjk; simp
      · simp only; rw [set_ne _ _ _ _ hjk]; exact h2 j (by omega)
    · rintro rfl
      simp [start]
  refine ⟨?_, hend⟩
  -- the remaining operations one by one
  have hsplit : chunkOps iter k (content k) = (Op.openChunk k :: (content k).map (Op.line k)) ++
      (Op.mark k :: (if iter then [Op.renD (k + 1), Op.renI (k + 1)] else [])) := rfl
  rw [hsplit]
  apply Safe.append (hwrite.imp hPI)
  have hPe := hwrite.all
  have hd1 : applyAll d (Op.openChunk k :: (content k).map (Op.line k)) = { d with chunk := set d.chunk k (some (content k)) } := by
    rw [applyAll_cons, lines_apply]; simp [apply]
  apply Safe.cons (hPI _ hPe)
  rw [hd1]
  cases iter with
  | false =>
    simp only [Bool.false_eq_true, if_false]
    apply Safe.nil
    rw [hsplit, applyAll_append, hd1] at hend
    exact hend.1
  | true =>
    simp only [if_true]
    refine Safe.cons ?_ (Safe.cons ?_ (Safe.nil ?_))
    · -- the marker changes nothing
      refine ⟨by simp [apply, h1], ?_, ?_⟩
      · intro j hj; simp only [apply]; rw [set_ne _ _ _ _ (by omega)]; exact i2 j hj
      · simp only [if_true]
        intro p hp
        have : start true (apply { d with chunk := set d.chunk k (some (content k)) } (Op.mark k)) = start true d := by
          simp [start, apply]
        rw [this, h3 rfl] at hp
        simp only [Option.some.injEq] at hp
        subst hp
        exact ⟨by omega, fun j hj => by simp only [apply]; rw [set_ne _ _ _ _ (by omega)]; exact h2 j hj⟩
    · -- between the two renames the checkpoint cannot be read, or the index has the new position already
      refine ⟨by simp [apply, h1], ?_, ?_⟩
      · intro j hj; simp only [apply]; rw [set_ne _ _ _ _ (by omega)]; exact i2 j hj
      · simp only [if_true]
        intro p hp
        exfalso
        have h3' := h3 rfl
        cases hD : d.ckptD with
        | none => 
          cases hI : d.ckptI with
          | none => simp [start, apply, hI] at hp
          | some b => simp [start, hD, hI] at h3'
        | some a =>
          cases hI : d.ckptI with
          | none => simp [start, hD, hI] at h3'
          | some b =>
            simp only [start, hD, hI, if_true] at h3'
            simp only [start, apply, hI, if_true] at hp
            split_ifs at h3' hp with e1 e2
            · simp at h3'; omega
    · rw [hsplit, applyAll_append, hd1] at hend
      exact hend.1

theorem chunkPhase_safe (weak : Bool) : ∀ (r k : Nat) (d : Disk L), k + r = n → At iter n content weak k d →
    Safe (Inv iter n content weak) (chunkPhase iter content r k d).1 d ∧
    ((chunkPhase iter content r k d).2 = none → At iter n content weak n (applyAll d (chunkPhase iter content r k d).1)) ∧
    (weak = false ∨ iter = true → (chunkPhase iter content r k d).2 = none) := by
  intro r
  induction r with
  | zero =>
    intro k d hk h
    simp only [chunkPhase, Nat.add_zero] at hk ⊢
    subst hk
    exact ⟨Safe.nil h.1, fun _ => h, fun _ => trivial⟩
  | succ r ih =>
    intro k d hk h
    by_cases hm : d.marker k = true ∧ iter = false
    · by_cases hc : d.chunk k = none
      · simp only [chunkPhase, if_pos hm, if_pos hc]
        refine ⟨Safe.nil h.1, by simp, ?_⟩
        intro hw
        exfalso
        have := h.1.2.2
        rw [hm.2] at this hw
        simp only [Bool.false_eq_true, if_false, or_false] at this hw
        rcases this k hm.1 with h' | h'
        · rw [hc] at h'; simp at h'
        · rw [hw] at h'; simp at h'
      · simp only [chunkPhase, if_pos hm, if_neg hc]
        apply ih (k + 1) d (by omega)
        refine ⟨h.1, h.2.1, ?_, by rw [hm.2]; simp⟩
        intro j hj
        by_cases hjk : j = k
        · subst hjk
          have := h.1.2.2
          rw [hm.2] at this
          simp only [Bool.false_eq_true, if_false] at this
          rcases this j hm.1 with h' | h'
          · exact h'
          · exact absurd h'.2 hc
        · exact h.2.2.1 j (by omega)
    · obtain ⟨s1, s2⟩ := chunkOps_safe iter n content weak k (by omega) d h (by
        intro hi
        cases hmk : d.marker k with
        | false => rfl
        | true => exact absurd ⟨hmk, hi⟩ hm)
      obtain ⟨t1, t2, t3⟩ := ih (k + 1) _ (by omega) s2
      simp only [chunkPhase, if_neg hm]
      refine ⟨s1.append t1, ?_, t3⟩
      intro he
      rw [applyAll_append]
      exact t2 he

theorem inv_out (weak : Bool) (d : Disk L) (o : Option (List L)) (hd : d.done = false) (h : Inv iter n content weak d) :
    Inv iter n content weak { d with out := o } := by
  obtain ⟨_, b, c⟩ := h
  exact ⟨by simp [hd], b, c⟩

/-- Everything about one run from a disk satisfying the invariant. -/
theorem plan_spec (weak : Bool) (hn : 0 < n) (hlim : n ≤ limit) (order : List Target) (d : Disk L) (h : Inv iter n content weak d) :
    let P := plan iter limit n content order d
    Safe (Inv iter n content weak) P.work d ∧
    ((P.clean = [] ∧ P.finish = []) ∨
      (P.clean = order.map Op.rm ++ [Op.rmTree] ∧ P.finish = [Op.setDone] ∧ (applyAll d P.work).out = some (wanted n content) ∧
        (applyAll d P.work).done = false)) ∧
    ((weak = false ∨ iter = true) → start iter d ≠ none → P.err = none ∧ (d.done = true ∨ P.finish = [Op.setDone])) := by
  intro P
  cases hs : start iter d with
  | none =>
    have hP : P = ⟨[], [], [], some .data⟩ := by simp only [P, plan, hs]
    rw [hP]
    exact ⟨Safe.nil h, Or.inl ⟨rfl, rfl⟩, by simp⟩
  | some p =>
    cases hd : d.done with
    | true =>
      have hP : P = ⟨[], [], [], none⟩ := by simp only [P, plan, hs, hd, if_true]
      rw [hP]
      exact ⟨Safe.nil h, Or.inl ⟨rfl, rfl⟩, by simp⟩
    | false =>
      have hAt : At iter n content weak p d ∧ p ≤ n := by
        cases iter with
        | true =>
          obtain ⟨a, b, c⟩ := h
          simp only [if_true] at c
          have := c p hs
          exact ⟨⟨⟨a, b, by simpa using c⟩, hd, this.2, fun _ => hs⟩, this.1⟩
        | false =>
          simp [start] at hs
          subst hs
          exact ⟨⟨h, hd, by simp, by simp⟩, by omega⟩
      obtain ⟨c1, c2, c3⟩ := chunkPhase_safe iter n content weak (n - p) p d (by omega) hAt.1
      cases hc : (chunkPhase iter content (n - p) p d).2 with
      | some e =>
        have hP : P = ⟨(chunkPhase iter content (n - p) p d).1, [], [], some e⟩ := by
          simp only [P, plan, hs, hd, hc, Bool.false_eq_true, if_false]
        rw [hP]
        refine ⟨c1, Or.inl ⟨rfl, rfl⟩, ?_⟩
        intro hw
        rw [c3 hw] at hc; simp at hc
      | none =>
        have hA := c2 hc
        obtain ⟨⟨a1, a2, a3⟩, a4, a5, a6⟩ := hA
        have hm := mergeOps_ok limit n hn hlim content _ a5 a2
        have hP : P = ⟨(chunkPhase iter content (n - p) p d).1 ++ Op.openOut :: (wanted n content).map Op.outLine,
            order.map Op.rm ++ [.rmTree], [.setDone], none⟩ := by
          simp only [P, plan, hs, hd, hc, hm, Bool.false_eq_true, if_false]
        rw [hP]
        refine ⟨?_, Or.inr ⟨rfl, rfl, ?_, ?_⟩, fun _ _ => ⟨rfl, Or.inr rfl⟩⟩
        · apply c1.append
          have : Safe (fun d' => Inv iter n content weak d' ∧ d'.done = false) (Op.openOut :: (wanted n content).map Op.outLine)
              (applyAll d (chunkPhase iter content (n - p) p d).1) := by
            apply Safe.each
            · intro o ho d' ⟨e1, e2⟩
              simp only [List.mem_cons, List.mem_map] at ho
              rcases ho with rfl | ⟨l, _, rfl⟩
              · exact ⟨inv_out iter n content weak _ _ e2 e1, e2⟩
              · exact ⟨inv_out iter n content weak _ _ e2 e1, e2⟩
            · exact ⟨⟨a1, a2, a3⟩, a4⟩
          exact this.imp (fun _ h => h.1)
        · dsimp only; rw [applyAll_append, merge_apply]
        · dsimp only; rw [applyAll_append, merge_apply]; exact a4

theorem rm_keeps (order : List Target) (d : Disk L) :
    (applyAll d (order.map Op.rm)).out = d.out ∧ (applyAll d (order.map Op.rm)).done = d.done := by
  induction order generalizing d with
  | nil => exact ⟨rfl, rfl⟩
  | cons t order ih =>
    rw [List.map_cons, applyAll_cons]
    obtain ⟨a, b⟩ := ih (apply d (Op.rm t))
    rw [a, b]
    cases t <;> exact ⟨rfl, rfl⟩

theorem clean_apply (order : List Target) (d : Disk L) :
    applyAll d (order.map Op.rm ++ [Op.rmTree]) = { (Disk.empty : Disk L) with out := d.out, done := d.done } := by
  rw [applyAll_append]
  obtain ⟨a, b⟩ := rm_keeps order d
  simp [applyAll, apply, Disk.empty] at a b ⊢
  exact ⟨a, b⟩

theorem inv_cleaned (weak : Bool) (o : Option (List L)) (b : Bool) (h : b = true → o = some (wanted n content)) :
    Inv iter n content weak { (Disk.empty : Disk L) with out := o, done := b } := by
  obtain ⟨_, h2, h3⟩ := inv_empty (L := L) iter n content weak
  exact ⟨h, h2, h3⟩

/-- The removal keeps the weak invariant of the marker mode wherever it is cut. -/
theorem rm_safe (order : List Target) (d : Disk L) (h : Inv false n content true d) :
    Safe (Inv false n content true) (order.map Op.rm) d := by
  refine Safe.each ?_ h
  intro o ho d' ⟨a, b, c⟩
  simp only [List.mem_map] at ho
  obtain ⟨t, _, rfl⟩ := ho
  simp only [Bool.false_eq_true, if_false] at c
  cases t with
  | chunk k =>
    refine ⟨a, ?_, ?_⟩
    · intro j hj
      simp only [apply]
      by_cases hjk : j = k
      · subst hjk; simp
      · rw [set_ne _ _ _ _ hjk]; exact b j hj
    · simp only [Bool.false_eq_true, if_false, apply]
      intro j hj
      by_cases hjk : j = k
      · subst hjk; simp
      · rw [set_ne _ _ _ _ hjk]; exact c j hj
  | marker k =>
    refine ⟨a, b, ?_⟩
    simp only [Bool.false_eq_true, if_false, apply]
    intro j hj
    by_cases hjk : j = k
    · subst hjk; simp at hj
    · rw [set_ne _ _ _ _ hjk] at hj; exact c j hj
  | ckptD => exact ⟨a, b, by simpa [apply] using c⟩
  | ckptI => exact ⟨a, b, by simpa [apply] using c⟩

theorem clean_inv (hn : 0 < n) (hlim : n ≤ limit) (d : Disk L) (h : ReachableClean iter limit n content d) :
    Inv iter n content false d := by
  induction h with
  | fresh => exact inv_empty iter n content false
  | run d order cut _ hcut ih =>
    obtain ⟨p1, p2, _⟩ := plan_spec iter limit n content false hn hlim order d ih
    unfold runTo Plan.ops
    rcases p2 with ⟨e1, e2⟩ | ⟨e1, e2, e3, e4⟩
    · rw [e1, e2, List.append_nil, List.append_nil]; exact p1 cut
    · rcases hcut with hcut | hcut
      · rw [List.append_assoc, List.take_append_of_le_length hcut]; exact p1 cut
      · rw [List.take_append, List.take_of_length_le (by rw [List.length_append]; exact hcut), applyAll_append,
          applyAll_append, e1, clean_apply, e2, e3, e4]
        generalize cut - _ = c
        cases c with
        | zero =>
          exact inv_cleaned iter n content false _ _ (by simp)
        | succ c =>
          simp only [List.take_succ_cons, List.take_nil]
          exact inv_cleaned iter n content false _ true (fun _ => rfl)

theorem weak_inv (hn : 0 < n) (hlim : n ≤ limit) (d : Disk L) (h : Reachable false limit n content d) :
    Inv false n content true d := by
  induction h with
  | fresh => exact inv_empty false n content true
  | run d order cut _ ih =>
    obtain ⟨p1, p2, _⟩ := plan_spec false limit n content true hn hlim order d ih
    unfold runTo Plan.ops
    rcases p2 with ⟨e1, e2⟩ | ⟨e1, e2, e3, e4⟩
    · rw [e1, e2, List.append_nil, List.append_nil]; exact p1 cut
    · have : Safe (Inv false n content true) ((plan false limit n content order d).work ++
          (plan false limit n content order d).clean ++ (plan false limit n content order d).finish) d := by
        rw [List.append_assoc]
        apply p1.append
        rw [e1, e2, List.append_assoc]
        apply (rm_safe n content order _ p1.all).append
        obtain ⟨k1, k2⟩ := rm_keeps order (applyAll d (plan false limit n content order d).work)
        refine Safe.cons (rm_safe n content order _ p1.all).all (Safe.cons ?_ (Safe.nil ?_))
        · exact inv_cleaned false n content true _ _ (by rw [k2, e4]; simp)
        · exact inv_cleaned false n content true _ true (fun _ => by simp only [apply]; rw [k1, e3])
      exact this cut

end

/-! Property C37 -/

/-- **C37**, with markers (`checkpoint_ds_iter=False`).  Whatever the history of runs and crashes — a crash at any
operation, also in the middle of a file and while the temporary directory is removed, and any order of removal — when the
output is marked `COMPLETED` the file holds the lines of all chunks, once each and in order. -/
theorem C37_markers (n : Nat) (hn : 0 < n) (hlim : n ≤ globLimit) (content : Nat → List L) (d : Disk L)
    (h : Reachable false globLimit n content d) (hd : d.done = true) : d.out = some (wanted n content) :=
  (weak_inv globLimit n content hn hlim d h).1 hd

/-- **C37** with iterator checkpoints or with markers, in part: as long as no run is interrupted while it removes the
temporary directory, when the output is marked `COMPLETED` the file holds the lines of all chunks, once each and in order.
Missing: interruptions of the removal, for which the claim is false (`C37_truncated`). -/
theorem C37_restart_partial (iter : Bool) (n : Nat) (hn : 0 < n) (hlim : n ≤ globLimit) (content : Nat → List L) (d : Disk L)
    (h : ReachableClean iter globLimit n content d) (hd : d.done = true) : d.out = some (wanted n content) :=
  (clean_inv iter globLimit n content hn hlim d h).1 hd

/-- **C37**, completion: after any such history, provided the iterator checkpoint (if used) can be read, a run that is
not interrupted completes, without error, with the whole output. -/
theorem C37_completes (iter : Bool) (n : Nat) (hn : 0 < n) (hlim : n ≤ globLimit) (content : Nat → List L) (order : List Target)
    (d : Disk L) (h : ReachableClean iter globLimit n content d) (hck : iter = true → d.ckptD = d.ckptI) :
    (plan iter globLimit n content order d).err = none ∧
    (runAll iter globLimit n content order d).done = true ∧
    (runAll iter globLimit n content order d).out = some (wanted n content) := by
  have hi := clean_inv iter globLimit n content hn hlim d h
  obtain ⟨p1, p2, p3⟩ := plan_spec iter globLimit n content false hn hlim order d hi
  have hs : start iter d ≠ none := by
    cases iter with
    | false => simp [start]
    | true =>
      have := hck rfl
      unfold start
      rw [this]
      cases d.ckptI <;> simp
  obtain ⟨q1, q2⟩ := p3 (Or.inl rfl) hs
  refine ⟨q1, ?_⟩
  have key : (runAll iter globLimit n content order d).done = true := by
    rcases q2 with q2 | q2
    · have hP : plan iter globLimit n content order d = ⟨[], [], [], none⟩ := by
        unfold plan
        cases hst : start iter d with
        | none => exact absurd hst hs
        | some p => simp only [q2, if_true]
      unfold runAll; rw [hP]; exact q2
    · unfold runAll Plan.ops
      rw [q2, applyAll_append]; rfl
  refine ⟨key, ?_⟩
  have hr : ReachableClean iter globLimit n content (runAll iter globLimit n content order d) := by
    have := ReachableClean.run d order (plan iter globLimit n content order d).ops.length h (Or.inr (by
      simp [Plan.ops]))
    unfold runTo at this
    rwa [List.take_length] at this
  exact C37_restart_partial iter n hn hlim content _ hr key

/-! What is reachable, explicitly -/

/-- The first run's work on an empty disk. -/
theorem fresh_work (iter : Bool) (limit n : Nat) (content : Nat → List L) (hn : 0 < n) (hlim : n ≤ limit) (order : List Target) :
    let P := plan iter limit n content order (Disk.empty : Disk L)
    At iter n content false n (applyAll Disk.empty P.work) ∧ P.clean = order.map Op.rm ++ [Op.rmTree] ∧ P.finish = [Op.setDone] := by
  intro P
  have hs : start iter (Disk.empty : Disk L) = some 0 := by cases iter <;> simp [start, Disk.empty]
  have hAt : At iter n content false 0 (Disk.empty : Disk L) :=
    ⟨inv_empty iter n content false, rfl, by simp, by rintro rfl; exact hs⟩
  obtain ⟨c1, c2, c3⟩ := chunkPhase_safe iter n content false n 0 Disk.empty (by omega) hAt
  have hc := c3 (Or.inl rfl)
  have hA := c2 hc
  have hm := mergeOps_ok limit n hn hlim content _ hA.2.2.1 hA.1.2.1
  have hP : P = ⟨(chunkPhase iter content n 0 Disk.empty).1 ++ Op.openOut :: (wanted n content).map Op.outLine,
      order.map Op.rm ++ [.rmTree], [.setDone], none⟩ := by
    have hdone : (Disk.empty : Disk L).done = false := rfl
    simp only [P, plan, hs, hdone, Nat.sub_zero, hc, hm, Bool.false_eq_true, if_false]
  rw [hP]
  refine ⟨?_, rfl, rfl⟩
  dsimp only
  rw [applyAll_append, merge_apply]
  exact ⟨inv_out _ _ _ _ _ _ hA.2.1 hA.1, hA.2.1, hA.2.2.1, hA.2.2.2⟩

theorem runTo_rm (iter : Bool) (limit n : Nat) (content : Nat → List L) (hn : 0 < n) (hlim : n ≤ limit) (t : Target) :
    ∃ cut, runTo iter limit n content [t] cut (Disk.empty : Disk L) =
      apply (applyAll Disk.empty (plan iter limit n content [t] (Disk.empty : Disk L)).work) (Op.rm t) := by
  obtain ⟨_, h2, h3⟩ := fresh_work iter limit n content hn hlim [t]
  refine ⟨(plan iter limit n content [t] (Disk.empty : Disk L)).work.length + 1, ?_⟩
  unfold runTo Plan.ops
  rw [h2, List.append_assoc, List.take_append, List.take_of_length_le (by omega), applyAll_append]
  rw [show (plan iter limit n content [t] (Disk.empty : Disk L)).work.length + 1 -
    (plan iter limit n content [t] (Disk.empty : Disk L)).work.length = 1 by omega]
  rfl

/-- **C37** is false of the iterator checkpoints when the removal of the temporary directory is interrupted: for every data
set of at least two chunks there is a history — a crash in `rmtree` that has removed only the last chunk, then a restart —
after which the output is marked `COMPLETED` and lacks the last chunk. -/
theorem C37_truncated (n : Nat) (hn : 2 ≤ n) (hlim : n ≤ globLimit) (content : Nat → List L) :
    ∃ d, Reachable true globLimit n content d ∧ d.done = true ∧ d.out = some (wanted (n - 1) content) := by
  obtain ⟨cut, hcut⟩ := runTo_rm true globLimit n content (by omega) hlim (.chunk (n - 1))
  obtain ⟨⟨⟨_, i2, _⟩, a2, a3, a4⟩, _, _⟩ := fresh_work true globLimit n content (by omega) hlim [.chunk (n - 1)]
  set dw := applyAll Disk.empty (plan true globLimit n content [.chunk (n - 1)] (Disk.empty : Disk L)).work with hdw
  have r1 : Reachable true globLimit n content (apply dw (Op.rm (.chunk (n - 1)))) := by
    rw [← hcut]; exact .run _ _ _ .fresh
  set d1 := apply dw (Op.rm (.chunk (n - 1))) with hd1
  have hst : start true d1 = some n := a4 rfl
  have hm : mergeOps globLimit d1 = (Op.openOut :: (wanted (n - 1) content).map Op.outLine, none) := by
    apply mergeOps_ok globLimit (n - 1) (by omega) (by omega) content
    · intro k hk
      show set dw.chunk (n - 1) none k = _
      rw [set_ne _ _ _ _ (by omega)]; exact a3 k (by omega)
    · intro k hk
      show set dw.chunk (n - 1) none k = _
      by_cases h : k = n - 1
      · subst h; simp
      · rw [set_ne _ _ _ _ h]; exact i2 k (by omega)
  have hdone : d1.done = false := a2
  have hP : plan true globLimit n content [] d1 =
      ⟨Op.openOut :: (wanted (n - 1) content).map Op.outLine, [.rmTree], [.setDone], none⟩ := by
    have h0 : applyAll d1 ([] : List (Op L)) = d1 := rfl
    simp only [plan, hst, hdone, Nat.sub_self, chunkPhase, h0, hm, Bool.false_eq_true, if_false, List.nil_append, List.map_nil]
  refine ⟨_, .run d1 [] (plan true globLimit n content [] d1).ops.length r1, ?_⟩
  unfold runTo
  rw [List.take_length, hP]
  unfold Plan.ops
  dsimp only
  rw [applyAll_append, applyAll_append, merge_apply]
  exact ⟨rfl, rfl⟩

/-- … which is not the whole output unless the last chunk is empty. -/
theorem wanted_ne (n : Nat) (hn : 0 < n) (content : Nat → List L) (h : content (n - 1) ≠ []) :
    wanted (n - 1) content ≠ wanted n content := by
  obtain ⟨m, rfl⟩ : ∃ m, n = m + 1 := ⟨n - 1, by omega⟩
  simp only [Nat.add_sub_cancel] at h ⊢
  intro he
  unfold wanted at he
  rw [List.range_succ, List.flatMap_append] at he
  simp only [List.flatMap_cons, List.flatMap_nil, List.append_nil] at he
  exact h (List.self_eq_append_right.1 he)

/-- **C37**, progress can be lost for good: with iterator checkpoints a crash between the two renames leaves a disk on
which every later run fails at once. -/
theorem C37_stuck (n : Nat) (hn : 0 < n) (hlim : n ≤ globLimit) (content : Nat → List L) :
    ∃ d, ReachableClean true globLimit n content d ∧ d.done = false ∧
      ∀ order cut, (plan true globLimit n content order d).err = some .data ∧ runTo true globLimit n content order cut d = d := by
  have hs : start true (Disk.empty : Disk L) = some 0 := by simp [start, Disk.empty]
  obtain ⟨m, rfl⟩ : ∃ m, n = m + 1 := ⟨n - 1, by omega⟩
  -- the work begins with the operations of chunk 0
  have hpre : ∃ rest, (plan true globLimit (m + 1) content [] (Disk.empty : Disk L)).work = chunkOps true 0 (content 0) ++ rest := by
    have hAt : At true (m + 1) content false 0 (Disk.empty : Disk L) :=
      ⟨inv_empty true (m + 1) content false, rfl, by simp, fun _ => hs⟩
    obtain ⟨c1, c2, c3⟩ := chunkPhase_safe true (m + 1) content false (m + 1) 0 Disk.empty (by omega) hAt
    have hc := c3 (Or.inl rfl)
    have hA := c2 hc
    have hm := mergeOps_ok globLimit (m + 1) hn hlim content _ hA.2.2.1 hA.1.2.1
    have hdone : (Disk.empty : Disk L).done = false := rfl
    have hfirst : (chunkPhase true content (m + 1) 0 (Disk.empty : Disk L)).1 = chunkOps true 0 (content 0) ++
        (chunkPhase true content m (0 + 1) (applyAll (Disk.empty : Disk L) (chunkOps true 0 (content 0)))).1 := by
      simp [chunkPhase]
    have : (plan true globLimit (m + 1) content [] (Disk.empty : Disk L)).work =
        (chunkPhase true content (m + 1) 0 Disk.empty).1 ++ Op.openOut :: (wanted (m + 1) content).map Op.outLine := by
      simp only [plan, hs, hdone, Nat.sub_zero, hc, hm, Bool.false_eq_true, if_false]
    exact ⟨_, by rw [this, hfirst, List.append_assoc]⟩
  obtain ⟨rest, hrest⟩ := hpre
  set w := (Op.openChunk 0 :: (content 0).map (Op.line 0)) ++ [Op.mark 0, Op.renD 1] with hw
  have hwork : (plan true globLimit (m + 1) content [] (Disk.empty : Disk L)).work = w ++ (Op.renI 1 :: rest) := by
    rw [hrest, hw]; simp [chunkOps]
  have hrun : runTo true globLimit (m + 1) content [] w.length (Disk.empty : Disk L) = applyAll Disk.empty w := by
    unfold runTo Plan.ops
    rw [hwork, List.append_assoc, List.append_assoc, List.take_append_of_le_length (le_refl _), List.take_length]
  have hd : applyAll (Disk.empty : Disk L) w =
      { (Disk.empty : Disk L) with chunk := set (fun _ => none) 0 (some (content 0)), marker := set (fun _ => false) 0 true, ckptD := some 1 } := by
    rw [hw, applyAll_append, applyAll_cons _ (Op.openChunk 0), lines_apply]
    simp [applyAll, apply, Disk.empty]
  refine ⟨applyAll Disk.empty w, ?_, ?_, ?_⟩
  · rw [← hrun]
    exact .run _ _ _ .fresh (Or.inl (by rw [hwork]; simp))
  · rw [hd]; rfl
  · intro order cut
    have hst : start true (applyAll (Disk.empty : Disk L) w) = none := by rw [hd]; simp [start, Disk.empty]
    have hP : plan true globLimit (m + 1) content order (applyAll (Disk.empty : Disk L) w) = ⟨[], [], [], some .data⟩ := by
      simp only [plan, hst]
    refine ⟨by rw [hP], ?_⟩
    unfold runTo
    rw [hP]
    simp [Plan.ops, applyAll]

/-- **C37**, progress with markers: a crash in the removal that leaves a marker without its chunk makes every later run
fail at the assertion, without ever changing anything. -/
theorem C37_stuck_markers (n : Nat) (hn : 0 < n) (hlim : n ≤ globLimit) (content : Nat → List L) :
    ∃ d, Reachable false globLimit n content d ∧ d.done = false ∧
      ∀ order cut, (plan false globLimit n content order d).err = some .assertion ∧ runTo false globLimit n content order cut d = d := by
  obtain ⟨cut, hcut⟩ := runTo_rm false globLimit n content hn hlim (.chunk 0)
  obtain ⟨⟨⟨_, i2, _⟩, a2, a3, a4⟩, _, _⟩ := fresh_work false globLimit n content hn hlim [.chunk 0]
  have hmark : (applyAll Disk.empty (plan false globLimit n content [.chunk 0] (Disk.empty : Disk L)).work).marker 0 = true := by
    have hs : start false (Disk.empty : Disk L) = some 0 := by simp [start]
    have hAt : At false n content false 0 (Disk.empty : Disk L) :=
      ⟨inv_empty false n content false, rfl, by simp, by simp⟩
    obtain ⟨c1, c2, c3⟩ := chunkPhase_safe false n content false n 0 Disk.empty (by omega) hAt
    have hc := c3 (Or.inl rfl)
    have hA := c2 hc
    have hm := mergeOps_ok globLimit n hn hlim content _ hA.2.2.1 hA.1.2.1
    have hdone : (Disk.empty : Disk L).done = false := rfl
    have : (plan false globLimit n content [.chunk 0] (Disk.empty : Disk L)).work =
        (chunkPhase false content n 0 Disk.empty).1 ++ Op.openOut :: (wanted n content).map Op.outLine := by
      simp only [plan, hs, hdone, Nat.sub_zero, hc, hm, Bool.false_eq_true, if_false]
    rw [this, applyAll_append, merge_apply]
    show (applyAll Disk.empty (chunkPhase false content n 0 Disk.empty).1).marker 0 = true
    -- a set marker stays set
    have mono : ∀ (r k : Nat) (d : Disk L), d.marker 0 = true → (applyAll d (chunkPhase false content r k d).1).marker 0 = true := by
      intro r
      induction r with
      | zero => intro k d h; simpa [chunkPhase, applyAll] using h
      | succ r ih =>
        intro k d h
        simp only [chunkPhase]
        split_ifs
        · simpa [applyAll] using h
        · exact ih _ _ h
        · rw [applyAll_append]
          apply ih
          rw [chunkOps_apply]
          simp only [set]
          split_ifs
          · rfl
          · exact h
    obtain ⟨m, rfl⟩ : ∃ m, n = m + 1 := ⟨n - 1, by omega⟩
    have hfirst : (chunkPhase false content (m + 1) 0 (Disk.empty : Disk L)).1 = chunkOps false 0 (content 0) ++
        (chunkPhase false content m (0 + 1) (applyAll (Disk.empty : Disk L) (chunkOps false 0 (content 0)))).1 := by
      simp [chunkPhase, Disk.empty]
    rw [hfirst, applyAll_append]
    apply mono
    rw [chunkOps_apply]; simp
  set dw := applyAll Disk.empty (plan false globLimit n content [.chunk 0] (Disk.empty : Disk L)).work with hdw
  refine ⟨apply dw (Op.rm (.chunk 0)), ?_, a2, ?_⟩
  · rw [← hcut]; exact .run _ _ _ .fresh
  · intro order cut
    obtain ⟨m, rfl⟩ : ∃ m, n = m + 1 := ⟨n - 1, by omega⟩
    have hdone : (apply dw (Op.rm (.chunk 0))).done = false := a2
    have hmk : (apply dw (Op.rm (.chunk 0))).marker 0 = true := hmark
    have hck : (apply dw (Op.rm (.chunk 0))).chunk 0 = none := by simp [apply]
    have hP : plan false globLimit (m + 1) content order (apply dw (Op.rm (.chunk 0))) = ⟨[], [], [], some .assertion⟩ := by
      have hs : start false (apply dw (Op.rm (.chunk 0))) = some 0 := by simp [start]
      simp only [plan, hs, hdone, Nat.sub_zero, chunkPhase, hmk, hck, and_self, if_true, Bool.false_eq_true, if_false]
    refine ⟨by rw [hP], ?_⟩
    unfold runTo
    rw [hP]
    simp [Plan.ops, applyAll]

theorem mergeOps_over (limit n : Nat) (hl : 0 < limit) (hn : limit ≤ n) (content : Nat → List L) (d : Disk L)
    (h : ∀ k, k < n → d.chunk k = some (content k)) :
    mergeOps limit d = (Op.openOut :: (wanted limit content).map Op.outLine, none) := by
  have := mergeOps_ok limit limit hl (le_refl _) content
    { d with chunk := fun k => if k < limit then d.chunk k else none }
    (by intro k hk; simp only [if_pos hk]; exact h k (by omega))
    (by intro k hk; simp only [if_neg (show ¬ k < limit by omega)])
  rw [← this]
  unfold mergeOps
  have hf : (List.range limit).filter (fun k => (d.chunk k).isSome) =
      (List.range limit).filter (fun k => (if k < limit then d.chunk k else none).isSome) := by
    apply List.filter_congr
    intro k hk
    rw [if_pos (List.mem_range.1 hk)]
  dsimp only
  rw [← hf]
  cases ((List.range limit).filter (fun k => (d.chunk k).isSome)).getLast? with
  | none => rfl
  | some last =>
    dsimp only
    split_ifs
    · rfl
    · congr 3
      apply List.flatMap_congr
      intro k hk
      have := List.mem_range.1 (List.mem_filter.1 hk).1
      rw [if_pos this]

/-- **C37** needs at most 100000 chunks: beyond that the merge silently drops the rest, and the output is marked `COMPLETED`. -/
theorem C37_too_many_chunks (iter : Bool) (n : Nat) (hn : globLimit < n) (content : Nat → List L) :
    (runAll iter globLimit n content [] (Disk.empty : Disk L)).done = true ∧
    (runAll iter globLimit n content [] (Disk.empty : Disk L)).out = some (wanted globLimit content) := by
  have hs : start iter (Disk.empty : Disk L) = some 0 := by cases iter <;> simp [start, Disk.empty]
  have hAt : At iter n content false 0 (Disk.empty : Disk L) :=
    ⟨inv_empty iter n content false, rfl, by simp, by rintro rfl; exact hs⟩
  obtain ⟨c1, c2, c3⟩ := chunkPhase_safe iter n content false n 0 Disk.empty (by omega) hAt
  have hc := c3 (Or.inl rfl)
  have hA := c2 hc
  have hm : mergeOps globLimit (applyAll (Disk.empty : Disk L) (chunkPhase iter content n 0 (Disk.empty : Disk L)).1) =
      (Op.openOut :: (wanted globLimit content).map Op.outLine, none) := by
    exact mergeOps_over globLimit n (by decide) (by omega) content _ hA.2.2.1
  have hP : plan iter globLimit n content [] (Disk.empty : Disk L) =
      ⟨(chunkPhase iter content n 0 Disk.empty).1 ++ Op.openOut :: (wanted globLimit content).map Op.outLine, [.rmTree], [.setDone], none⟩ := by
    have hdone : (Disk.empty : Disk L).done = false := rfl
    simp only [plan, hs, hdone, Nat.sub_zero, hc, hm, Bool.false_eq_true, if_false, List.map_nil, List.nil_append]
  unfold runAll
  rw [hP]
  unfold Plan.ops
  dsimp only
  rw [applyAll_append, applyAll_append, applyAll_append, merge_apply]
  exact ⟨rfl, rfl⟩

/-! End to end -/

/-- The chunks partition the data set. -/
theorem chunks_cover {X : Type} (c : Nat) (hc : 0 < c) (n : Nat) (xs : List X) (hn : xs.length ≤ n * c) (g : List X → List L)
    (hg : ∀ a b, g (a ++ b) = g a ++ g b) : wanted n (fun k => g (chunksOf c xs k)) = g xs := by
  have hnil : g [] = [] := by
    have := hg [] []
    simp only [List.append_nil] at this
    exact List.self_eq_append_right.1 this
  have key : ∀ m, wanted m (fun k => g (chunksOf c xs k)) = g (xs.take (m * c)) := by
    intro m
    induction m with
    | zero => simp [wanted, hnil]
    | succ m ih =>
      unfold wanted at ih ⊢
      rw [List.range_succ, List.flatMap_append, ih]
      simp only [List.flatMap_cons, List.flatMap_nil, List.append_nil]
      rw [← hg, Nat.add_mul, Nat.one_mul, List.take_add]
      rfl
  rw [key, List.take_of_length_le hn]

/-- **C36** and **C37** together: when the chunk files are what batched, sharded inference over the chunks produces, the
complete output file has one line per example of the data set, in order, each rendered from the example and its own result. -/
theorem C37_output {X Y : Type} (shards B period : Nat) (hB : 0 < B) (hs : shards ∣ B) (hp : 0 < period) (f : X → Y)
    (render : X → Y → L) (xs : List X) (n : Nat) (hn : n = (xs.length + period * B - 1) / (period * B)) (content : Nat → List L)
    (hcontent : ∀ k, k < n → (Infer.inferFn shards B (fun _ b => b.map f) (chunksOf (period * B) xs k)).map
      (fun out => List.zipWith render (chunksOf (period * B) xs k) (Infer.extract out)) = .ok (content k)) :
    wanted n content = xs.map (fun x => render x (f x)) := by
  have hc : 0 < period * B := Nat.mul_pos hp hB
  set c := period * B with hcdef
  have hlen : xs.length ≤ n * c := by
    have h1 := Nat.div_add_mod (xs.length + c - 1) c
    have h2 := Nat.mod_lt (xs.length + c - 1) hc
    rw [← hn] at h1
    rw [Nat.mul_comm n c]
    omega
  have hle : ∀ k, k < n → k * c < xs.length := by
    intro k hk
    have h1 : (k + 1) * c ≤ xs.length + c - 1 := by
      rw [← Nat.le_div_iff_mul_le hc, ← hn]; omega
    rw [Nat.add_mul] at h1; omega
  have hzip : ∀ l : List X, List.zipWith render l (l.map f) = l.map (fun x => render x (f x)) := by
    intro l; induction l with
    | nil => rfl
    | cons a l ih => simp [ih]
  have hcont : ∀ k, k < n → content k = (chunksOf c xs k).map (fun x => render x (f x)) := by
    intro k hk
    have hne : chunksOf c xs k ≠ [] := by
      intro h0
      have := congrArg List.length h0
      have hlt := hle k hk
      simp only [chunksOf, List.length_take, List.length_drop, List.length_nil] at this
      omega
    have h1 := hcontent k hk
    have h2 := Infer.C36_map shards B hB hs f (chunksOf c xs k) hne
    cases hi : Infer.inferFn shards B (fun _ b => b.map f) (chunksOf c xs k) with
    | error e => rw [hi] at h2; simp [Except.map] at h2
    | ok out =>
      rw [hi] at h1 h2
      simp only [Except.map, Except.ok.injEq] at h1 h2
      rw [← h1, h2, hzip]
  rw [← chunks_cover c hc n xs hlen (fun l => l.map (fun x => render x (f x))) (by simp)]
  unfold wanted
  apply List.flatMap_congr
  intro k hk
  exact hcont k (List.mem_range.1 hk)

/-- Witness: seven examples, batch 2 on 2 shards, chunks of two batches: two chunks. -/
example : (fun k => (Infer.inferFn 2 2 (fun _ b => b.map (· * 10)) (chunksOf (2 * 2) [1, 2, 3, 4, 5, 6, 7] k)).map (fun o => o.map (·.2))) 1 =
    .ok [50, 60, 70] := by rfl

/-- Witness for the histories: a run of three chunks from an empty disk; (`C37_stuck`, `C37_stuck_markers` and
`C37_truncated` build histories with crashes for every number of chunks). -/
example (iter : Bool) : ∃ d : Disk Nat, ReachableClean iter globLimit 3 (fun k => [10 * k, 10 * k + 1]) d ∧ d.done = true ∧
    d.out = some [0, 1, 10, 11, 20, 21] := by
  have h := C37_completes iter 3 (by decide) (by decide) (fun k => [10 * k, 10 * k + 1]) [] Disk.empty .fresh (fun _ => rfl)
  refine ⟨_, .run Disk.empty [] (plan iter globLimit 3 (fun k => [10 * k, 10 * k + 1]) [] (Disk.empty : Disk Nat)).ops.length .fresh
    (Or.inr (by simp [Plan.ops])), ?_⟩
  unfold runTo
  rw [List.take_length]
  exact h.2

end Verif.InferRestart
