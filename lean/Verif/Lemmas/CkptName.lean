import Verif.Model.CkptName
/-
Helper lemmas for checkpoint directory names.
-/
namespace Verif.Ckpt
open Verif

theorem dec_digits (n : Nat) : ∀ c ∈ dec n, c.isDigit = true :=
  fun _ hc => Nat.isDigit_of_mem_toDigits (by omega) (by omega) hc

theorem dec_ne_nil (n : Nat) : dec n ≠ [] := Nat.toDigits_ne_nil

theorem ofDigitChars_dec (n : Nat) : Nat.ofDigitChars 10 (dec n) 0 = n := Nat.ofDigitChars_ten_toDigits

theorem parseInt_dec (n : Nat) : parseInt (dec n) = some n := by
  unfold parseInt
  rw [if_pos ⟨dec_ne_nil n, List.all_eq_true.2 (dec_digits n)⟩, ofDigitChars_dec]

theorem decPad_digits (w n : Nat) : ∀ c ∈ decPad w n, c.isDigit = true := by
  intro c hc
  unfold decPad at hc
  rcases List.mem_append.1 hc with h | h
  · rw [List.eq_of_mem_replicate h]; decide
  · exact dec_digits n c h

theorem decPad_ne_nil (w n : Nat) : decPad w n ≠ [] := by
  unfold decPad; simp [dec_ne_nil]

theorem parseInt_decPad (w n : Nat) : parseInt (decPad w n) = some n := by
  unfold parseInt
  rw [if_pos ⟨decPad_ne_nil w n, List.all_eq_true.2 (decPad_digits w n)⟩]
  unfold decPad
  rw [Nat.ofDigitChars_append, Nat.ofDigitChars_replicate_zero]
  simp [ofDigitChars_dec]

/-- The step written into the directory name. -/
def stepStr (width : Option Nat) (step : Nat) : Name :=
  match width with
  | none => dec step
  | some w => decPad w step

theorem stepStr_digits (w : Option Nat) (n : Nat) : ∀ c ∈ stepStr w n, c.isDigit = true := by
  cases w
  · exact dec_digits n
  · exact decPad_digits _ n

theorem stepStr_ne_nil (w : Option Nat) (n : Nat) : stepStr w n ≠ [] := by
  cases w
  · exact dec_ne_nil n
  · exact decPad_ne_nil _ n

theorem parseInt_stepStr (w : Option Nat) (n : Nat) : parseInt (stepStr w n) = some n := by
  cases w
  · exact parseInt_dec n
  · exact parseInt_decPad _ n

theorem getCheckpointDir_eq (pfx d : Name) (n : Nat) (w : Option Nat) :
    getCheckpointDir pfx d n w = pathJoin d (pfx ++ '_' :: stepStr w n) := by
  cases w <;> rfl

theorem not_digit_slash : ¬ ('/' : Char).isDigit = true := by decide
theorem not_digit_us : ¬ ('_' : Char).isDigit = true := by decide

theorem takeWhile_append_all {α : Type} (p : α → Bool) (a b : List α) (ha : ∀ x ∈ a, p x = true) :
    (a ++ b).takeWhile p = a ++ b.takeWhile p := by
  induction a with
  | nil => rfl
  | cons x a ih =>
    simp [ha x (by simp), ih (fun y hy => ha y (by simp [hy]))]

theorem dropWhile_append_all {α : Type} (p : α → Bool) (a b : List α) (ha : ∀ x ∈ a, p x = true) :
    (a ++ b).dropWhile p = b.dropWhile p := by
  induction a with
  | nil => rfl
  | cons x a ih =>
    simp [ha x (by simp), ih (fun y hy => ha y (by simp [hy]))]

/-- The directory part of `os.path.split(os.path.join(d, name))`. -/
def normDir (d : Name) : Name := if d.all (· == '/') then d else rstrip d

theorem rstrip_snoc (d : Name) : rstrip (d ++ ['/']) = rstrip d := by
  simp [rstrip]

theorem rstrip_of_not_slash (d : Name) (h : d.getLast? ≠ some '/') : rstrip d = d := by
  unfold rstrip
  cases hr : d.reverse with
  | nil => simp at hr; simp [hr]
  | cons c t =>
    have hd : d = t.reverse ++ [c] := by
      have := congrArg List.reverse hr
      simpa using this
    have hc : ¬ c = '/' := by
      intro hc; apply h; rw [hd, hc]; simp
    have : (c == '/') = false := by simpa using hc
    rw [List.dropWhile_cons, this]
    simp [hd]

theorem pathSplit_join (d name : Name) (hname : ∀ c ∈ name, c ≠ '/') :
    pathSplit (pathJoin d name) = (normDir d, name) := by
  have hrev : ∀ c ∈ name.reverse, (c != '/') = true := by
    intro c hc
    have := hname c (List.mem_reverse.1 hc)
    simpa using this
  -- `h`: the head with its slash
  have key : ∀ h : Name, (h = [] ∨ h.getLast? = some '/') →
      pathSplit (h ++ name) = (if h.all (· == '/') then h else rstrip h, name) := by
    intro h hh
    have e1 : h.reverse.takeWhile (· != '/') = [] := by
      rcases hh with rfl | hh
      · rfl
      · obtain ⟨t, ht⟩ : ∃ t, h = t ++ ['/'] := by
          obtain ⟨t, x, rfl⟩ := List.eq_nil_or_concat' h |>.resolve_left (by rintro rfl; cases hh)
          simp at hh; subst hh; exact ⟨t, rfl⟩
        simp [ht]
    have e2 : h.reverse.dropWhile (· != '/') = h.reverse := by
      rcases hh with rfl | hh
      · rfl
      · obtain ⟨t, ht⟩ : ∃ t, h = t ++ ['/'] := by
          obtain ⟨t, x, rfl⟩ := List.eq_nil_or_concat' h |>.resolve_left (by rintro rfl; cases hh)
          simp at hh; subst hh; exact ⟨t, rfl⟩
        simp [ht]
    unfold pathSplit
    simp only [List.reverse_append]
    rw [takeWhile_append_all _ _ _ hrev, dropWhile_append_all _ _ _ hrev, e1, e2]
    simp
  unfold pathJoin
  split_ifs with hd
  · rw [key d hd]; rfl
  · rw [show d ++ '/' :: name = (d ++ ['/']) ++ name by simp, key (d ++ ['/']) (Or.inr (by simp))]
    rw [not_or] at hd
    have h1 : rstrip d = d := rstrip_of_not_slash d hd.2
    have h2 : ¬ (d.all (· == '/')) = true := by
      intro hall
      obtain ⟨t, x, rfl⟩ := List.eq_nil_or_concat' d |>.resolve_left hd.1
      simp at hall
      apply hd.2
      simp [hall.2]
    unfold normDir
    rw [if_neg h2]
    have h3 : ¬ ((d ++ ['/']).all (· == '/')) = true := by
      intro h; apply h2; simp at h; simpa using h
    rw [if_neg h3, rstrip_snoc]

theorem contains_self_append (a b : Name) : contains (a ++ b) a = true := by
  cases a with
  | nil =>
    cases b with
    | nil => rfl
    | cons c b => simp [contains]
  | cons c a => simp [contains]

theorem removeAll_skip (old : Name) (k : Nat) (s : Name) : removeAll old k s = removeAll old 0 (s.drop k) := by
  induction s generalizing k with
  | nil => cases k <;> simp [removeAll]
  | cons c s ih =>
    cases k with
    | zero => rfl
    | succ k => simp only [removeAll, List.drop_succ_cons]; exact ih k

theorem removeAll_absent (pfx s : Name) (h : '_' ∉ s) : removeAll (pfx ++ ['_']) 0 s = s := by
  induction s with
  | nil => rfl
  | cons c s ih =>
    unfold removeAll
    rw [if_neg, ih (fun h' => h (List.mem_cons_of_mem _ h'))]
    intro hp
    have : (pfx ++ ['_']) <+: c :: s := by simpa using hp
    exact h (this.subset (by simp))

theorem removeAll_name (pfx ds : Name) (h : '_' ∉ ds) :
    removeAll (pfx ++ ['_']) 0 (pfx ++ '_' :: ds) = ds := by
  have heq : pfx ++ '_' :: ds = (pfx ++ ['_']) ++ ds := by simp
  rw [heq]
  obtain ⟨c, o, ho⟩ := List.exists_cons_of_ne_nil (show pfx ++ ['_'] ≠ [] by simp)
  have hr : removeAll (c :: o) 0 ((c :: o) ++ ds) = removeAll (c :: o) 0 ds := by
    rw [List.cons_append]
    conv_lhs => unfold removeAll
    rw [if_pos (by simp)]
    rw [removeAll_skip]
    simp
  rw [ho, hr, ← ho, removeAll_absent pfx ds h]

theorem mem_allStepsOf (es : List Name) (n : Nat) :
    n ∈ allStepsOf es ↔ ∃ e ∈ es, stepOfName e = some n := by
  simp [allStepsOf]

theorem allStepsOf_sorted (es : List Name) : (allStepsOf es).Pairwise (· ≤ ·) :=
  List.pairwise_insertionSort _ _

theorem stepOfName_iff (e : Name) (n : Nat) :
    stepOfName e = some n ↔ ∃ ds, e = ckptPrefix ++ ds ∧ ds ≠ [] ∧ (∀ c ∈ ds, c.isDigit = true) ∧
      Nat.ofDigitChars 10 ds 0 = n := by
  unfold stepOfName
  constructor
  · intro h
    split_ifs at h with hp
    rw [List.isPrefixOf_iff_prefix] at hp
    obtain ⟨ds, rfl⟩ := hp
    refine ⟨ds, rfl, ?_⟩
    simp only [List.drop_left] at h
    unfold parseInt at h
    split_ifs at h with hd
    cases h
    exact ⟨hd.1, List.all_eq_true.1 hd.2, rfl⟩
  · rintro ⟨ds, rfl, h1, h2, h3⟩
    rw [if_pos (by rw [List.isPrefixOf_iff_prefix]; exact List.prefix_append _ _)]
    simp only [List.drop_left]
    unfold parseInt
    rw [if_pos ⟨h1, List.all_eq_true.2 h2⟩, h3]

theorem stepOfName_ckptName (n : Nat) : stepOfName (ckptName n) = some n := by
  rw [stepOfName_iff]
  exact ⟨dec n, rfl, dec_ne_nil n, dec_digits n, ofDigitChars_dec n⟩

theorem ckptName_inj {a b : Nat} (h : ckptName a = ckptName b) : a = b := by
  have h1 := stepOfName_ckptName a
  rw [h, stepOfName_ckptName b] at h1
  exact (Option.some.inj h1).symm

end Verif.Ckpt
