import Verif.Spec.InferLines
import Verif.Props.Infer
/-
C84: the lines of the output file of inference.
-/
namespace Verif.InferLines
open Spec

variable {V J : Type}

theorem endsWith_iff (k : Name) : endsWith k = true ↔ ∃ f, k = f ++ "_pretokenized".toList := by
  unfold endsWith
  rw [List.isSuffixOf_iff_suffix]
  constructor
  · rintro ⟨f, h⟩; exact ⟨f, h.symm⟩
  · rintro ⟨f, h⟩; exact ⟨f, h.symm⟩

theorem strip_append (f : Name) : strip (f ++ "_pretokenized".toList) = f := by
  unfold strip
  have : (f ++ "_pretokenized".toList).length - suffix.length = f.length := by
    rw [List.length_append]; exact Nat.add_sub_cancel _ _
  rw [this, List.take_left]

open Classical in
theorem select_eq (o : Opts) (inp : List (Name × V)) : select o inp = inp.filter fun e => decide (Shown o e.1) := by
  unfold select
  cases ha : o.includeAll with
  | true =>
    rw [if_pos rfl]
    symm
    rw [List.filter_eq_self]
    intro e _
    simp [Shown, ha]
  | false =>
    rw [if_neg (by simp)]
    cases hf : o.fields with
    | some fs =>
      dsimp only
      refine List.filter_congr ?_
      intro e _
      rw [Bool.eq_iff_iff]
      simp only [Bool.or_eq_true, Bool.and_eq_true, List.contains_iff_mem, endsWith_iff, decide_eq_true_eq]
      unfold Shown
      constructor
      · rintro (h | ⟨⟨f, h⟩, h2⟩)
        · exact .inr (.inl ⟨ha, fs, hf, .inl h⟩)
        · rw [h, strip_append] at h2
          exact .inr (.inl ⟨ha, fs, hf, .inr ⟨f, h2, h⟩⟩)
      · rintro (h | ⟨-, fs', h1, h | ⟨f, h2, h3⟩⟩ | ⟨-, h, -⟩)
        · rw [ha] at h; cases h
        · rw [hf] at h1; cases h1; exact .inl h
        · rw [hf] at h1; cases h1
          refine .inr ⟨⟨f, h3⟩, ?_⟩
          rw [h3, strip_append]; exact h2
        · rw [hf] at h; cases h
    | none =>
      dsimp only
      refine List.filter_congr ?_
      intro e _
      rw [Bool.eq_iff_iff]
      simp only [endsWith_iff, decide_eq_true_eq]
      unfold Shown
      constructor
      · intro h; exact .inr (.inr ⟨ha, hf, h⟩)
      · rintro (h | ⟨-, fs', h1, -⟩ | ⟨-, -, h⟩)
        · rw [ha] at h; cases h
        · rw [hf] at h1; cases h1
        · exact h

theorem compatAll_ok (compat : V → Option J) (d : List (Name × V)) (r : List (Name × J)) :
    compatAll compat d = .ok r ↔ List.Forall₂ (fun e j => j.1 = e.1 ∧ compat e.2 = some j.2) d r := by
  induction d generalizing r with
  | nil =>
    simp only [compatAll, List.forall₂_nil_left_iff]
    constructor
    · intro e; cases e; rfl
    · rintro rfl; rfl
  | cons e d ih =>
    obtain ⟨k, v⟩ := e
    simp only [compatAll]
    cases hv : compat v with
    | none =>
      constructor
      · intro e; cases e
      · intro h
        cases h with
        | cons h _ => rw [hv] at h; cases h.2
    | some j =>
      dsimp only
      cases hd : compatAll compat d with
      | error e =>
        constructor
        · intro e; cases e
        · intro h
          cases h with
          | cons _ h => rw [← ih, hd] at h; cases h
      | ok r' =>
        constructor
        · intro e
          cases e
          exact .cons ⟨rfl, hv⟩ ((ih r').1 hd)
        · intro h
          cases h with
          | @cons _ x _ r'' h1 h2 =>
            obtain ⟨a, b⟩ := x
            rw [← ih, hd] at h2
            cases h2
            rw [hv] at h1
            obtain ⟨rfl, h1⟩ := h1
            cases h1
            rfl

theorem entries_inputs (compat : V → Option J) (o : Opts) (inp : List (Name × V)) (r : List (Name × J)) :
    compatAll compat (select o inp) = .ok r ↔ Entries compat (Shown o) inp r := by
  rw [compatAll_ok, select_eq]
  rfl

theorem entries_all (compat : V → Option J) (aux : List (Name × V)) (r : List (Name × J)) :
    compatAll compat aux = .ok r ↔ Entries compat (fun _ => True) aux r := by
  rw [compatAll_ok]
  unfold Entries
  rw [List.filter_eq_self.2 (by simp)]

theorem auxAt_ok (aux : List (Name × List V)) (i : Nat) (a : List (Name × V)) : auxAt aux i = .ok a ↔ AuxOf aux i a := by
  unfold AuxOf
  induction aux generalizing a with
  | nil =>
    simp only [auxAt, List.forall₂_nil_left_iff]
    constructor
    · intro e; cases e; rfl
    · rintro rfl; rfl
  | cons e aux ih =>
    obtain ⟨k, l⟩ := e
    simp only [auxAt]
    cases hv : l[i]? with
    | none =>
      constructor
      · intro e; cases e
      · intro h
        cases h with
        | cons h _ => rw [hv] at h; cases h.2
    | some v =>
      dsimp only
      cases hd : auxAt aux i with
      | error e =>
        constructor
        · intro e; cases e
        · intro h
          cases h with
          | cons _ h => rw [← ih, hd] at h; cases h
      | ok r' =>
        constructor
        · intro e
          cases e
          exact .cons ⟨rfl, hv⟩ ((ih r').1 hd)
        · intro h
          cases h with
          | @cons _ x _ r'' h1 h2 =>
            obtain ⟨a, b⟩ := x
            rw [← ih, hd] at h2
            cases h2
            rw [hv] at h1
            obtain ⟨rfl, h1⟩ := h1
            cases h1
            rfl

theorem beforePadding_iff (l r : List Int) : BeforePadding l r ↔ r = if 0 ∈ l then l.take (l.idxOf 0) else l := by
  induction l generalizing r with
  | nil =>
    constructor
    · rintro ⟨rest, h, -⟩
      obtain ⟨rfl, -⟩ := List.append_eq_nil_iff.1 h.symm
      rfl
    · intro h
      exact ⟨[], by simpa using h, by simp [h], .inl rfl⟩
  | cons x l ih =>
    by_cases hx : x = 0
    · subst hx
      rw [if_pos (by simp)]
      simp only [List.idxOf_cons_self, List.take_zero]
      constructor
      · rintro ⟨rest, h, h1, -⟩
        cases r with
        | nil => rfl
        | cons y r =>
          simp only [List.cons_append, List.cons.injEq] at h
          rw [← h.1] at h1
          simp at h1
      · rintro rfl
        exact ⟨0 :: l, rfl, by simp, .inr rfl⟩
    · have e : (if 0 ∈ x :: l then (x :: l).take ((x :: l).idxOf 0) else x :: l) =
          x :: (if 0 ∈ l then l.take (l.idxOf 0) else l) := by
        have : (0 ∈ x :: l) ↔ 0 ∈ l := by simp [Ne.symm hx]
        by_cases hm : 0 ∈ l
        · rw [if_pos (this.2 hm), if_pos hm, List.idxOf_cons_ne _ hx, List.take_succ_cons]
        · rw [if_neg (fun h => hm (this.1 h)), if_neg hm]
      rw [e]
      constructor
      · rintro ⟨rest, h, h1, h2⟩
        cases r with
        | nil =>
          simp only [List.nil_append] at h
          rcases h2 with rfl | h2
          · cases h
          · rw [← h] at h2
            simp only [List.head?_cons, Option.some.injEq] at h2
            exact absurd h2 hx
        | cons y r =>
          simp only [List.cons_append, List.cons.injEq] at h
          obtain ⟨rfl, h⟩ := h
          rw [(ih r).1 ⟨rest, h, fun hh => h1 (List.mem_cons_of_mem _ hh), h2⟩]
      · rintro rfl
        obtain ⟨rest, h, h1, h2⟩ := (ih _).2 rfl
        refine ⟨rest, by rw [List.cons_append, ← h], ?_, h2⟩
        intro hm
        rcases List.mem_cons.1 hm with h' | h'
        · exact hx h'.symm
        · exact h1 h'

theorem truncate_iff (p : Pred V) (ids : Ids) : truncate p = some ids ↔ TokensOf p ids := by
  unfold TokensOf
  cases p with
  | row l =>
    simp only [truncate, Option.some.injEq, Pred.row.injEq]
    constructor
    · rintro rfl
      exact .inl ⟨l, _, rfl, rfl, (beforePadding_iff l _).2 rfl⟩
    · rintro (⟨l', r, rfl, rfl, h⟩ | ⟨l', h, -⟩)
      · rw [(beforePadding_iff l r).1 h]
      · cases h
  | rows l =>
    simp only [truncate, Option.some.injEq]
    constructor
    · rintro rfl; exact .inr ⟨l, rfl, rfl⟩
    · rintro (⟨l', r, h, -⟩ | ⟨l', h, rfl⟩)
      · cases h
      · cases h; rfl
  | score v =>
    simp only [truncate]
    constructor
    · intro h; cases h
    · rintro (⟨l', r, h, -⟩ | ⟨l', h, -⟩) <;> cases h

theorem predicted_ok (compat : V → Option J) (decode : Pred V → Option V) (o : Opts) (inputs : List (Name × J)) (p : Pred V) (l : Line J) :
    predicted compat decode o inputs p = .ok l ↔ l.inputs = inputs ∧ l.score = none ∧ l.aux = none ∧
      (∃ v j, decode p = some v ∧ compat v = some j ∧ l.prediction = some j) ∧
      (o.outputIds = true → ∃ ids, l.tokens = some ids ∧ TokensOf p ids) ∧ (o.outputIds = false → l.tokens = none) := by
  unfold predicted
  cases hd : decode p with
  | none =>
    constructor
    · intro e; cases e
    · rintro ⟨-, -, -, ⟨v, j, h, -⟩, -⟩; cases h
  | some v =>
    dsimp only
    cases hc : compat v with
    | none =>
      constructor
      · intro e; cases e
      · rintro ⟨-, -, -, ⟨v', j, h, h', -⟩, -⟩
        cases h; rw [hc] at h'; cases h'
    | some j =>
      dsimp only
      cases ho : o.outputIds with
      | false =>
        rw [if_neg (by simp)]
        constructor
        · intro e
          cases e
          exact ⟨rfl, rfl, rfl, ⟨v, j, rfl, hc, rfl⟩, by simp, fun _ => rfl⟩
        · rintro ⟨h1, h2, h3, ⟨v', j', h4, h5, h6⟩, -, h7⟩
          cases h4
          rw [hc] at h5; cases h5
          obtain ⟨li, lp, lt, ls, la⟩ := l
          simp only at h1 h2 h3 h6 h7
          subst h1; subst h2; subst h3; subst h6
          rw [h7 trivial]
      | true =>
        rw [if_pos rfl]
        cases ht : truncate p with
        | none =>
          constructor
          · intro e; cases e
          · rintro ⟨-, -, -, -, h, -⟩
            obtain ⟨ids, -, h⟩ := h rfl
            rw [← truncate_iff, ht] at h; cases h
        | some ids =>
          constructor
          · intro e
            cases e
            exact ⟨rfl, rfl, rfl, ⟨v, j, rfl, hc, rfl⟩, fun _ => ⟨ids, rfl, (truncate_iff p ids).1 ht⟩, by simp⟩
          · rintro ⟨h1, h2, h3, ⟨v', j', h4, h5, h6⟩, h7, -⟩
            cases h4
            rw [hc] at h5; cases h5
            obtain ⟨ids', h8, h9⟩ := h7 rfl
            rw [← truncate_iff, ht] at h9
            cases h9
            obtain ⟨li, lp, lt, ls, la⟩ := l
            simp only at h1 h2 h3 h6 h8
            subst h1; subst h2; subst h3; subst h6; subst h8
            rfl

theorem predict_ne_score : "predict".toList ≠ "score".toList := by decide
theorem aux_ne_score : "predict_with_aux".toList ≠ "score".toList := by decide
theorem aux_ne_predict : "predict_with_aux".toList ≠ "predict".toList := by decide

/-- The loop body writes what a line has to say, and nothing else. -/
theorem line_ok (compat : V → Option J) (decode : Pred V → Option V) (o : Opts) (inp : List (Name × V)) (p : Pred V)
    (aux : List (Name × V)) (l : Line J) : line compat decode o inp p aux = .ok l ↔ Says compat decode o inp p aux l := by
  unfold line
  cases hi : compatAll compat (select o inp) with
  | error e =>
    constructor
    · intro e; cases e
    · intro h
      have := (entries_inputs compat o inp l.inputs).2 h.inputs
      rw [hi] at this; cases this
  | ok inputs =>
    have hin : ∀ r, Entries compat (Shown o) inp r ↔ r = inputs := by
      intro r
      rw [← entries_inputs, hi]
      constructor
      · intro e; cases e; rfl
      · rintro rfl; rfl
    dsimp only
    by_cases h1 : o.mode = "predict".toList
    · rw [if_pos h1, predicted_ok]
      have hs : o.mode ≠ "score".toList := by rw [h1]; exact predict_ne_score
      have hx : o.mode ≠ "predict_with_aux".toList := by rw [h1]; exact Ne.symm aux_ne_predict
      constructor
      · rintro ⟨a, b, c, d, e, f⟩
        exact ⟨(hin _).2 a, .inl h1, fun _ => d, fun _ => e, f, fun _ => b, fun h => absurd h hs,
          fun h => by rcases h with h | h; exacts [absurd h hx, absurd h.1 hs], fun _ => c⟩
      · intro h
        exact ⟨(hin _).1 h.inputs, h.noScore hs, h.noAux (.inl h1), h.prediction hs, h.tokens hs, h.noTokens⟩
    rw [if_neg h1]
    by_cases h2 : o.mode = "score".toList
    · rw [if_pos h2]
      have hx : o.mode ≠ "predict_with_aux".toList := by rw [h2]; exact Ne.symm aux_ne_score
      cases p with
      | row ids =>
        constructor
        · intro e; cases e
        · intro h; obtain ⟨-, -, v, j, h, -⟩ := h.score h2; cases h
      | rows ids =>
        constructor
        · intro e; cases e
        · intro h; obtain ⟨-, -, v, j, h, -⟩ := h.score h2; cases h
      | score v =>
        dsimp only
        cases hc : compat v with
        | none =>
          constructor
          · intro e; cases e
          · intro h
            obtain ⟨-, -, v', j, h, h', -⟩ := h.score h2
            cases h; rw [hc] at h'; cases h'
        | some j =>
          dsimp only
          cases aux with
          | nil =>
            rw [if_pos (show ([] : List (Name × V)).isEmpty = true from rfl)]
            constructor
            · intro e
              cases e
              exact ⟨(hin _).2 rfl, .inr (.inl h2), fun h => absurd h2 h, fun h => absurd h2 h, fun _ => rfl, fun h => absurd h2 h,
                fun _ => ⟨rfl, rfl, v, j, rfl, hc, rfl⟩,
                fun h => by rcases h with h | h; exacts [absurd h hx, absurd rfl h.2], fun _ => rfl⟩
            · intro h
              obtain ⟨a, b, v', j', c, d, e⟩ := h.score h2
              cases c
              rw [hc] at d; cases d
              have hin' := (hin _).1 h.inputs
              have ha := h.noAux (.inr ⟨h2, rfl⟩)
              obtain ⟨li, lp, lt, ls, la⟩ := l
              simp only at a b e hin' ha
              subst a; subst b; subst e; subst hin'; subst ha
              rfl
          | cons x aux =>
            rw [if_neg (by simp)]
            cases hca : compatAll compat (x :: aux) with
            | error e =>
              constructor
              · intro e; cases e
              · intro h
                obtain ⟨a, -, h⟩ := h.aux (.inr ⟨h2, by simp⟩)
                rw [← entries_all, hca] at h; cases h
            | ok a =>
              constructor
              · intro e
                cases e
                exact ⟨(hin _).2 rfl, .inr (.inl h2), fun h => absurd h2 h, fun h => absurd h2 h, fun _ => rfl, fun h => absurd h2 h,
                  fun _ => ⟨rfl, rfl, v, j, rfl, hc, rfl⟩, fun _ => ⟨a, rfl, (entries_all compat _ _).1 hca⟩,
                  fun h => by rcases h with h | h; exacts [absurd h h1, by cases h.2]⟩
              · intro h
                obtain ⟨a', b, v', j', c, d, e⟩ := h.score h2
                cases c
                rw [hc] at d; cases d
                have hin' := (hin _).1 h.inputs
                obtain ⟨a'', ha, ha'⟩ := h.aux (.inr ⟨h2, by simp⟩)
                rw [← entries_all, hca] at ha'
                cases ha'
                obtain ⟨li, lp, lt, ls, la⟩ := l
                simp only at a' b e hin' ha
                subst a'; subst b; subst e; subst hin'; subst ha
                rfl
    rw [if_neg h2]
    by_cases h3 : o.mode = "predict_with_aux".toList
    · rw [if_pos h3]
      cases hp : predicted compat decode o inputs p with
      | error e =>
        constructor
        · intro e; cases e
        · intro h
          have : predicted compat decode o inputs p = .ok { l with aux := none } := by
            rw [predicted_ok]
            exact ⟨(hin _).1 h.inputs, h.noScore h2, rfl, h.prediction h2, h.tokens h2, h.noTokens⟩
          rw [hp] at this; cases this
      | ok l' =>
        dsimp only
        cases hca : compatAll compat aux with
        | error e =>
          constructor
          · intro e; cases e
          · intro h
            obtain ⟨a, -, h⟩ := h.aux (.inl h3)
            rw [← entries_all, hca] at h; cases h
        | ok a =>
          constructor
          · intro e
            cases e
            obtain ⟨b, c, -, d, e, f⟩ := (predicted_ok compat decode o inputs p l').1 hp
            exact ⟨(hin _).2 b, .inr (.inr h3), fun _ => d, fun _ => e, f, fun _ => c, fun h => absurd h h2,
              fun _ => ⟨a, rfl, (entries_all compat _ _).1 hca⟩,
              fun h => by rcases h with h | h; exacts [absurd h h1, absurd h.1 h2]⟩
          · intro h
            have : predicted compat decode o inputs p = .ok { l with aux := none } := by
              rw [predicted_ok]
              exact ⟨(hin _).1 h.inputs, h.noScore h2, rfl, h.prediction h2, h.tokens h2, h.noTokens⟩
            rw [hp] at this
            cases this
            obtain ⟨a', ha, ha'⟩ := h.aux (.inl h3)
            rw [← entries_all, hca] at ha'
            cases ha'
            obtain ⟨li, lp, lt, ls, la⟩ := l
            simp only at ha
            subst ha
            rfl
    · rw [if_neg h3]
      constructor
      · intro e; cases e
      · intro h
        rcases h.known with h | h | h
        exacts [absurd h h1, absurd h h2, absurd h h3]

theorem loop_ok (compat : V → Option J) (decode : Pred V → Option V) (o : Opts) (preds : List (Pred V)) (aux : List (Name × List V))
    (ds : List (List (Name × V))) (i : Nat) (ls : List (Line J)) :
    loop compat decode o preds aux i ds = .ok ls ↔ ls.length = ds.length ∧
      ∀ (j : Nat) (inp : List (Name × V)), ds[j]? = some inp → ∃ p a l, preds[i + j]? = some p ∧ AuxOf aux (i + j) a ∧ ls[j]? = some l ∧
        Says compat decode o inp p a l := by
  induction ds generalizing i ls with
  | nil =>
    simp only [loop]
    constructor
    · intro e; cases e; simp
    · rintro ⟨h, -⟩
      rw [List.length_nil, List.length_eq_zero_iff] at h
      rw [h]
  | cons inp ds ih =>
    simp only [loop]
    have fwd : ∀ {ls'}, (∃ p a l rest, preds[i]? = some p ∧ auxAt aux i = .ok a ∧ line compat decode o inp p a = .ok l ∧
        loop compat decode o preds aux (i + 1) ds = .ok rest ∧ ls' = l :: rest) ↔
        ls'.length = (inp :: ds).length ∧
        ∀ (j : Nat) (inp' : List (Name × V)), (inp :: ds)[j]? = some inp' → ∃ p a l, preds[i + j]? = some p ∧ AuxOf aux (i + j) a ∧
          ls'[j]? = some l ∧ Says compat decode o inp' p a l := by
      intro ls'
      constructor
      · rintro ⟨p, a, l, rest, h1, h2, h3, h4, rfl⟩
        obtain ⟨h5, h6⟩ := (ih (i + 1) rest).1 h4
        refine ⟨by simp [h5], ?_⟩
        intro j inp' hj
        cases j with
        | zero =>
          simp only [List.getElem?_cons_zero, Option.some.injEq] at hj
          subst hj
          exact ⟨p, a, l, h1, (auxAt_ok aux i a).1 h2, rfl, (line_ok compat decode o inp p a l).1 h3⟩
        | succ j =>
          simp only [List.getElem?_cons_succ] at hj ⊢
          obtain ⟨p', a', l', q1, q2, q3, q4⟩ := h6 j inp' hj
          have e : i + 1 + j = i + (j + 1) := by omega
          rw [e] at q1 q2
          exact ⟨p', a', l', q1, q2, q3, q4⟩
      · rintro ⟨h1, h2⟩
        obtain ⟨p, a, l, q1, q2, q3, q4⟩ := h2 0 inp rfl
        cases ls' with
        | nil => simp at h1
        | cons l' rest =>
          simp only [List.getElem?_cons_zero, Option.some.injEq] at q3
          subst q3
          refine ⟨p, a, l', rest, q1, (auxAt_ok aux i a).2 q2, (line_ok compat decode o inp p a l').2 q4, ?_, rfl⟩
          rw [ih]
          refine ⟨by simpa using h1, ?_⟩
          intro j inp' hj
          obtain ⟨p', a', l'', r1, r2, r3, r4⟩ := h2 (j + 1) inp' (by simpa using hj)
          have e : i + 1 + j = i + (j + 1) := by omega
          rw [e]
          exact ⟨p', a', l'', r1, r2, by simpa using r3, r4⟩
    rw [← fwd]
    cases hp : preds[i]? with
    | none =>
      constructor
      · intro e; cases e
      · rintro ⟨_, _, _, _, h, _⟩; cases h
    | some p =>
      dsimp only
      cases ha : auxAt aux i with
      | error e =>
        constructor
        · intro e; cases e
        · rintro ⟨_, _, _, _, _, h, _⟩; cases h
      | ok a =>
        dsimp only
        cases hl : line compat decode o inp p a with
        | error e =>
          constructor
          · intro e; cases e
          · rintro ⟨_, _, _, _, h, h', h'', _⟩
            cases h; cases h'; rw [hl] at h''; cases h''
        | ok l =>
          dsimp only
          cases hr : loop compat decode o preds aux (i + 1) ds with
          | error e =>
            constructor
            · intro e; cases e
            · rintro ⟨_, _, _, _, _, _, _, h, _⟩; cases h
          | ok rest =>
            constructor
            · intro e
              cases e
              exact ⟨p, a, l, rest, rfl, rfl, hl, rfl, rfl⟩
            · rintro ⟨p', a', l', rest', h1, h2, h3, h4, rfl⟩
              cases h1; cases h2; cases h4
              rw [hl] at h3; cases h3
              rfl

/-- **C84** The file has one line per example, in order, and line `i` tells the inputs of example `i`, its own prediction or score and
its own auxiliary values; writing succeeds exactly if there are such lines and the options are consistent. -/
theorem C84_lines (compat : V → Option J) (decode : Option (Pred V → Option V)) (o : Opts) (preds : List (Pred V))
    (aux : List (Name × List V)) (ds : List (List (Name × V))) (ls : List (Line J)) :
    write compat decode o preds aux ds = .ok ls ↔
      (o.mode = "predict".toList ∨ o.mode = "predict_with_aux".toList → decode ≠ none) ∧
      ¬ (o.includeAll = true ∧ o.fields ≠ none) ∧ ls.length = ds.length ∧
      ∀ (i : Nat) (inp : List (Name × V)), ds[i]? = some inp → ∃ p a l, preds[i]? = some p ∧ AuxOf aux i a ∧ ls[i]? = some l ∧
        Says compat (decode.getD fun _ => none) o inp p a l := by
  unfold write
  by_cases h1 : (o.mode = "predict".toList ∨ o.mode = "predict_with_aux".toList) ∧ decode.isNone
  · rw [if_pos h1]
    constructor
    · intro e; cases e
    · rintro ⟨h, -⟩
      exact absurd (by simpa using h1.2) (h h1.1)
  rw [if_neg h1]
  have h1' : o.mode = "predict".toList ∨ o.mode = "predict_with_aux".toList → decode ≠ none := by
    intro h hn
    exact h1 ⟨h, by simp [hn]⟩
  by_cases h2 : o.includeAll ∧ o.fields.isSome
  · rw [if_pos h2]
    constructor
    · intro e; cases e
    · rintro ⟨-, h, -⟩
      refine absurd ⟨h2.1, ?_⟩ h
      intro hn
      have := h2.2
      rw [hn] at this; cases this
  rw [if_neg h2, loop_ok]
  have h2' : ¬ (o.includeAll = true ∧ o.fields ≠ none) := by
    rintro ⟨a, b⟩
    exact h2 ⟨a, Option.isSome_iff_ne_none.2 b⟩
  simp only [Nat.zero_add]
  exact ⟨fun h => ⟨h1', h2', h⟩, fun h => h.2.2⟩

theorem fileText_cons (enc : Line J → List Char) (l : Line J) (ls : List (Line J)) :
    fileText enc (l :: ls) = enc l ++ '\n' :: fileText enc ls := by
  unfold fileText
  rw [List.flatMap_cons, List.append_assoc]
  rfl

/-- Reading a text line by line: every line ends with a newline. -/
inductive LinesOf : List Char → List (List Char) → Prop where
  | nil : LinesOf [] []
  | cons (l : List Char) (rest : List Char) (ls : List (List Char)) : '\n' ∉ l → LinesOf rest ls → LinesOf (l ++ '\n' :: rest) (l :: ls)

/-- **C84** If the JSON text of a record has no newline, the lines of the file are the JSON texts of the records, in order, and the file
can be read in no other way. -/
theorem C84_file (enc : Line J → List Char) (henc : ∀ l, '\n' ∉ enc l) (ls : List (Line J)) (r : List (List Char)) :
    LinesOf (fileText enc ls) r ↔ r = ls.map enc := by
  constructor
  · intro h
    generalize ht : fileText enc ls = t at h
    induction h generalizing ls with
    | nil =>
      cases ls with
      | nil => rfl
      | cons l ls => rw [fileText_cons] at ht; simp at ht
    | cons l rest ls' hl _ ih =>
      cases ls with
      | nil =>
        exfalso
        have : fileText enc ([] : List (Line J)) = [] := rfl
        rw [this] at ht
        have := congrArg List.length ht
        simp at this
      | cons x ls =>
        rw [fileText_cons] at ht
        have key : enc x = l ∧ fileText enc ls = rest := by
          rcases List.append_eq_append_iff.1 ht with ⟨a, h1, h2⟩ | ⟨a, h1, h2⟩
          · cases a with
            | nil => simp only [List.append_nil] at h1; simp only [List.nil_append, List.cons.injEq, true_and] at h2; exact ⟨h1.symm, h2⟩
            | cons c a =>
              simp only [List.cons_append, List.cons.injEq] at h2
              rw [h1, ← h2.1] at hl
              simp at hl
          · cases a with
            | nil =>
              simp only [List.append_nil] at h1
              simp only [List.nil_append, List.cons.injEq, true_and] at h2
              exact ⟨h1, h2.symm⟩
            | cons c a =>
              simp only [List.cons_append, List.cons.injEq] at h2
              have := henc x
              rw [h1, ← h2.1] at this
              simp at this
        rw [List.map_cons, key.1, ih ls key.2]
  · rintro rfl
    induction ls with
    | nil => exact .nil
    | cons l ls ih =>
      rw [fileText_cons]
      exact .cons _ _ _ (henc l) ih

/-- **C84** From the data set to the file: for a model whose prediction for an example depends on the example alone, the prediction on
line `i` is the decoded prediction for example `i`, for every number of shards and batch size. -/
theorem C84_end_to_end {X : Type} (n B : Nat) (hB : 0 < B) (hn : n ∣ B) (f : X → Pred V) (compat : V → Option J)
    (decode : Pred V → Option V) (o : Opts) (hm : o.mode = "predict".toList) (examples : List (List (Name × V) × X)) (ls : List (Line J))
    (preds : List (Pred V))
    (hp : (Infer.inferFn n B (fun _ b => b.map f) (examples.map (·.2))).map Infer.extract = .ok preds)
    (hne : examples ≠ []) (hw : write compat (some decode) o preds [] (examples.map (·.1)) = .ok ls) :
    ls.length = examples.length ∧ ∀ (i : Nat) (e : List (Name × V) × X), examples[i]? = some e → ∃ l, ls[i]? = some l ∧
      Entries compat (Shown o) e.1 l.inputs ∧ ∃ v j, decode (f e.2) = some v ∧ compat v = some j ∧ l.prediction = some j := by
  rw [Infer.C36_map n B hB hn f (examples.map (·.2)) (by simpa using hne)] at hp
  cases hp
  obtain ⟨-, -, h1, h2⟩ := (C84_lines compat (some decode) o _ [] _ ls).1 hw
  refine ⟨by simpa using h1, ?_⟩
  intro i e he
  obtain ⟨p, a, l, q1, -, q3, q4⟩ := h2 i e.1 (by simp [he])
  have hpe : p = f e.2 := by
    simp only [List.map_map, List.getElem?_map, he, Option.map_some, Option.some.injEq] at q1
    exact q1.symm
  subst hpe
  exact ⟨l, q3, q4.inputs, q4.prediction (by rw [hm]; exact predict_ne_score)⟩

/-- **C84** Limits: predictions beyond the examples are dropped without an error, and an unknown mode is noticed only if there is an
example. -/
theorem C84_unnoticed (compat : V → Option J) (decode : Option (Pred V → Option V)) (o : Opts) (preds more : List (Pred V))
    (ds : List (List (Name × V))) (h : ds.length ≤ preds.length) :
    write compat decode o (preds ++ more) [] ds = write compat decode o preds [] ds ∧
    (o.mode = "unknown".toList → o.fields = none → write compat decode o preds [] [] = .ok []) := by
  constructor
  · have keyErr : ∀ (i : Nat) (ds' : List (List (Name × V))), i + ds'.length ≤ preds.length →
        loop compat (decode.getD fun _ => none) o (preds ++ more) [] i ds' = loop compat (decode.getD fun _ => none) o preds [] i ds' := by
      intro i ds'
      induction ds' generalizing i with
      | nil => intro _; rfl
      | cons x ds' ih =>
        intro hl
        simp only [List.length_cons] at hl
        simp only [loop]
        rw [List.getElem?_append_left (by omega), ih (i + 1) (by omega)]
    unfold write
    rw [keyErr 0 ds (by omega)]
  · intro hm hf
    unfold write
    rw [if_neg, if_neg]
    · rfl
    · rw [hf]; simp
    · rw [hm]
      rintro ⟨h | h, -⟩
      · exact absurd h (by decide)
      · exact absurd h (by decide)

/-! ### Non-vacuity -/

def exOpts : Opts := { mode := "predict_with_aux".toList, includeAll := false, fields := none, outputIds := true }
def exDs : List (List (Name × Nat)) := [[("x_pretokenized".toList, 1), ("x".toList, 2)], [("x".toList, 3), ("x_pretokenized".toList, 4)]]
def exDecode : Pred Nat → Option Nat
  | .row l => some l.length
  | _ => none

example : write (fun v : Nat => some (v + 100)) (some exDecode) exOpts [.row [5, 6, 0, 7], .row [8]] [("s".toList, [10, 20])] exDs =
    .ok [{ inputs := [("x_pretokenized".toList, 101)], prediction := some 104, tokens := some (.row [5, 6]), score := none,
           aux := some [("s".toList, 110)] },
         { inputs := [("x_pretokenized".toList, 104)], prediction := some 101, tokens := some (.row [8]), score := none,
           aux := some [("s".toList, 120)] }] := rfl
example : write (fun v : Nat => some v) (some exDecode) exOpts [.row [5, 6, 0, 7]] [] exDs = .error .index := rfl
/-- With all decodes the padding stays. -/
example : truncate (.rows [[5, 0], [6, 7]] : Pred Nat) = some (.rows [[5, 0], [6, 7]]) := rfl
example : ∃ ls, write (fun v : Nat => some v) (some exDecode) { exOpts with mode := "predict".toList } [.row [5], .row [8]] [] exDs = .ok ls ∧
    (Infer.inferFn 1 2 (fun _ b => b.map fun x : Nat => (Pred.row [(x : Int)] : Pred Nat)) [5, 8]).map Infer.extract =
      .ok [.row [5], .row [8]] := ⟨_, rfl, Infer.C36_map 1 2 (by omega) (by omega) _ [5, 8] (by simp)⟩
example : Shown { exOpts with fields := some ["x".toList] } "x_pretokenized".toList :=
  .inr (.inl ⟨rfl, _, rfl, .inr ⟨"x".toList, by decide, by decide⟩⟩)

end Verif.InferLines
