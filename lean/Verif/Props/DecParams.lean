import Verif.Model.DecParams
import Mathlib.Tactic
namespace Verif.DecParams
open Verif

variable {V : Type}

/-- Two outcomes are the same: the same error, or keyword arguments with the same values. -/
def Same : Except Err (List (Key × V)) → Except Err (List (Key × V)) → Prop
  | .error e, .error f => e = f
  | .ok a, .ok b => ∀ k, PyDict.get a k = PyDict.get b k
  | _, _ => False

theorem get_putIndex (c : Call V) (D : List (Key × V)) (k : Key) : PyDict.get (putIndex c D) k =
    if c.kind = .encDec ∧ c.index ≠ none ∧ kIndex = k then c.index else PyDict.get D k := by
  unfold putIndex
  cases hk : c.kind <;> cases hi : c.index
  · simp
  · simp only [PyDict.get_set, ne_eq, reduceCtorEq, not_false_eq_true, true_and]
  · simp
  · simp

theorem get_putEos (c : Call V) (D : List (Key × V)) (k : Key) : PyDict.get (putEos c D) k =
    if kEos = k then some ((PyDict.get D kEos).getD c.eos) else PyDict.get D k := by
  unfold putEos
  cases h : PyDict.get D kEos with
  | none =>
    simp only [Option.isSome_none, Bool.false_eq_true, if_false, PyDict.get_set, Option.getD_none]
  | some v =>
    simp only [Option.isSome_some, if_true, Option.getD_some]
    by_cases hk : kEos = k
    · rw [if_pos hk, ← hk, h]
    · rw [if_neg hk]

theorem ne1 : kRng ≠ kIndex := by decide
theorem ne2 : kRng ≠ kEos := by decide
theorem ne3 : kIndex ≠ kEos := by decide

theorem decode_congr (c : Call V) (D E : List (Key × V)) (h : ∀ k, PyDict.get D k = PyDict.get E k) : Same (decode c D) (decode c E) := by
  unfold decode
  rcases c.kind with _ | _ <;> rcases c.index with _ | i
  · exact h
  · exact h
  · exact h
  · dsimp only
    rw [h kIndex]
    split_ifs
    · rfl
    · intro k
      rw [PyDict.get_set, PyDict.get_set, h k]

/-- Calls without rng of one model, with or without an initial index. -/
def Alike (c : Call V) (kind : Kind) (eos : V) (indexed : Bool) : Prop :=
  c.kind = kind ∧ c.eos = eos ∧ c.index.isSome = indexed ∧ c.rng = none

/-- The dict after calls of one model: like the first one, with an end-of-sequence id and any initial index. -/
def After (D E : List (Key × V)) (kind : Kind) (eos : V) (indexed : Bool) : Prop :=
  (∀ k, k ≠ kEos → k ≠ kIndex → PyDict.get E k = PyDict.get D k) ∧
  (PyDict.get E kEos = PyDict.get D kEos ∨ PyDict.get E kEos = some ((PyDict.get D kEos).getD eos)) ∧
  (¬ (kind = .encDec ∧ indexed = true) → PyDict.get E kIndex = PyDict.get D kIndex)

theorem call_after (D E : List (Key × V)) (kind : Kind) (eos : V) (indexed : Bool) (h : After D E kind eos indexed) (c : Call V)
    (hc : Alike c kind eos indexed) : Same (call c E).1 (call c D).1 ∧ After D (call c E).2 kind eos indexed := by
  obtain ⟨h1, h2, h3⟩ := h
  obtain ⟨c1, c2, c3, c4⟩ := hc
  have heos : (PyDict.get E kEos).getD c.eos = (PyDict.get D kEos).getD c.eos := by
    rcases h2 with h2 | h2
    · rw [h2]
    · rw [h2, c2, Option.getD_some]
  have hi : c.index ≠ none ↔ indexed = true := by
    rw [← c3]; cases c.index <;> simp
  have key : ∀ k, PyDict.get (putEos c (putIndex c E)) k = PyDict.get (putEos c (putIndex c D)) k := by
    intro k
    have z : ∀ F : List (Key × V), PyDict.get (putIndex c F) kEos = PyDict.get F kEos := by
      intro F
      rw [get_putIndex, if_neg (fun h => ne3 h.2.2)]
    rw [get_putEos, get_putEos, z, z, heos]
    by_cases hk : kEos = k
    · rw [if_pos hk, if_pos hk]
    · rw [if_neg hk, if_neg hk, get_putIndex, get_putIndex]
      by_cases hx : c.kind = .encDec ∧ c.index ≠ none ∧ kIndex = k
      · rw [if_pos hx, if_pos hx]
      · rw [if_neg hx, if_neg hx]
        by_cases hk2 : k = kIndex
        · subst hk2
          refine h3 ?_
          rintro ⟨a1, a2⟩
          exact hx ⟨c1.trans a1, hi.2 a2, rfl⟩
        · exact h1 k (fun h => hk h.symm) hk2
  have hcall : ∀ F, call c F = (decode c (putEos c (putIndex c F)), putEos c (putIndex c F)) := by
    intro F
    unfold call
    rw [c4]
  rw [hcall, hcall]
  refine ⟨decode_congr c _ _ key, ?_, ?_, ?_⟩
  · intro k hk1 hk2
    dsimp only
    rw [key, get_putEos, if_neg (fun h => hk1 h.symm), get_putIndex, if_neg (fun h => hk2 h.2.2.symm)]
  · right
    dsimp only
    rw [key, get_putEos, if_pos rfl, get_putIndex, if_neg (fun h => ne3 h.2.2), c2]
  · intro hn
    dsimp only
    rw [key, get_putEos, if_neg (fun h => ne3 h.symm), get_putIndex, if_neg]
    rintro ⟨a1, a2, _⟩
    exact hn ⟨c1 ▸ a1, hi.1 a2⟩

/-- C53: calls of one model that share their `decoder_params` and pass no `rng` behave as if each had the object to itself. -/
theorem C53_independent (kind : Kind) (eos : V) (indexed : Bool) (cs : List (Call V)) (h : ∀ c ∈ cs, Alike c kind eos indexed)
    (D : List (Key × V)) : List.Forall₂ (fun c r => Same r (call c D).1) cs (calls cs D).1 := by
  have main : ∀ (cs : List (Call V)), (∀ c ∈ cs, Alike c kind eos indexed) → ∀ E, After D E kind eos indexed →
      List.Forall₂ (fun c r => Same r (call c D).1) cs (calls cs E).1 := by
    intro cs
    induction cs with
    | nil => intro _ E _; exact List.Forall₂.nil
    | cons c cs ih =>
      intro hcs E hE
      obtain ⟨h1, h2⟩ := call_after D E kind eos indexed hE c (hcs c List.mem_cons_self)
      exact List.Forall₂.cons h1 (ih (fun x hx => hcs x (List.mem_cons_of_mem _ hx)) _ h2)
  exact main cs h D ⟨fun _ _ _ => rfl, Or.inl rfl, fun _ => rfl⟩

/-- The key in the dict stays through any call. -/
theorem rng_kept (c : Call V) (D : List (Key × V)) (r : V) (h : PyDict.get D kRng = some r) : PyDict.get (call c D).2 kRng = some r := by
  have hi : PyDict.get (putIndex c D) kRng = some r := by
    rw [get_putIndex, if_neg (fun h => ne1 h.2.2.symm), h]
  unfold call
  cases c.rng with
  | some x => simp only [hi, Option.isSome_some, if_true]
  | none =>
    dsimp only
    rw [get_putEos, if_neg (fun h => ne2 h.symm), hi]

/-- C53: the key of a call is used by that call (never another one), and afterwards, whatever else is called in between, a call with a key
of its own is refused and a call without one gets the old key. -/
theorem C53_rng (c : Call V) (D : List (Key × V)) (r : V) (hr : c.rng = some r) (a : List (Key × V)) (hok : (call c D).1 = .ok a) :
    PyDict.get a kRng = some r ∧
    ∀ (between : List (Call V)) (c' : Call V),
      let D' := (calls between (call c D).2).2
      (∀ r', c'.rng = some r' → (call c' D').1 = .error .twoKeys) ∧
      (c'.rng = none → ∀ a', (call c' D').1 = .ok a' → PyDict.get a' kRng = some r) := by
  have hdec : ∀ (c : Call V) (F b : List (Key × V)), decode c F = .ok b → PyDict.get b kRng = PyDict.get F kRng := by
    intro c F b hb
    unfold decode at hb
    cases hk : c.kind <;> cases hx : c.index <;> rw [hk, hx] at hb <;> dsimp only at hb
    · cases hb; rfl
    · cases hb; rfl
    · cases hb; rfl
    · split_ifs at hb
      cases hb
      rw [PyDict.get_set, if_neg (fun h => ne1 h.symm)]
  have hD : PyDict.get (call c D).2 kRng = some r ∧ PyDict.get a kRng = some r := by
    unfold call at hok ⊢
    rw [hr] at hok ⊢
    dsimp only at hok ⊢
    split_ifs at hok ⊢ with hi
    have hset : PyDict.get (putEos c (PyDict.set (putIndex c D) kRng r)) kRng = some r := by
      rw [get_putEos, if_neg (fun h => ne2 h.symm), PyDict.get_set, if_pos rfl]
    exact ⟨hset, (hdec _ _ _ hok).trans hset⟩
  refine ⟨hD.2, ?_⟩
  intro between c'
  have hB : ∀ (bs : List (Call V)) (F : List (Key × V)), PyDict.get F kRng = some r → PyDict.get (calls bs F).2 kRng = some r := by
    intro bs
    induction bs with
    | nil => intro F h; exact h
    | cons b bs ih => intro F h; exact ih _ (rng_kept b F r h)
  have hD' := hB between _ hD.1
  dsimp only
  generalize (calls between (call c D).2).2 = D' at hD'
  have hi : PyDict.get (putIndex c' D') kRng = some r := by
    rw [get_putIndex, if_neg (fun h => ne1 h.2.2.symm), hD']
  constructor
  · intro r' hr'
    unfold call
    rw [hr']
    simp only [hi, Option.isSome_some, if_true]
  · intro hn a' ha'
    unfold call at ha'
    rw [hn] at ha'
    dsimp only at ha'
    rw [hdec _ _ _ ha', get_putEos, if_neg (fun h => ne2 h.symm), hi]

/-- C53: what a call leaves in the dict also reaches other models: the end-of-sequence id of the first one is kept, and an initial index
left by an encoder-decoder model makes a decoder-only model raise. -/
theorem C53_other_models (c c' : Call V) (D : List (Key × V)) (hc : c.rng = none) (hc' : c'.rng = none) (hD : PyDict.get D kEos = none) :
    (∀ a, (call c' (call c D).2).1 = .ok a → PyDict.get a kEos = some c.eos) ∧
    (c.kind = .encDec → c.index.isSome → c'.kind = .decOnly → c'.index.isSome → (call c' (call c D).2).1 = .error .twoIndices) := by
  have hcall : ∀ (c : Call V) (F : List (Key × V)), c.rng = none →
      call c F = (decode c (putEos c (putIndex c F)), putEos c (putIndex c F)) := by
    intro c F h
    unfold call
    rw [h]
  rw [hcall c D hc, hcall c' _ hc']
  dsimp only
  have z : ∀ (c : Call V) (F : List (Key × V)), PyDict.get (putIndex c F) kEos = PyDict.get F kEos := by
    intro c F
    rw [get_putIndex, if_neg (fun h => ne3 h.2.2)]
  have he : PyDict.get (putEos c' (putIndex c' (putEos c (putIndex c D)))) kEos = some c.eos := by
    rw [get_putEos, if_pos rfl, z, get_putEos, if_pos rfl, z, hD]; rfl
  constructor
  · intro a ha
    unfold decode at ha
    cases hk : c'.kind <;> cases hx : c'.index <;> rw [hk, hx] at ha <;> dsimp only at ha
    · cases ha; exact he
    · cases ha; exact he
    · cases ha; exact he
    · split_ifs at ha
      cases ha
      rw [PyDict.get_set, if_neg ne3, he]
  · intro k1 k2 k3 k4
    obtain ⟨i, hi⟩ := Option.isSome_iff_exists.mp k2
    obtain ⟨j, hj⟩ := Option.isSome_iff_exists.mp k4
    have : PyDict.get (putEos c' (putIndex c' (putEos c (putIndex c D)))) kIndex = some i := by
      rw [get_putEos, if_neg (fun h => ne3 h.symm), get_putIndex, if_neg (fun h => by rw [k3] at h; cases h.1), get_putEos,
        if_neg (fun h => ne3 h.symm), get_putIndex, if_pos ⟨k1, by rw [hi]; simp, rfl⟩, hi]
    unfold decode
    rw [k3, hj]
    dsimp only
    rw [this]
    rfl

/-! ### Concrete cases -/

example : let c : Call Nat := ⟨.encDec, 1, some 3, none⟩
    let d : Call Nat := ⟨.encDec, 1, some 4, none⟩
    Alike c .encDec 1 true ∧ Alike d .encDec 1 true ∧
    (calls [c, d] []).1 = [.ok [(kIndex, 3), (kEos, 1)], .ok [(kIndex, 4), (kEos, 1)]] :=
  ⟨⟨rfl, rfl, rfl, rfl⟩, ⟨rfl, rfl, rfl, rfl⟩, by decide⟩
example : (calls [⟨.decOnly, 1, some 3, some 7⟩, ⟨.decOnly, 1, some 3, some 8⟩] ([] : List (Key × Nat))).1 =
    [.ok [(kRng, 7), (kEos, 1), (kIndex, 3)], .error .twoKeys] := by decide
example : (calls [⟨.encDec, 1, some 3, none⟩, ⟨.decOnly, 2, some 3, none⟩] ([] : List (Key × Nat))).1 =
    [.ok [(kIndex, 3), (kEos, 1)], .error .twoIndices] := by decide

end Verif.DecParams
