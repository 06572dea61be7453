import Verif.Spec.MoeTrain
import Verif.Props.NamedTree
import Verif.Props.AdafactorNum
/-
C119: the trainer for mixtures of experts is the regular trainer with scaled expert gradients.
-/
namespace Verif.MoeTrain
open Verif.NamedTree Verif.NamedTree.Spec Verif.MoeTrain.Spec

/-! ### Names -/

theorem star_iff (k : List Char → Bool) : ∀ s, star k s = true ↔ ∃ a b, s = a ++ b ∧ '\n' ∉ a ∧ k b = true := by
  intro s
  induction s with
  | nil =>
    simp only [star]
    constructor
    · intro h; exact ⟨[], [], rfl, by simp, h⟩
    · rintro ⟨a, b, h, -, hk⟩
      obtain ⟨rfl, rfl⟩ := List.append_eq_nil_iff.1 h.symm
      exact hk
  | cons c s ih =>
    simp only [star, Bool.or_eq_true, Bool.and_eq_true, bne_iff_ne, ih]
    constructor
    · rintro (h | ⟨h, a, b, rfl, hn, hk⟩)
      · exact ⟨[], c :: s, rfl, by simp, h⟩
      · exact ⟨c :: a, b, rfl, by simp [hn, Ne.symm h], hk⟩
    · rintro ⟨a, b, h, hn, hk⟩
      cases a with
      | nil => left; rw [h]; exact hk
      | cons d a =>
        simp only [List.cons_append, List.cons.injEq] at h
        obtain ⟨rfl, rfl⟩ := h
        simp only [List.mem_cons, not_or] at hn
        exact .inr ⟨Ne.symm hn.1, a, b, rfl, hn.2, hk⟩

theorem lits (w : List Char) (r : List Tok) : ∀ s, matchHere (w.map .lit ++ r) s = true ↔ ∃ b, s = w ++ b ∧ matchHere r b = true := by
  induction w with
  | nil => intro s; simp
  | cons c w ih =>
    intro s
    cases s with
    | nil => simp [matchHere]
    | cons d s =>
      simp only [List.map_cons, List.cons_append, matchHere, Bool.and_eq_true, beq_iff_eq, ih, List.cons.injEq]
      constructor
      · rintro ⟨rfl, b, rfl, h⟩; exact ⟨b, ⟨rfl, rfl⟩, h⟩
      · rintro ⟨b, ⟨rfl, rfl⟩, h⟩; exact ⟨rfl, b, rfl, h⟩

theorem parse_lits : ∀ w : List Char, '.' ∉ w → parse w = w.map .lit := by
  intro w
  induction w with
  | nil => intro _; rfl
  | cons c w ih =>
    intro h
    simp only [List.mem_cons, not_or] at h
    have hc : c ≠ '.' := Ne.symm h.1
    rw [List.map_cons, ← ih h.2]
    exact parse.eq_3 c w (fun _ e _ => absurd e hc) (fun e => absurd e hc)

/-- **C119.** By default exactly the gradients are scaled whose path contains `expert`. -/
theorem C119_default (n : Key) (hn : '\n' ∉ n) : defaultMatch n = true ↔ ∃ a b, n = a ++ "expert".toList ++ b := by
  have hp : parse ".*expert.*".toList = .dotStar :: ("expert".toList.map .lit ++ [.dotStar]) := by rfl
  have h : defaultMatch n = star (matchHere ("expert".toList.map .lit ++ [.dotStar])) n := by
    show matchHere (parse ".*expert.*".toList) n = _
    rw [hp]
    rfl
  rw [h, star_iff]
  constructor
  · rintro ⟨a, b, rfl, -, hb⟩
    obtain ⟨b', rfl, -⟩ := (lits _ _ _).1 hb
    exact ⟨a, b', by rw [List.append_assoc]⟩
  · rintro ⟨a, b, rfl⟩
    refine ⟨a, "expert".toList ++ b, by rw [List.append_assoc], fun h => hn (by simp [h]), (lits _ _ _).2 ⟨b, rfl, ?_⟩⟩
    exact (star_iff _ _).2 ⟨[], b, rfl, by simp, rfl⟩

/-- **C119.** `match_fn` with a prefix that has no special characters matches the paths that begin with it. -/
theorem C119_prefix (p : Key) (hp : p ≠ []) (hd : '.' ∉ p) (n : Key) : matchFn reMatch (some p) n = true ↔ ∃ b, n = p ++ b := by
  obtain ⟨c, p, rfl⟩ := List.exists_cons_of_ne_nil hp
  show matchHere (parse (c :: p)) n = true ↔ _
  rw [parse_lits _ hd]
  have := lits (c :: p) [] n
  rw [List.append_nil] at this
  rw [this]
  simp [matchHere]

theorem parse_dots : ∀ w : List Char, '*' ∉ w → parse w = w.map fun c => if c = '.' then .dot else .lit c := by
  intro w
  induction w with
  | nil => intro _; rfl
  | cons c w ih =>
    intro h
    rw [List.mem_cons, not_or] at h
    rw [List.map_cons, ← ih h.2]
    by_cases hc : c = '.'
    · subst hc
      rw [if_pos rfl]
      exact parse.eq_2 w (fun r e => h.2 (by rw [e]; exact List.mem_cons_self))
    · rw [if_neg hc]
      exact parse.eq_3 c w (fun _ e _ => absurd e hc) (fun e => absurd e hc)

/-- **C119.** A pattern of characters and dots matches the names that begin with these characters, and with any character other than a line end for each dot. -/
theorem C119_dots (p : Key) (hp : p ≠ []) (hd : '*' ∉ p) (n : Key) : matchFn reMatch (some p) n = true ↔
    ∃ a b, n = a ++ b ∧ List.Forall₂ (fun q c => if q = '.' then c ≠ '\n' else c = q) p a := by
  obtain ⟨c, p, rfl⟩ := List.exists_cons_of_ne_nil hp
  show matchHere (parse (c :: p)) n = true ↔ _
  rw [parse_dots _ hd]
  clear hp hd
  generalize c :: p = q
  induction q generalizing n with
  | nil => simp [matchHere]
  | cons q qs ih =>
    cases n with
    | nil =>
      constructor
      · intro h
        by_cases hq : q = '.' <;> simp [hq, matchHere] at h
      · rintro ⟨a, b, h, hf⟩
        cases hf
        simp at h
    | cons d s =>
      have hm : matchHere ((q :: qs).map fun c => if c = '.' then Tok.dot else .lit c) (d :: s) = true ↔
          (if q = '.' then d ≠ '\n' else d = q) ∧ matchHere (qs.map fun c => if c = '.' then Tok.dot else .lit c) s = true := by
        by_cases hq : q = '.' <;> simp [hq, matchHere]
      rw [hm, ih s]
      constructor
      · rintro ⟨h1, a, b, rfl, hf⟩
        exact ⟨d :: a, b, rfl, .cons h1 hf⟩
      · rintro ⟨a, b, h, hf⟩
        cases hf with
        | cons h1 hf =>
          rw [List.cons_append, List.cons.injEq] at h
          obtain ⟨rfl, rfl⟩ := h
          exact ⟨h1, _, b, rfl, hf⟩

example : matchFn reMatch (some "layer./mlp".toList) "layer7/mlp/wi".toList = true ∧
    matchFn reMatch (some "layer./mlp".toList) "layer/mlp".toList = false := by decide

/-! ### Trees -/

theorem mapF_toList {β γ : Type} (f : β → γ) : ∀ cs : PForest β, (mapF f cs).toList = cs.toList.map fun kt => (kt.1, mapT f kt.2)
  | .nil => rfl
  | .cons k t r => by simp [mapF, PForest.toList, mapF_toList f r]

theorem good_mapT {β γ : Type} (f : β → γ) (t : PTree β) : Good t → Good (mapT f t) := by
  induction t using PTree.induct' with
  | leaf v => intro _; simp [mapT, Good]
  | node dc cs ih =>
    intro h
    rw [mapT, Good, goodF_iff, mapF_toList]
    rw [Good, goodF_iff] at h
    refine ⟨by rw [List.map_map]; exact h.1, fun kt hkt => ?_⟩
    obtain ⟨kt', hm, rfl⟩ := List.mem_map.1 hkt
    exact ⟨(h.2 kt' hm).1, ih kt' hm (h.2 kt' hm).2⟩

theorem flatten_mapT {β γ : Type} (f : β → γ) (t : PTree β) : flatten (mapT f t) = (flatten t).map f := by
  induction t using PTree.induct' with
  | leaf v => rfl
  | node dc cs ih =>
    rw [mapT, flatten_node, flatten_node, mapF_toList, jaxOrder_map dc (mapT f), List.flatMap_map, List.map_flatMap]
    refine List.flatMap_congr fun kt hkt => ?_
    exact ih kt ((jaxOrder_perm dc _).mem_iff.1 hkt)

theorem unflatten_mapT {β γ δ : Type} (f : β → γ) (t : PTree β) : ∀ vs : List δ, unflatten (mapT f t) vs = unflatten t vs := by
  induction t using PTree.induct' with
  | leaf v => intro vs; rfl
  | node dc cs ih =>
    intro vs
    rw [mapT, unflatten_node, unflatten_node, mapF_toList, jaxOrder_map dc (mapT f), List.map_map]
    congr 2
    refine List.map_congr_left fun kt hkt => ?_
    have := ih kt ((jaxOrder_perm dc _).mem_iff.1 hkt)
    simp only [Function.comp_apply, flatten_mapT, List.length_map]
    rw [funext this]

theorem find_key {X : Type} : ∀ {L : List (Key × X)}, (L.map Prod.fst).Nodup → ∀ kt ∈ L, L.find? (fun x => x.1 == kt.1) = some kt := by
  intro L
  induction L with
  | nil => intro _ kt h; cases h
  | cons a L ih =>
    intro hn kt h
    rw [List.map_cons, List.nodup_cons] at hn
    rw [List.find?_cons]
    rcases List.mem_cons.1 h with rfl | h
    · simp
    · have : (a.1 == kt.1) = false := by
        rw [beq_eq_false_iff_ne]
        intro e
        exact hn.1 (e ▸ List.mem_map.2 ⟨kt, h, rfl⟩)
      rw [this]
      exact ih hn.2 kt h

theorem path_of_leaf {β : Type} (t : PTree β) : Good t → ∀ v ∈ flatten t, ∃ path, look t path = some (.leaf v) := by
  induction t using PTree.induct' with
  | leaf v =>
    intro _ w hw
    simp only [flatten, List.mem_singleton] at hw
    exact ⟨[], by rw [hw]; rfl⟩
  | node dc cs ih =>
    intro h v hv
    rw [Good, goodF_iff] at h
    rw [flatten_node] at hv
    obtain ⟨kt, hkt, hv⟩ := List.mem_flatMap.1 hv
    have hm := (jaxOrder_perm dc _).mem_iff.1 hkt
    obtain ⟨path, hp⟩ := ih kt hm (h.2 kt hm).2 v hv
    refine ⟨kt.1 :: path, ?_⟩
    rw [look, lookF_eq, find_key h.1 kt hm]
    exact hp

/-- The names of the leaves do not depend on the values. -/
theorem names {N : Nat} (hN : 0 < N) (I : PTree (Fin N)) (hI : Numbered I) : ∃ nm : Fin N → Key,
    (∀ path i, look I path = some (.leaf i) → nm i = name path) ∧
    ∀ {A : Type} [AddCommMonoid A] (m : Key → Bool) (k : Nat) (g : Fin N → A), ∃ r, scaleShardedGrads (mapT g I) (some m) (fun v => k • v) = .ok r ∧
      (fun i : Fin N => (flatten r).getD i 0) = fun i => if m (nm i) then k • g i else g i := by
  have hpath : ∀ i : Fin N, ∃ path, look I path = some (.leaf i) := fun i => path_of_leaf I hI.good i (by rw [hI.leaves]; exact List.mem_finRange i)
  choose pth hpth using hpath
  have hfl : ∀ {X : Type} (f : Fin N → X), flatten (mapT f I) = List.ofFn f := by
    intro X f
    rw [flatten_mapT, hI.leaves, List.ofFn_eq_map]
  have hrange : flatten (mapT Fin.val I) = List.range N := by
    rw [flatten_mapT, hI.leaves]
    exact List.ext_getElem (by simp) (by simp)
  obtain ⟨c, hc, hv⟩ := unflatten_self (mapT Fin.val I) (good_mapT _ I hI.good)
  rw [hrange, unflatten_mapT] at hc
  have hlook : ∀ path i, look I path = some (.leaf i) → look c path = some (.leaf i.val) := by
    intro path i h
    have := hv path
    rw [look_map, h] at this
    cases e : look c path with
    | none => rw [e] at this; cases this
    | some s =>
      rw [e] at this
      cases s with
      | leaf j =>
        simp only [Option.map_some, view, mapT, Option.some.injEq, View.leaf.injEq] at this
        rw [this]
      | node dc cs => simp [view, mapT] at this
  have huniq : ∀ {X : Type} [AddCommMonoid X] (g : Fin N → X), ∃ Nt : Nat → Key, (∀ path i, look I path = some (.leaf i) → Nt i.val = name path) ∧
      flattenWithNames (mapT g I) = .ok (List.zipWith (fun j v => (Nt j, v)) (List.range N) (List.ofFn g)) := by
    intro X _ g
    have hlen : (flatten (mapT g I)).length = N := by rw [hfl, List.length_ofFn]
    obtain ⟨tok, Nt, h1, h2, h3⟩ := flattenWithNames_ok (good_mapT g I hI.good) (by
      intro e
      rw [e] at hlen
      simp at hlen
      omega)
    rw [hlen, unflatten_mapT, hc] at h1
    cases h1
    rw [hlen, hfl] at h3
    exact ⟨Nt, fun path i h => h2 path i.val (good_path I hI.good path _ h) (hlook path i h), h3⟩
  refine ⟨fun i => name (pth i), fun path i h => ?_, fun m k g => ?_⟩
  · obtain ⟨Nt, h1, -⟩ := huniq (X := Nat) fun _ => 0
    beta_reduce
    rw [← h1 _ i (hpth i), h1 path i h]
  · obtain ⟨Nt, h1, h2⟩ := huniq g
    obtain ⟨r, hr, hf⟩ := unflatten_flatten (mapT g I)
      ((List.zipWith (fun j v => (Nt j, v)) (List.range N) (List.ofFn g)).map fun p => if m p.1 then k • p.2 else p.2) (by rw [hfl]; simp)
    refine ⟨r, ?_, ?_⟩
    · simp only [scaleShardedGrads, h2, hr]
    · funext i
      rw [hf, List.getD_eq_getElem?_getD, List.getElem?_eq_getElem (by simp)]
      simp [h1 _ i (hpth i)]

/-! ### Steps -/

section
variable {K P O Mu R Row A : Type} {N : Nat} [Field K] [AddCommMonoid A]

/-- The loss with gradients changed by `S`. -/
def scaledLoss {G : Type} (S : G → G) (f : Train.LossGrad K P G Mu R Row) : Train.LossGrad K P G Mu R Row :=
  fun p b r mu => ((f p b r mu).1, (f p b r mu).2.1, S (f p b r mu).2.2)

theorem microLoop_scaled {G : Type} [AddMonoid G] (S : G →+ G) (split : R → R × R) (f : Train.LossGrad K P G Mu R Row) (p : P) (b : Train.Batch Row) (size : Nat) :
    ∀ (n i : Nat) (rng : R) (a : Train.Accum K G Mu), Train.microLoop split (scaledLoss S f) p b size n i rng { a with grad := S a.grad } =
      (Train.microLoop split f p b size n i rng a).map fun a => { a with grad := S a.grad } := by
  intro n
  induction n with
  | zero => intro i rng a; rfl
  | succ n ih =>
    intro i rng a
    simp only [Train.microLoop]
    have hs : Train.microStep split (scaledLoss S f) p b size rng i { a with grad := S a.grad } =
        (Train.microStep split f p b size rng i a).map fun x => (x.1, { x.2 with grad := S x.2.grad }) := by
      unfold Train.microStep scaledLoss
      cases Train.getMicrobatch size i b with
      | error e => rfl
      | ok mb =>
        dsimp only
        split_ifs
        · simp only [Except.map, map_add]
        · cases Metrics.mergeDict a.metrics (f p mb (split rng).2 a.mutables).1 with
          | error e => rfl
          | ok m => simp only [Except.map, map_add]
    rw [hs]
    cases Train.microStep split f p b size rng i a with
    | error e => rfl
    | ok x => exact ih (i + 1) x.1 x.2

theorem accumulate_scaled {G : Type} [AddMonoid G] (S : G →+ G) (split : R → R × R) (f : Train.LossGrad K P G Mu R Row) (p : P) (mu : Option Mu)
    (b : Train.Batch Row) (rng : R) (n : Option Nat) : Train.accumulate split (scaledLoss S f) p mu b rng n =
      (Train.accumulate split f p mu b rng n).map fun a => { a with grad := S a.grad } := by
  cases b with
  | nil => rfl
  | cons e b =>
    cases n with
    | none => rfl
    | some n =>
      simp only [Train.accumulate]
      split_ifs
      · rfl
      · rfl
      · rw [← microLoop_scaled S, map_zero]

/-- **C119.** A step of the trainer for mixtures of experts is a step of the regular trainer in which the gradients of matching parameters, of each microbatch,
are multiplied by the number of expert partitions. -/
theorem C119_step (I : PTree (Fin N)) (hI : Numbered I) (hN : 0 < N) (m : Key → Bool) (k : Nat) :
    ∃ S : (Fin N → A) → Fin N → A, (∀ g, Scaled I m k g (S g)) ∧ (∀ i, ∃ path, look I path = some (.leaf i)) ∧
      ∀ (c : Train.Cfg K P (Fin N → A) O Mu R Row) (s : Train.State P O Mu) (b : Train.Batch Row),
        moeStep I (some m) k c s b = (Train.trainStep { c with lossGrad := scaledLoss S c.lossGrad } s b).mapError .train := by
  obtain ⟨nm, h1, h2⟩ := names hN I hI
  refine ⟨fun g i => if m (nm i) then k • g i else g i, fun g path i h => by dsimp only; rw [h1 path i h],
    fun i => path_of_leaf I hI.good i (by rw [hI.leaves]; exact List.mem_finRange i), fun c s b => ?_⟩
  let S : (Fin N → A) →+ (Fin N → A) :=
    { toFun := fun g i => if m (nm i) then k • g i else g i
      map_zero' := by funext i; simp
      map_add' := fun g g' => by
        funext i
        simp only [Pi.add_apply]
        split_ifs
        · exact nsmul_add ..
        · rfl }
  have hS := accumulate_scaled S c.split c.lossGrad s.params s.mutables b (c.foldIn c.baseRng s.step) c.microbatches
  have e : (fun (g : Fin N → A) i => if m (nm i) then k • g i else g i) = S := rfl
  unfold moeStep Train.trainStep
  dsimp only
  rw [e, hS]
  cases Train.accumulate c.split c.lossGrad s.params s.mutables b (c.foldIn c.baseRng s.step) c.microbatches with
  | error e => rfl
  | ok a =>
    obtain ⟨r, hr, hf⟩ := h2 m k a.grad
    simp only [Except.map, hr, hf]
    rfl

theorem run_mapError {S B M E E' : Type} (f : E → E') (step : S → B → Except E (S × M)) (step' : S → B → Except E' (S × M))
    (h : ∀ s b, step' s b = (step s b).mapError f) : ∀ (bs : List B) (s : S), run step' s bs = (run step s bs).mapError f := by
  intro bs
  induction bs with
  | nil => intro s; rfl
  | cons b bs ih =>
    intro s
    simp only [run, h s b]
    cases step s b with
    | error e => rfl
    | ok x =>
      simp only [Except.mapError, ih x.1]
      cases run step x.1 bs with
      | error e => rfl
      | ok y => rfl

/-- **C119.** So is every training, with the metrics of all steps. -/
theorem C119_train (I : PTree (Fin N)) (hI : Numbered I) (hN : 0 < N) (m : Key → Bool) (k : Nat) :
    ∃ S : (Fin N → A) → Fin N → A, (∀ g, Scaled I m k g (S g)) ∧ (∀ i, ∃ path, look I path = some (.leaf i)) ∧
      ∀ (c : Train.Cfg K P (Fin N → A) O Mu R Row) (s : Train.State P O Mu) (bs : List (Train.Batch Row)),
        run (moeStep I (some m) k c) s bs = (run (Train.trainStep { c with lossGrad := scaledLoss S c.lossGrad }) s bs).mapError .train := by
  obtain ⟨S, h1, h2, h3⟩ := C119_step (K := K) (P := P) (O := O) (Mu := Mu) (R := R) (Row := Row) (A := A) I hI hN m k
  exact ⟨S, h1, h2, fun c s bs => run_mapError _ _ _ (h3 c) bs s⟩

/-- **C119.** Without a match function, with one expert partition, and for models without matching parameters it is the regular trainer. -/
theorem C119_same (I : PTree (Fin N)) (hI : Numbered I) (m : Option (Key → Bool)) (k : Nat)
    (h : m = none ∨ 0 < N ∧ (k = 1 ∨ ∀ f path i, m = some f → look I path = some (.leaf i) → f (name path) = false))
    (c : Train.Cfg K P (Fin N → A) O Mu R Row) (s : Train.State P O Mu) (bs : List (Train.Batch Row)) :
    run (moeStep I m k c) s bs = (run (Train.trainStep c) s bs).mapError .train := by
  refine run_mapError _ _ _ (fun s b => ?_) bs s
  cases m with
  | none =>
    unfold moeStep Train.trainStep
    dsimp only
    cases Train.accumulate c.split c.lossGrad s.params s.mutables b (c.foldIn c.baseRng s.step) c.microbatches with
    | error e => rfl
    | ok a =>
      have : (fun i : Fin N => (flatten (mapT a.grad I)).getD i 0) = a.grad := by
        funext i
        rw [flatten_mapT, hI.leaves, List.getD_eq_getElem?_getD, List.getElem?_eq_getElem (by simp)]
        simp
      simp only [scaleShardedGrads, this]
      rfl
  | some f =>
    obtain ⟨hN, h⟩ := h.resolve_left (by simp)
    obtain ⟨S, h1, h2, h3⟩ := C119_step (K := K) (P := P) (O := O) (Mu := Mu) (R := R) (Row := Row) (A := A) I hI hN f k
    have : ∀ g, S g = g := by
      intro g
      funext i
      obtain ⟨path, hp⟩ := h2 i
      rw [h1 g path i hp]
      rcases h with rfl | h
      · simp
      · simp [h f path i rfl hp]
    rw [h3 c s b]
    have e : scaledLoss S c.lossGrad = c.lossGrad := by
      funext p b r mu
      simp only [scaledLoss, this]
    rw [e]

/-- **C119.** Training a model without parameters with a match function fails, though the regular trainer does not. -/
theorem C119_no_parameters (I : PTree (Fin N)) (h : flatten I = []) (m : Key → Bool) (k : Nat) (c : Train.Cfg K P (Fin N → A) O Mu R Row)
    (s : Train.State P O Mu) (b : Train.Batch Row) (hc : c.microbatches = none) (hb : b ≠ []) :
    (∃ x, Train.trainStep c s b = .ok x) ∧ ∃ e, moeStep I (some m) k c s b = .error (.tree e) := by
  obtain ⟨e, b, rfl⟩ := List.exists_cons_of_ne_nil hb
  have : ∀ g : Fin N → A, flatten (mapT g I) = [] := fun g => by rw [flatten_mapT, h]; rfl
  refine ⟨?_, NamedTree.Err.unpack, ?_⟩
  · unfold Train.trainStep
    simp only [hc, Train.accumulate]
    exact ⟨_, rfl⟩
  · unfold moeStep
    simp only [hc, Train.accumulate, (C50_no_leaves _ m _ (this _)).2]

end

section
variable {P O Mu R Row : Type}

/-! The hypotheses are met: a layer with experts and a router, in a dict. -/

def demoTree : PTree (Fin 3) :=
  .node false (.cons "router".toList (.node false (.cons "w".toList (.leaf 2) .nil))
    (.cons "expert".toList (.node false (.cons "wo".toList (.leaf 1) (.cons "wi".toList (.leaf 0) .nil))) .nil))

theorem demo_numbered : Numbered demoTree := ⟨by
  simp only [demoTree, Good, GoodF, GoodKey, keysF]
  decide, by
  decide +kernel⟩

/-- By default the gradients of the experts are multiplied, the one of the router is not. -/
example (c : Train.Cfg ℚ P (Fin 3 → ℚ) O Mu R Row) (s : Train.State P O Mu) (bs : List (Train.Batch Row)) :
    run (moeStep demoTree (some defaultMatch) 8 c) s bs =
      (run (Train.trainStep { c with lossGrad := scaledLoss (fun g => ![8 * g 0, 8 * g 1, g 2]) c.lossGrad }) s bs).mapError .train := by
  obtain ⟨S, h1, -, h3⟩ := C119_train (K := ℚ) (P := P) (O := O) (Mu := Mu) (R := R) (Row := Row) (A := ℚ) demoTree demo_numbered (by decide) defaultMatch 8
  have : S = fun g => ![8 * g 0, 8 * g 1, g 2] := by
    funext g i
    have e0 := h1 g ["expert".toList, "wi".toList] 0 rfl
    have e1 := h1 g ["expert".toList, "wo".toList] 1 rfl
    have e2 := h1 g ["router".toList, "w".toList] 2 rfl
    rw [if_pos (by decide +kernel)] at e0 e1
    rw [if_neg (by decide +kernel)] at e2
    fin_cases i
    · simpa using e0
    · simpa using e1
    · simpa using e2
  rw [h3, this]

end

/-! ### What the factor does with Adafactor -/

section Adafactor
open Verif.ND Verif.Adafactor Verif.Adafactor.Spec Verif.AdafactorNum Verif.AdafactorNum.Spec

/-- A step with a gradient `k` times as large, and with `epsilon1` multiplied by the square of `k`. -/
noncomputable def larger (k : ℝ) (x : HP ℝ × NDArray ℝ) : HP ℝ × NDArray ℝ := ({ x.1 with eps1 := k ^ 2 * x.1.eps1 }, ⟨x.2.shape, fun i => k * x.2.get i⟩)

theorem estimate_smul (s : List Nat) (d : Dims) (k : ℝ) (hk : 0 < k) (V : List Nat → ℝ) (i : List Nat) :
    estimate s d (fun j => k ^ 2 * V j) i = k ^ 2 * estimate s d V i := by
  have hk2 : k ^ 2 ≠ 0 := by positivity
  cases d with
  | dims d1 d0 =>
    have h : mean s d1 (mean s d0 fun j => k ^ 2 * V j) i = k ^ 2 * mean s d1 (mean s d0 V) i := by
      rw [mean_congr (g := fun j => k ^ 2 * mean s d0 V j) fun j _ => mean_smul .., mean_smul]
    simp only [estimate]
    rw [mean_smul, mean_smul, h, mul_assoc, mul_div_mul_left _ _ hk2, mul_left_comm, mul_div_assoc]
  | unfactored => rfl
  | heuristic => rfl

/-- **C119.** With Adafactor the factor has no influence but that `epsilon1` counts less: a parameter whose gradients are all `k` times as large, with `k * k`
times the `epsilon1`, has the same values after any number of steps. -/
theorem C119_adafactor (D : Def) (path : List Char) (momentum : Bool) (init : PState ℝ) (s avg : List Nat) (d : Dims)
    (hs : ∀ l, (D.argsort l).Perm (List.range l.length)) (hd : dimsFor D path s = .ok (avg, d)) (hi : initParam realOps D momentum path s = .ok init)
    (k : ℝ) (hk : 0 < k) (l : List (HP ℝ × NDArray ℝ)) (step : Int)
    (hl : ∀ x ∈ l, x.1.learningRate.isSome = true ∧ x.1.beta1.isSome = momentum ∧ x.2.shape = s ∧ 0 < x.1.decayRate ∧ 0 < x.1.eps1 ∧ x.1.stepOffset ≤ step)
    (p : NDArray ℝ) (hp : p.shape = s) :
    ∃ x x', Adafactor.run realOps D path step l (p, init) = .ok x ∧ Adafactor.run realOps D path step (l.map (larger k)) (p, init) = .ok x' ∧
      x.1.shape = s ∧ x'.1.shape = s ∧ ∀ i, InBox s i → x'.1.get i = x.1.get i := by
  have main : ∀ (l : List (HP ℝ × NDArray ℝ)) (step : Int) (p p' : NDArray ℝ) (st st' : PState ℝ) (V : List Nat → ℝ),
      (∀ x ∈ l, x.1.learningRate.isSome = true ∧ x.1.beta1.isSome = momentum ∧ x.2.shape = s ∧ 0 < x.1.decayRate ∧ 0 < x.1.eps1 ∧ x.1.stepOffset ≤ step) →
      p.shape = s → p'.shape = s → (∀ i, InBox s i → p'.get i = p.get i) → ShapesOf st init → ShapesOf st' init →
      (momentum = true → ∀ i, InBox s i → st'.m.get i = st.m.get i) → Holds s d st V → Holds s d st' (fun i => k ^ 2 * V i) → (∀ i, 0 ≤ V i) →
      ∃ x x', Adafactor.run realOps D path step l (p, st) = .ok x ∧ Adafactor.run realOps D path step (l.map (larger k)) (p', st') = .ok x' ∧
        x.1.shape = s ∧ x'.1.shape = s ∧ ∀ i, InBox s i → x'.1.get i = x.1.get i := by
    intro l
    induction l with
    | nil => intro step p p' st st' V _ h1 h2 h3 _ _ _ _ _ _; exact ⟨_, _, rfl, rfl, h1, h2, h3⟩
    | cons a l ih =>
      obtain ⟨H, g⟩ := a
      intro step p p' st st' V hl h1 h2 h3 h4 h5 h6 h7 h8 h9
      obtain ⟨q1, q2, q3, q4, q5, q6⟩ := hl (H, g) (by simp)
      dsimp only at q1 q2 q3 q4 q5 q6
      obtain ⟨lr, hlr⟩ := Option.isSome_iff_exists.1 q1
      have hk2 : 0 < k ^ 2 := by positivity
      obtain ⟨x, u, e1, e2, e3, e4, e5, e6⟩ := C91_step D H step path p g st init lr avg d hs (by rw [h1]; exact hd) hlr (by rw [q3, h1]) (by rw [h1, q2]; exact hi) h4 V
        (by rw [h1]; exact h7) (fun i _ => h9 i) q4 q5 q6
      obtain ⟨x', u', f1, f2, f3, f4, f5, f6⟩ := C91_step D (larger k (H, g)).1 step path p' (larger k (H, g)).2 st' init lr avg d hs (by rw [h2]; exact hd) hlr
        (by rw [h2]; exact q3) (by rw [h2]; simp only [larger, q2]; exact hi) h5 (fun i => k ^ 2 * V i)
        (by rw [h2]; exact h8) (fun i _ => mul_nonneg hk2.le (h9 i)) q4 (mul_pos hk2 q5) q6
      obtain ⟨r1, r2, r3⟩ := holds_step D H step path p g st init avg d x hs (by rw [h1]; exact hd) (by rw [q3, h1]) (by rw [h1, q2]; exact hi) h4 V
        (by rw [h1]; exact h7) e1
      obtain ⟨t1, t2, t3⟩ := holds_step D (larger k (H, g)).1 step path p' (larger k (H, g)).2 st' init avg d x' hs (by rw [h2]; exact hd)
        (by rw [h2]; exact q3) (by rw [h2]; simp only [larger, q2]; exact hi) h5 (fun i => k ^ 2 * V i) (by rw [h2]; exact h8) f1
      rw [h1] at e2 e3 e4 e5 e6 r1 r3
      rw [h2] at f2 f3 f4 f5 f6 t1 t3
      have hmom : moment (larger k (H, g)).1 step (fun i => k ^ 2 * V i) (larger k (H, g)).2.get = fun i => k ^ 2 * moment H step V g.get i := by
        funext i
        simp only [moment, larger, decayAt]
        ring
      have hy : ∀ j, (larger k (H, g)).2.get j / √(estimate s d (moment (larger k (H, g)).1 step (fun i => k ^ 2 * V i) (larger k (H, g)).2.get) j) =
          g.get j / √(estimate s d (moment H step V g.get) j) := by
        intro j
        rw [hmom, estimate_smul s d k hk, Real.sqrt_mul hk2.le, Real.sqrt_sq hk.le]
        exact mul_div_mul_left _ _ hk.ne'
      have hu : ∀ i, InBox s i → u' i = u i := by
        intro i hb
        rw [e3 i hb, f3 i hb]
        unfold step1 size
        simp only [hy]
        rw [rms_congr h3]
        rfl
      have hpar : ∀ i, InBox s i → x'.1.get i = x.1.get i ∧ (momentum = true → x'.2.m.get i = x.2.m.get i) := by
        intro i hb
        cases hb1 : H.beta1 with
        | none =>
          refine ⟨?_, fun h => ?_⟩
          · rw [e5 hb1 i hb, f5 hb1 i hb, hu i hb, h3 i hb]
            rfl
          · rw [← q2, hb1] at h; cases h
        | some b =>
          have hm : momentum = true := by rw [← q2, hb1]; rfl
          obtain ⟨a1, a2⟩ := e6 b hb1 i hb
          obtain ⟨b1, b2⟩ := f6 b hb1 i hb
          have hmm : x'.2.m.get i = x.2.m.get i := by rw [a1, b1, hu i hb, h6 hm i hb]
          refine ⟨?_, fun _ => hmm⟩
          rw [a2, b2, hmm, h3 i hb]
          rfl
      have hnext := ih (step + 1) x.1 x'.1 x.2 x'.2 (moment H step V g.get) (fun y hy' => by
          obtain ⟨w1, w2, w3, w4, w5, w6⟩ := hl y (by simp [hy'])
          exact ⟨w1, w2, w3, w4, w5, by omega⟩) r1 t1 (fun i hb => (hpar i hb).1) r2 t2 (fun hm i hb => (hpar i hb).2 hm) r3
        (by rw [← hmom]; exact t3) (fun i => (moment_pos H q4 q5 step q6 V g.get i (h9 i)).le)
      simp only [List.map_cons]
      obtain ⟨y, y', g1, g2, g3⟩ := hnext
      refine ⟨y, y', ?_, ?_, g3⟩
      · simp only [Adafactor.run, e1]
        exact g1
      · have : larger k (H, g) = ((larger k (H, g)).1, (larger k (H, g)).2) := rfl
        rw [this]
        simp only [Adafactor.run, f1]
        exact g2
  have h0 : Holds s d init (fun _ => 0) := C91_accumulators D path momentum init s avg d hs hd hi [] (by simp) step p hp (p, init) rfl
  exact main l step p p init init (fun _ => 0) hl hp hp (fun _ _ => rfl) ⟨rfl, rfl, rfl, rfl⟩ ⟨rfl, rfl, rfl, rfl⟩ (fun _ _ _ => rfl) h0 (by simpa using h0) fun _ => le_rfl

/-- The hypotheses are met by a factored matrix, for two steps with gradients of 8 expert partitions. -/
example (p g g' : NDArray ℝ) (hp : p.shape = [2, 3]) (hg : g.shape = [2, 3]) (hg' : g'.shape = [2, 3]) :
    ∃ init x x', initParam realOps D0 false [] [2, 3] = .ok init ∧ Adafactor.run realOps D0 [] 0 [(H0, g), (H0, g')] (p, init) = .ok x ∧
      Adafactor.run realOps D0 [] 0 [larger 8 (H0, g), larger 8 (H0, g')] (p, init) = .ok x' ∧ ∀ i, InBox [2, 3] i → x'.1.get i = x.1.get i := by
  have hd : dimsFor D0 [] [2, 3] = .ok ([0, 1], .dims [0] [1]) := by decide
  have hi : ∃ init, initParam realOps D0 false [] [2, 3] = .ok init := by unfold initParam; rw [hd]; exact ⟨_, rfl⟩
  obtain ⟨init, hi⟩ := hi
  obtain ⟨x, x', h1, h2, _, _, h3⟩ := C119_adafactor D0 [] false init [2, 3] _ _ (fun l => List.Perm.refl _) hd hi 8 (by norm_num) [(H0, g), (H0, g')] 0
    (by
      intro x hx
      have : x.1 = H0 ∧ x.2.shape = [2, 3] := by
        simp only [List.mem_cons, List.not_mem_nil, or_false] at hx
        rcases hx with rfl | rfl
        · exact ⟨rfl, hg⟩
        · exact ⟨rfl, hg'⟩
      rw [this.1]
      refine ⟨rfl, rfl, this.2, ?_, ?_, ?_⟩ <;> norm_num [H0]) p hp
  exact ⟨init, x, x', hi, h1, h2, h3⟩

end Adafactor

end Verif.MoeTrain
