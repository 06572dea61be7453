import Verif.Lemmas.ScanTrain
import Verif.Props.ScalableT5
import Verif.Props.AdafactorAxes
namespace Verif.ScanTrain
open Verif.ND Verif.Adafactor Verif.Adafactor.Spec Verif.AdafactorStack Verif.AdafactorStack.Spec
open Verif.AdafactorNum Verif.AdafactorNum.Spec
open Verif.StateDict Verif.StateDict.Spec Verif.OptaxState.Spec Verif.ApplyGrad Verif.ApplyGrad.Spec Spec
open Verif.InitT5 (Var Name layerName)

/-! ### How the optimizer treats corresponding parameters -/

theorem dims_layers {D D' : Def} {path path' : List Char} {m m' : List Char → Option Adafactor.Rule} {r : List FactorDim} {ax n k : Nat} {s : List Nat}
    (hs : ∀ l, (D.argsort l).Perm (List.range l.length))
    (hsort : ∀ l i j, i < j → j < (D.argsort l).length → l.getD ((D.argsort l).getD i 0) 0 ≤ l.getD ((D.argsort l).getD j 0) 0)
    (hf : D.factored = true) (hf' : D'.factored = true) (hm : D.factorMap = some m) (hm' : D'.factorMap = some m')
    (hr : m path = some (.dims r)) (hr' : m' path' = some (.dims (ins ax .batch r))) (hlen : r.length = s.length) (hb : FactorDim.batch ∉ r)
    (hax : ax ≤ s.length) (hk : k < n)
    (hc : 2 < s.length ∨ FactorDim.row ∉ r ∧ FactorDim.column ∉ r ∧ (s.length = 2 → ∃ x ∈ s, x < D.minDim)) :
    LinkDims D D' path path' s (ins ax n s) (ins ax k) := by
  have hax' : ax ≤ r.length := by omega
  have hlen' : (ins ax FactorDim.batch r).length = (ins ax n s).length := by rw [ins_length, ins_length, hlen]
  have hd' := dims_explicit D' path' (ins ax n s) _ m' hf' hm' hr' hlen' (.inl (batch_mem_ins hax'))
  have hnn : (ins ax n s).length = r.length + 1 := by rw [ins_length, hlen]
  have key : ∃ avg d, dimsFor D path s = .ok (avg, d) ∧ (∀ j, j ∈ avg ↔ j < r.length) ∧ LiftsD ax d
      (if FactorDim.row ∉ ins ax .batch r ∧ FactorDim.column ∉ ins ax .batch r then .unfactored
        else .dims (positions (ins ax .batch r) .row) (positions (ins ax .batch r) .column)) := by
    simp only [mem_ins_iff hax' (c := .row) (by decide), mem_ins_iff hax' (c := .column) (by decide)]
    by_cases h2 : 2 < s.length
    · refine ⟨_, _, dims_explicit D path s r m hf hm hr hlen (.inr h2), ?_, ?_⟩
      · intro j
        rw [mem_del_range, mem_positions, hlen]
        exact ⟨fun h => h.1, fun h => ⟨h, fun hx => hb (List.mem_of_getElem? hx)⟩⟩
      · split_ifs with h1
        · trivial
        · exact ⟨lifts_positions hax' (by decide), lifts_positions hax' (by decide)⟩
    · obtain ⟨h3, h4, h5⟩ := hc.resolve_left h2
      obtain ⟨d, e1, -, e3⟩ := (C48_dims D path s hs hsort hf).2 (by omega) (.inr ⟨m, r, hm, hr, hlen, hb⟩)
      refine ⟨_, d, e1, fun j => by rw [List.mem_range, hlen], ?_⟩
      have hu : d = .unfactored := by
        refine e3 ?_
        rintro ⟨k1, k2, k3⟩
        obtain ⟨x, hx, hlt⟩ := h5 k1
        obtain ⟨a, b, rfl⟩ := List.length_eq_two.mp k1
        simp only [List.getD_cons_zero, List.getD_cons_succ] at k2 k3
        simp only [List.mem_cons, List.not_mem_nil, or_false] at hx
        rcases hx with rfl | rfl <;> omega
      rw [if_pos ⟨h3, h4⟩, hu]
      trivial
  obtain ⟨avg, d, hd, havg, hl⟩ := key
  exact ⟨avg, _, d, _, hd, hd', emb_layers hk hax (lifts_avg hax' hb havg hnn) hl⟩

theorem dims_matrix {D D' : Def} {path path' : List Char} {mp mp' : List Char → Option Adafactor.Rule} {r : List FactorDim} {ax N k n m : Nat}
    (hs : ∀ l, (D.argsort l).Perm (List.range l.length))
    (hsort : ∀ l i j, i < j → j < (D.argsort l).length → l.getD ((D.argsort l).getD i 0) 0 ≤ l.getD ((D.argsort l).getD j 0) 0)
    (hf : D.factored = true) (hf' : D'.factored = true) (hm : D.factorMap = some mp) (hm' : D'.factorMap = some mp')
    (hr : mp path = some (.dims r)) (hr' : mp' path' = some (.dims (ins ax .batch r))) (hrr : r = [.row, .column] ∨ r = [.column, .row]) (hax : ax ≤ 2)
    (hn1 : D.minDim ≤ n) (hn2 : D.minDim ≤ m) (hk : k < N) : LinkDims D D' path path' [n, m] (ins ax N [n, m]) (ins ax k) := by
  have hlen : r.length = 2 := by rcases hrr with rfl | rfl <;> rfl
  have hb : FactorDim.batch ∉ r := by rcases hrr with rfl | rfl <;> decide
  have hrow : FactorDim.row ∈ r := by rcases hrr with rfl | rfl <;> decide
  have hax' : ax ≤ r.length := by omega
  have hd' := dims_explicit D' path' (ins ax N [n, m]) _ mp' hf' hm' hr' (by rw [ins_length, ins_length, hlen]; rfl) (.inl (batch_mem_ins hax'))
  rw [if_neg (fun h => h.1 ((mem_ins_iff hax' (by decide)).2 hrow))] at hd'
  obtain ⟨d, hd, e2, -⟩ := (C48_dims D path [n, m] hs hsort hf).2 (by simp) (.inr ⟨mp, r, hm, hr, by simpa using hlen, hb⟩)
  have ht : Two (positions r .row) (positions r .column) := by
    rcases hrr with rfl | rfl
    · exact .inl ⟨rfl, rfl⟩
    · exact .inr ⟨rfl, rfl⟩
  obtain ⟨e1, e0, rfl, he⟩ : ∃ e1 e0, d = .dims e1 e0 ∧ Two e1 e0 := by
    rcases e2 ⟨rfl, hn1, hn2⟩ with ⟨h, -⟩ | ⟨h, -⟩
    · exact ⟨_, _, h, .inl ⟨rfl, rfl⟩⟩
    · exact ⟨_, _, h, .inr ⟨rfl, rfl⟩⟩
  have hav : Lifts ax (List.range [n, m].length) (del (positions (ins ax .batch r) .batch) (List.range (ins ax N [n, m]).length)) :=
    lifts_avg hax' hb (fun j => by rw [List.mem_range, hlen]; rfl) (by rw [ins_length, hlen]; rfl)
  exact ⟨_, _, _, _, hd, hd', emb_matrix hk hax hav (lifts_positions hax' (c := .row) (by decide)) (lifts_positions hax' (c := .column) (by decide)) ht he⟩

theorem dims_plain {D D' : Def} {path : List Char} {m m' : List Char → Option Adafactor.Rule} {r : List FactorDim} {s : List Nat}
    (hs : ∀ l, (D.argsort l).Perm (List.range l.length))
    (hsort : ∀ l i j, i < j → j < (D.argsort l).length → l.getD ((D.argsort l).getD i 0) 0 ≤ l.getD ((D.argsort l).getD j 0) 0)
    (hf : D.factored = true) (hf' : D'.factored = true) (hm : D.factorMap = some m) (hm' : D'.factorMap = some m')
    (hr : m path = some (.dims r)) (hr' : m' path = some (.dims r)) (hlen : r.length = s.length) (hb : FactorDim.batch ∉ r) (h2 : s.length ≤ 2)
    (ha : D.argsort = D'.argsort) (hmin : D.minDim = D'.minDim) : LinkDims D D' path path s s id := by
  obtain ⟨d, e1, -⟩ := (C48_dims D path s hs hsort hf).2 h2 (.inr ⟨m, r, hm, hr, hlen, hb⟩)
  refine ⟨_, _, d, d, e1, ?_, emb_id s (List.range s.length) d⟩
  rw [← e1]
  have h1 : factorRule D path = factorRule D' path := by simp only [factorRule, hf, hf', if_true, hm, hm', hr, hr']
  have h3 : factoredDims D s = factoredDims D' s := by simp only [factoredDims, hf, hf', ha, hmin]
  simp only [dimsFor, h1, h3]

/-! ### The optimizers of the two networks -/

theorem factorMap_ok {lower : List Char → List Char} {rules : List (List Char × AdafactorAxes.FVal)} : ∀ (l : List (List Char × AdafactorAxes.Axes)),
    (∀ x ∈ l, ∃ r, AdafactorAxes.applyRulesTo lower rules x.2 = .ok r) → ∃ m, AdafactorAxes.factorMapOf lower rules l = .ok m ∧ (l ≠ [] → m ≠ [])
  | [], _ => ⟨[], rfl, fun h => absurd rfl h⟩
  | (p, a) :: rest, h => by
    obtain ⟨r, hr⟩ := h (p, a) (by simp)
    obtain ⟨m, hm, -⟩ := factorMap_ok rest fun x hx => h x (by simp [hx])
    dsimp only at hr
    exact ⟨(p, r) :: m, by simp only [AdafactorAxes.factorMapOf, hr, hm], fun _ => by simp⟩

theorem optimizer_ok {lower : List Char → List Char} (D0 : Def) {vars : List Var} (hne : vars ≠ []) (hn : (vars.map Var.path).Nodup)
    (hnm : ∀ v ∈ vars, Named v.path) (hr : ∀ v ∈ vars, ∃ r, AdafactorAxes.applyRulesTo lower AdafactorAxes.standardRules (v.axes.map some) = .ok r) :
    ∃ m, optimizer lower D0 vars = .ok { D0 with factorMap := some m } ∧ ∀ v ∈ vars, ∀ r,
      AdafactorAxes.applyRulesTo lower AdafactorAxes.standardRules (v.axes.map some) = .ok r → m (join v.path) = some (.dims r) := by
  obtain ⟨m, hm, hm0⟩ := factorMap_ok (lower := lower) (rules := AdafactorAxes.standardRules) (vars.map fun v => (join v.path, v.axes.map some)) (by
    intro x hx
    obtain ⟨v, hv, rfl⟩ := List.mem_map.1 hx
    exact hr v hv)
  have hm1 := hm0 (by simpa using hne)
  refine ⟨fun p => (m.find? (fun e => e.1 = p)).map fun e => Adafactor.Rule.dims e.2, ?_, ?_⟩
  · unfold optimizer AdafactorAxes.setParamAxes
    simp only [hm]
  · intro v hv r hvr
    have hnd : ((vars.map fun v => (join v.path, v.axes.map some)).map (·.1)).Nodup := by
      rw [List.map_map]
      have : ((·.1) ∘ fun v : Var => (join v.path, v.axes.map some)) = join ∘ Var.path := rfl
      rw [this, ← List.map_map]
      refine List.Nodup.map_on ?_ hn
      intro p hp q hq h
      obtain ⟨x, hx, rfl⟩ := List.mem_map.1 hp
      obtain ⟨y, hy, rfl⟩ := List.mem_map.1 hq
      exact join_inj _ _ (hnm x hx).1 (hnm y hy).1 (hnm x hx).2 (hnm y hy).2 h
    obtain ⟨r', h1, h2⟩ := AdafactorAxes.factorMap_get hm hnd (join v.path) (v.axes.map some) (List.mem_map.2 ⟨v, hv, rfl⟩)
    rw [hvr] at h1
    cases h1
    simp only [h2, Option.map_some]

theorem fits_named {vars : List Var} {P : Dict (NDArray ℝ)} (h : Fits vars P) : ∀ v ∈ vars, Named v.path := by
  intro v hv
  obtain ⟨a, ha, -⟩ := h.at_ hv
  exact MultiOpt.items_named P h.proper (v.path, a) ((MultiOpt.mem_items P h.proper _ _).2 ha)

/-! ### The links between the two networks -/

section
open Verif.InitScalable.Spec
variable (cfg : InitT5.Config) (ax : Nat)

def plainLink (v : Var) : Link := ⟨v.path, v.path, v.shape, v.shape, id⟩

def layerLink (name : Name) (n k : Nat) (v : Var) : Link := ⟨name :: layerName k :: v.path, name :: name :: v.path, v.shape, ins ax n v.shape, ins ax k⟩

def links : List Link :=
  [plainLink (embedding cfg)] ++ (List.range cfg.numEnc).flatMap (fun k => (encLayer cfg []).map (layerLink ax "encoder".toList cfg.numEnc k)) ++
    [plainLink (encNorm cfg)] ++ (List.range cfg.numDec).flatMap (fun k => (decLayer cfg []).map (layerLink ax "decoder".toList cfg.numDec k)) ++
    [plainLink (decNorm cfg)] ++ (head cfg).map plainLink

theorem mem_links (l : Link) : l ∈ links cfg ax ↔ (∃ v ∈ plain cfg, l = plainLink v) ∨
    (∃ k < cfg.numEnc, ∃ v ∈ encLayer cfg [], l = layerLink ax "encoder".toList cfg.numEnc k v) ∨
    ∃ k < cfg.numDec, ∃ v ∈ decLayer cfg [], l = layerLink ax "decoder".toList cfg.numDec k v := by
  have e1 : ∀ (n : Nat) (X : List Var) (name : Name), (l ∈ (List.range n).flatMap fun k => X.map (layerLink ax name n k)) ↔
      ∃ k < n, ∃ v ∈ X, l = layerLink ax name n k v := by
    intro n X name
    simp only [List.mem_flatMap, List.mem_range, List.mem_map]
    constructor
    · rintro ⟨k, hk, v, hv, rfl⟩; exact ⟨k, hk, v, hv, rfl⟩
    · rintro ⟨k, hk, v, hv, rfl⟩; exact ⟨k, hk, v, hv, rfl⟩
  simp only [links, List.mem_append, e1, List.mem_singleton, List.mem_map, plain, List.mem_cons, List.not_mem_nil, or_false]
  constructor
  · rintro (((((h | h) | h) | h) | h) | ⟨v, hv, rfl⟩)
    · exact .inl ⟨_, .inl (.inl rfl), h⟩
    · exact .inr (.inl h)
    · exact .inl ⟨_, .inl (.inr (.inl rfl)), h⟩
    · exact .inr (.inr h)
    · exact .inl ⟨_, .inl (.inr (.inr rfl)), h⟩
    · exact .inl ⟨v, .inr hv, rfl⟩
  · rintro (⟨v, (rfl | rfl | rfl) | hv, rfl⟩ | h | h)
    · exact .inl (.inl (.inl (.inl (.inl rfl))))
    · exact .inl (.inl (.inl (.inr rfl)))
    · exact .inl (.inr rfl)
    · exact .inr ⟨v, hv, rfl⟩
    · exact .inl (.inl (.inl (.inl (.inr h))))
    · exact .inl (.inl (.inr h))

theorem agree_same (W W' : Values) : Agree (links cfg ax) W W' ↔ Same cfg ax W W' := by
  constructor
  · intro h
    refine ⟨fun v hv i hi => ?_, fun k hk v hv i hi => ?_, fun k hk v hv i hi => ?_⟩
    · exact h (plainLink v) ((mem_links cfg ax _).2 (.inl ⟨v, hv, rfl⟩)) i hi
    · exact h (layerLink ax _ _ k v) ((mem_links cfg ax _).2 (.inr (.inl ⟨k, hk, v, hv, rfl⟩))) i hi
    · exact h (layerLink ax _ _ k v) ((mem_links cfg ax _).2 (.inr (.inr ⟨k, hk, v, hv, rfl⟩))) i hi
  · intro h l hl i hi
    rcases (mem_links cfg ax l).1 hl with ⟨v, hv, rfl⟩ | ⟨k, hk, v, hv, rfl⟩ | ⟨k, hk, v, hv, rfl⟩
    · exact h.plain v hv i hi
    · exact h.enc k hk v hv i hi
    · exact h.dec k hk v hv i hi

theorem sum_swap {α β : Type} (l : List α) (m : List β) (f : α → β → ℝ) :
    (l.map fun a => (m.map fun b => f a b).sum).sum = (m.map fun b => (l.map fun a => f a b).sum).sum := by
  induction l with
  | nil => simp
  | cons a l ih => simp only [List.map_cons, List.sum_cons, ih, List.sum_map_add]

/-- A sum over a stacked parameter is a sum over the layers. -/
theorem sum_ins (ax n : Nat) (s : List Nat) (F : List Nat → ℝ) : ((Adafactor.box (ins ax n s)).map F).sum =
    ((List.range n).map fun k => ((Adafactor.box s).map fun i => F (ins ax k i)).sum).sum := by
  induction ax generalizing s F with
  | zero =>
    simp only [AdafactorStack.Spec.ins, Adafactor.box]
    rw [sum_flatMap_map]
    simp only [List.map_map, Function.comp_def]
  | succ ax ih =>
    cases s with
    | nil =>
      simp only [AdafactorStack.Spec.ins, Adafactor.box]
      rw [sum_flatMap_map]
      simp [AdafactorStack.Spec.ins]
    | cons x s =>
      simp only [AdafactorStack.Spec.ins, Adafactor.box]
      rw [sum_flatMap_map]
      simp only [List.map_map, Function.comp_def, sum_flatMap_map]
      rw [sum_swap (List.range n) (List.range x)]
      congr 1
      refine List.map_congr_left fun y _ => ?_
      exact ih s fun i => F (y :: i)

/-- The paths of the parameters outside of the layers. -/
theorem plain_paths : ∀ v ∈ plain cfg, ∀ name : Name, (name = "encoder".toList ∨ name = "decoder".toList) → ∀ rest, v.path ≠ name :: name :: rest := by
  intro v hv name hn rest h
  have h1 := congrArg (fun l => l.take 2) h
  simp only [List.take_succ_cons, List.take_zero] at h1
  have hv' : v.path.take 2 ∈ [["token_embedder".toList, "embedding".toList], ["encoder".toList, "encoder_norm".toList], ["decoder".toList, "decoder_norm".toList],
      ["decoder".toList, "logits_dense".toList]] := by
    simp only [plain, List.mem_append, List.mem_cons, List.not_mem_nil, or_false] at hv
    rcases hv with (rfl | rfl | rfl) | hv
    · exact List.mem_cons.2 (.inl rfl)
    · exact List.mem_cons.2 (.inr (List.mem_cons.2 (.inl rfl)))
    · exact List.mem_cons.2 (.inr (List.mem_cons.2 (.inr (List.mem_cons.2 (.inl rfl)))))
    · unfold head at hv
      split_ifs at hv
      · cases hv
      · rw [List.mem_singleton.1 hv]
        exact List.mem_cons.2 (.inr (List.mem_cons.2 (.inr (List.mem_cons.2 (.inr (List.mem_cons.2 (.inl rfl)))))))
  rw [h1] at hv'
  rcases hn with rfl | rfl
  · revert hv'; decide
  · revert hv'; decide

theorem layerLink_inj (hax : ax ≤ 1) {name name' : Name} {n n' k k' : Nat} {v w : Var} {i j : List Nat}
    (h1 : 1 ≤ v.shape.length) (h2 : 1 ≤ w.shape.length) (hi : InBox v.shape i) (hj : InBox w.shape j)
    (hp : (layerLink ax name n k v).path' = (layerLink ax name' n' k' w).path') (he : (layerLink ax name n k v).e i = (layerLink ax name' n' k' w).e j) :
    (layerLink ax name n k v).path = (layerLink ax name' n' k' w).path ∧ i = j := by
  simp only [layerLink, List.cons.injEq] at hp he ⊢
  have li : ax ≤ i.length := by rw [List.Forall₂.length_eq hi]; omega
  have lj : ax ≤ j.length := by rw [List.Forall₂.length_eq hj]; omega
  have hk : k = k' := by
    have := congrArg (fun l => l[ax]?) he
    simpa [ins_at _ _ _ li, ins_at _ _ _ lj] using this
  have hij : i = j := by
    have := congrArg (fun l => l.eraseIdx ax) he
    simpa [ins_erase _ _ _ li, ins_erase _ _ _ lj] using this
  exact ⟨⟨hp.1, by rw [hk], hp.2.2⟩, hij⟩

theorem covers (hax : ax ≤ 1) (hE : 0 < cfg.numEnc) (hD : 0 < cfg.numDec) : Covers (separate cfg) (stacked cfg ax) (links cfg ax) := by
  have hb1 := fun scope => InitScalable.layer_below ⟨cfg, false, ax⟩ (L := encLayer cfg) (.inl rfl) scope
  have hb2 := fun scope => InitScalable.layer_below ⟨cfg, false, ax⟩ (L := decLayer cfg) (.inr rfl) scope
  have hs1 : ∀ v ∈ encLayer cfg [], 1 ≤ v.shape.length := fun v hv => (InitScalable.layer_shapes ⟨cfg, false, ax⟩ (L := encLayer cfg) (.inl rfl) [] v hv).1
  have hs2 : ∀ v ∈ decLayer cfg [], 1 ≤ v.shape.length := fun v hv => (InitScalable.layer_shapes ⟨cfg, false, ax⟩ (L := decLayer cfg) (.inr rfl) [] v hv).1
  have hst : ∀ v, v ∈ stacked cfg ax ↔ v ∈ plain cfg ∨
      (∃ w ∈ encLayer cfg [], v = stackOf ax cfg.numEnc (InitScalable.below ["encoder".toList, "encoder".toList] w)) ∨
      ∃ w ∈ decLayer cfg [], v = stackOf ax cfg.numDec (InitScalable.below ["decoder".toList, "decoder".toList] w) := by
    intro v
    simp only [stacked, hb1 ["encoder".toList, "encoder".toList], hb2 ["decoder".toList, "decoder".toList], List.map_map, List.mem_append, List.mem_map,
      Function.comp, plain, List.mem_cons, List.not_mem_nil, or_false]
    constructor
    · rintro (((((h | ⟨w, hw, rfl⟩) | h) | ⟨w, hw, rfl⟩) | h) | h)
      · exact .inl (.inl (.inl h))
      · exact .inr (.inl ⟨w, hw, rfl⟩)
      · exact .inl (.inl (.inr (.inl h)))
      · exact .inr (.inr ⟨w, hw, rfl⟩)
      · exact .inl (.inl (.inr (.inr h)))
      · exact .inl (.inr h)
    · rintro (((h | h | h) | h) | ⟨w, hw, rfl⟩ | ⟨w, hw, rfl⟩)
      · exact .inl (.inl (.inl (.inl (.inl h))))
      · exact .inl (.inl (.inl (.inr h)))
      · exact .inl (.inr h)
      · exact .inr h
      · exact .inl (.inl (.inl (.inl (.inr ⟨w, hw, rfl⟩))))
      · exact .inl (.inl (.inr ⟨w, hw, rfl⟩))
  constructor
  · have e : ∀ (X : List Name → List Var) (name : Name) (n : Nat), (∀ scope, X scope = (X []).map (InitScalable.below scope)) →
        ((List.range n).flatMap fun k => (X []).map (layerLink ax name n k)).map (fun l => (l.path, l.shape)) =
          ((List.range n).flatMap fun k => X [name, layerName k]).map fun v => (v.path, v.shape) := by
      intro X name n hX
      simp only [List.map_flatMap, List.map_map]
      congr 1
      funext k
      rw [hX [name, layerName k], List.map_map]
      rfl
    simp only [links, separate, List.map_append, e _ _ _ hb1, e _ _ _ hb2, List.map_map]
    rfl
  · intro l hl
    rcases (mem_links cfg ax l).1 hl with ⟨v, hv, rfl⟩ | ⟨k, hk, v, hv, rfl⟩ | ⟨k, hk, v, hv, rfl⟩
    · exact ⟨v, (hst v).2 (.inl hv), rfl, rfl⟩
    · exact ⟨_, (hst _).2 (.inr (.inl ⟨v, hv, rfl⟩)), rfl, rfl⟩
    · exact ⟨_, (hst _).2 (.inr (.inr ⟨v, hv, rfl⟩)), rfl, rfl⟩
  · intro v hv
    rcases (hst v).1 hv with hv | ⟨w, hw, rfl⟩ | ⟨w, hw, rfl⟩
    · exact ⟨plainLink v, (mem_links cfg ax _).2 (.inl ⟨v, hv, rfl⟩), rfl⟩
    · exact ⟨_, (mem_links cfg ax _).2 (.inr (.inl ⟨0, hE, w, hw, rfl⟩)), rfl⟩
    · exact ⟨_, (mem_links cfg ax _).2 (.inr (.inr ⟨0, hD, w, hw, rfl⟩)), rfl⟩
  · have := InitScalable.varsOf_nodup ⟨cfg, false, ax⟩
    simp only [InitScalable.varsOf, InitScalable.layersOf, Bool.false_eq_true, if_false] at this
    exact this
  · have := InitScalable.varsOf_nodup ⟨cfg, true, ax⟩
    simp only [InitScalable.varsOf, InitScalable.layersOf, if_true] at this
    exact this
  · intro l hl i hi
    rcases (mem_links cfg ax l).1 hl with ⟨v, hv, rfl⟩ | ⟨k, hk, v, hv, rfl⟩ | ⟨k, hk, v, hv, rfl⟩
    · exact hi
    · exact ins_inBox hk hi
    · exact ins_inBox hk hi
  · intro l hl m hm i j hi hj hp he
    rcases (mem_links cfg ax l).1 hl with ⟨v, hv, rfl⟩ | ⟨k, hk, v, hv, rfl⟩ | ⟨k, hk, v, hv, rfl⟩ <;>
      rcases (mem_links cfg ax m).1 hm with ⟨w, hw, rfl⟩ | ⟨k', hk', w, hw, rfl⟩ | ⟨k', hk', w, hw, rfl⟩
    · exact ⟨hp, he⟩
    · exact absurd hp (plain_paths cfg v hv _ (.inl rfl) _)
    · exact absurd hp (plain_paths cfg v hv _ (.inr rfl) _)
    · exact absurd hp.symm (plain_paths cfg w hw _ (.inl rfl) _)
    · exact layerLink_inj ax hax (hs1 v hv) (hs1 w hw) hi hj hp he
    · exact layerLink_inj ax hax (hs1 v hv) (hs2 w hw) hi hj hp he
    · exact absurd hp.symm (plain_paths cfg w hw _ (.inr rfl) _)
    · exact layerLink_inj ax hax (hs2 v hv) (hs1 w hw) hi hj hp he
    · exact layerLink_inj ax hax (hs2 v hv) (hs2 w hw) hi hj hp he
  · intro F
    have e : ∀ (X : List Name → List Var) (name : Name) (n : Nat), (∀ scope, X scope = (X []).map (InitScalable.below scope)) →
        (((X [name, name]).map (stackOf ax n)).map fun v => ((Adafactor.box v.shape).map (F v.path)).sum).sum =
          (((List.range n).flatMap fun k => (X []).map (layerLink ax name n k)).map fun l => ((Adafactor.box l.shape).map fun i => F l.path' (l.e i)).sum).sum := by
      intro X name n hX
      rw [hX [name, name], sum_flatMap_map, List.map_map, List.map_map]
      simp only [List.map_map, Function.comp_def, stackOf, InitScalable.below, layerLink, sum_ins]
      exact sum_swap _ _ _
    have eh : ((head cfg).map plainLink).map (fun l => ((Adafactor.box l.shape).map fun i => F l.path' (l.e i)).sum) =
        (head cfg).map fun v => ((Adafactor.box v.shape).map (F v.path)).sum := by
      rw [List.map_map]; rfl
    simp only [links, stacked, List.map_append, List.sum_append, e _ _ _ hb1, e _ _ _ hb2, eh]
    rfl

/-! ### Training -/

/-- Axes and shapes of the parameters of a layer. -/
theorem layer_kinds {X : List Name → List Var} (hX : X = encLayer cfg ∨ X = decLayer cfg) : ∀ v ∈ X [], (v.axes, v.shape) ∈
    [(["heads".toList, "relpos_buckets".toList], [cfg.numHeads, 32]), (["embed".toList], [cfg.embDim]),
      (["embed".toList, "heads".toList, "kv".toList], [cfg.embDim, cfg.numHeads, cfg.headDim]),
      (["heads".toList, "kv".toList, "embed".toList], [cfg.numHeads, cfg.headDim, cfg.embDim]),
      (["embed".toList, "mlp".toList], [cfg.embDim, cfg.mlpDim]), (["mlp".toList, "embed".toList], [cfg.mlpDim, cfg.embDim])] := by
  have ht : ∀ name, ∀ v ∈ attention cfg [] name, (v.axes, v.shape) = (["embed".toList, "heads".toList, "kv".toList], [cfg.embDim, cfg.numHeads, cfg.headDim]) ∨
      (v.axes, v.shape) = (["heads".toList, "kv".toList, "embed".toList], [cfg.numHeads, cfg.headDim, cfg.embDim]) := by
    intro name v hv
    simp only [attention, List.mem_cons, List.not_mem_nil, or_false] at hv
    rcases hv with rfl | rfl | rfl | rfl
    · exact .inl rfl
    · exact .inl rfl
    · exact .inl rfl
    · exact .inr rfl
  have hm : ∀ v ∈ mlp cfg [], (v.axes, v.shape) = (["embed".toList, "mlp".toList], [cfg.embDim, cfg.mlpDim]) ∨
      (v.axes, v.shape) = (["mlp".toList, "embed".toList], [cfg.mlpDim, cfg.embDim]) := by
    intro v hv
    simp only [mlp, List.mem_append, List.mem_map, List.mem_singleton] at hv
    rcases hv with ⟨i, -, rfl⟩ | rfl
    · exact .inl rfl
    · exact .inr rfl
  have hn : ∀ name, ((norm cfg [] name).axes, (norm cfg [] name).shape) = (["embed".toList], [cfg.embDim]) := fun name => rfl
  have hr : ((relpos cfg []).axes, (relpos cfg []).shape) = (["heads".toList, "relpos_buckets".toList], [cfg.numHeads, 32]) := rfl
  intro v hv
  simp only [List.mem_cons, List.not_mem_nil, or_false]
  rcases hX with rfl | rfl
  · simp only [encLayer, List.mem_append, List.mem_cons, List.not_mem_nil, or_false] at hv
    rcases hv with (((rfl | rfl) | h) | rfl) | h
    · exact .inl hr
    · exact .inr (.inl (hn _))
    · rcases ht _ v h with h | h
      · exact .inr (.inr (.inl h))
      · exact .inr (.inr (.inr (.inl h)))
    · exact .inr (.inl (hn _))
    · exact .inr (.inr (.inr (.inr (hm v h))))
  · simp only [decLayer, List.mem_append, List.mem_cons, List.not_mem_nil, or_false] at hv
    rcases hv with (((((rfl | rfl) | h) | rfl) | h) | rfl) | h
    · exact .inl hr
    · exact .inr (.inl (hn _))
    · rcases ht _ v h with h | h
      · exact .inr (.inr (.inl h))
      · exact .inr (.inr (.inr (.inl h)))
    · exact .inr (.inl (hn _))
    · rcases ht _ v h with h | h
      · exact .inr (.inr (.inl h))
      · exact .inr (.inr (.inr (.inl h)))
    · exact .inr (.inl (hn _))
    · exact .inr (.inr (.inr (.inr (hm v h))))

/-- Axes and shapes of the other parameters. -/
theorem plain_kinds (lower : Name → Name) : ∀ v ∈ plain cfg, ∃ r, AdafactorAxes.applyRulesTo lower AdafactorAxes.standardRules (v.axes.map some) = .ok r ∧
    r.length = v.shape.length ∧ FactorDim.batch ∉ r ∧ v.shape.length ≤ 2 := by
  intro v hv
  simp only [plain, List.mem_append, List.mem_cons, List.not_mem_nil, or_false] at hv
  rcases hv with (rfl | rfl | rfl) | hv
  · have e : (embedding cfg).axes = ["vocab".toList, "embed".toList] := rfl
    rw [e]
    exact ⟨[.column, .row], rfl, rfl, by decide, le_rfl⟩
  · have e : (encNorm cfg).axes = ["embed".toList] := rfl
    rw [e]
    exact ⟨[.none], rfl, rfl, by decide, Nat.le_succ 1⟩
  · have e : (decNorm cfg).axes = ["embed".toList] := rfl
    rw [e]
    exact ⟨[.none], rfl, rfl, by decide, Nat.le_succ 1⟩
  · unfold head at hv
    split_ifs at hv
    · cases hv
    · rw [List.mem_singleton.1 hv]
      have e : (at' ["decoder".toList] ["logits_dense", "kernel"] [("embed", cfg.embDim), ("vocab", cfg.vocabSize)]).axes = ["embed".toList, "vocab".toList] := rfl
      rw [e]
      exact ⟨[.row, .column], rfl, rfl, by decide, le_rfl⟩

/-- The two optimizers treat all corresponding parameters in the same way. -/
theorem links_dims (lower : Name → Name) (hax : ax ≤ 1) {D D' : Def} {m m' : List Char → Option Adafactor.Rule}
    (hs : ∀ l, (D.argsort l).Perm (List.range l.length))
    (hsort : ∀ l i j, i < j → j < (D.argsort l).length → l.getD ((D.argsort l).getD i 0) 0 ≤ l.getD ((D.argsort l).getD j 0) 0)
    (hf : D.factored = true) (hf' : D'.factored = true) (ha : D.argsort = D'.argsort) (hmin : D.minDim = D'.minDim)
    (h1 : D.minDim ≤ cfg.embDim) (h2 : D.minDim ≤ cfg.mlpDim) (h3 : cfg.numHeads < D.minDim ∨ 32 < D.minDim)
    (hm : D.factorMap = some m) (hm' : D'.factorMap = some m')
    (hr : ∀ v ∈ separate cfg, ∀ r, AdafactorAxes.applyRulesTo lower AdafactorAxes.standardRules (v.axes.map some) = .ok r → m (join v.path) = some (.dims r))
    (hr' : ∀ v ∈ stacked cfg ax, ∀ r, AdafactorAxes.applyRulesTo lower AdafactorAxes.standardRules (v.axes.map some) = .ok r → m' (join v.path) = some (.dims r)) :
    ∀ l ∈ links cfg ax, LinkDims D D' (join l.path) (join l.path') l.shape l.shape' l.e := by
  have hb1 := fun scope => InitScalable.layer_below ⟨cfg, false, ax⟩ (L := encLayer cfg) (.inl rfl) scope
  have hb2 := fun scope => InitScalable.layer_below ⟨cfg, false, ax⟩ (L := decLayer cfg) (.inr rfl) scope
  have hplain : ∀ v ∈ plain cfg, v ∈ separate cfg ∧ v ∈ stacked cfg ax := by
    intro v hv
    simp only [plain, List.mem_append, List.mem_cons, List.not_mem_nil, or_false] at hv
    simp only [separate, stacked, List.mem_append, List.mem_cons, List.not_mem_nil, or_false]
    rcases hv with (h | h | h) | h
    · exact ⟨.inl (.inl (.inl (.inl (.inl h)))), .inl (.inl (.inl (.inl (.inl h))))⟩
    · exact ⟨.inl (.inl (.inl (.inr h))), .inl (.inl (.inl (.inr h)))⟩
    · exact ⟨.inl (.inr h), .inl (.inr h)⟩
    · exact ⟨.inr h, .inr h⟩
  have key : ∀ (X : List Name → List Var) (name : Name) (n k : Nat), (X = encLayer cfg ∨ X = decLayer cfg) → k < n → ∀ v ∈ X [],
      InitScalable.below [name, layerName k] v ∈ separate cfg → stackOf ax n (InitScalable.below [name, name] v) ∈ stacked cfg ax →
      LinkDims D D' (join (name :: layerName k :: v.path)) (join (name :: name :: v.path)) v.shape (ins ax n v.shape) (ins ax k) := by
    intro X name n k hX hk v hv hv1 hv2
    have hax2 : ax = 0 ∨ ax = 1 := by omega
    have q : ∀ r, AdafactorAxes.applyRulesTo lower AdafactorAxes.standardRules (v.axes.map some) = .ok r →
        m (join (name :: layerName k :: v.path)) = some (.dims r) := fun r h => hr _ hv1 r h
    have q' : ∀ r, AdafactorAxes.applyRulesTo lower AdafactorAxes.standardRules ((ins ax "layers".toList v.axes).map some) = .ok r →
        m' (join (name :: name :: v.path)) = some (.dims r) := fun r h => hr' _ hv2 r h
    have hkind := layer_kinds cfg hX v hv
    simp only [List.mem_cons, List.not_mem_nil, or_false, Prod.mk.injEq] at hkind
    rcases hkind with ⟨e1, e2⟩ | ⟨e1, e2⟩ | ⟨e1, e2⟩ | ⟨e1, e2⟩ | ⟨e1, e2⟩ | ⟨e1, e2⟩ <;> rw [e1] at q q' <;> rw [e2]
    · refine dims_layers (r := [.none, .none]) hs hsort hf hf' hm hm' (q _ rfl) (q' _ ?_) rfl (by decide) (by simp; omega) hk
        (.inr ⟨by decide, by decide, fun _ => ?_⟩)
      · rcases hax2 with rfl | rfl <;> rfl
      · rcases h3 with h3 | h3
        · exact ⟨_, by simp, h3⟩
        · exact ⟨32, by simp, h3⟩
    · refine dims_layers (r := [.none]) hs hsort hf hf' hm hm' (q _ rfl) (q' _ ?_) rfl (by decide) (by simp; omega) hk
        (.inr ⟨by decide, by decide, fun h => by simp at h⟩)
      rcases hax2 with rfl | rfl <;> rfl
    · refine dims_layers (r := [.row, .column, .column]) hs hsort hf hf' hm hm' (q _ rfl) (q' _ ?_) rfl (by decide) (by simp; omega) hk (.inl (by simp))
      rcases hax2 with rfl | rfl <;> rfl
    · refine dims_layers (r := [.column, .column, .row]) hs hsort hf hf' hm hm' (q _ rfl) (q' _ ?_) rfl (by decide) (by simp; omega) hk (.inl (by simp))
      rcases hax2 with rfl | rfl <;> rfl
    · refine dims_matrix (r := [.row, .column]) hs hsort hf hf' hm hm' (q _ rfl) (q' _ ?_) (.inl rfl) (by omega) h1 h2 hk
      rcases hax2 with rfl | rfl <;> rfl
    · refine dims_matrix (r := [.column, .row]) hs hsort hf hf' hm hm' (q _ rfl) (q' _ ?_) (.inr rfl) (by omega) h2 h1 hk
      rcases hax2 with rfl | rfl <;> rfl
  intro l hl
  rcases (mem_links cfg ax l).1 hl with ⟨v, hv, rfl⟩ | ⟨k, hk, v, hv, rfl⟩ | ⟨k, hk, v, hv, rfl⟩
  · obtain ⟨r, r1, r2, r3, r4⟩ := plain_kinds cfg lower v hv
    exact dims_plain hs hsort hf hf' hm hm' (hr v (hplain v hv).1 r r1) (hr' v (hplain v hv).2 r r1) r2 r3 r4 ha hmin
  · refine key (encLayer cfg) "encoder".toList cfg.numEnc k (.inl rfl) hk v hv ?_ ?_
    · simp only [separate, List.mem_append, List.mem_flatMap, List.mem_range]
      refine .inl (.inl (.inl (.inl (.inr ⟨k, hk, ?_⟩))))
      rw [hb1]
      exact List.mem_map_of_mem hv
    · simp only [stacked, List.mem_append]
      refine .inl (.inl (.inl (.inl (.inr ?_))))
      rw [hb1]
      exact List.mem_map_of_mem (List.mem_map_of_mem hv)
  · refine key (decLayer cfg) "decoder".toList cfg.numDec k (.inr rfl) hk v hv ?_ ?_
    · simp only [separate, List.mem_append, List.mem_flatMap, List.mem_range]
      refine .inl (.inl (.inr ⟨k, hk, ?_⟩))
      rw [hb2]
      exact List.mem_map_of_mem hv
    · simp only [stacked, List.mem_append]
      refine .inl (.inl (.inr ?_))
      rw [hb2]
      exact List.mem_map_of_mem (List.mem_map_of_mem hv)

end

/-- Every parameter has factor rules. -/
theorem rules_ok (cfg : InitT5.Config) (ax : Nat) (hax : ax ≤ 1) (lower : Name → Name) :
    (∀ v ∈ InitScalable.Spec.separate cfg, ∃ r, AdafactorAxes.applyRulesTo lower AdafactorAxes.standardRules (v.axes.map some) = .ok r) ∧
    ∀ v ∈ InitScalable.Spec.stacked cfg ax, ∃ r, AdafactorAxes.applyRulesTo lower AdafactorAxes.standardRules (v.axes.map some) = .ok r := by
  have hp := plain_kinds cfg lower
  have hax2 : ax = 0 ∨ ax = 1 := by omega
  have key : ∀ (X : List Name → List Var) (n : Nat), (X = InitScalable.Spec.encLayer cfg ∨ X = InitScalable.Spec.decLayer cfg) → ∀ scope, ∀ v ∈ X scope,
      (∃ r, AdafactorAxes.applyRulesTo lower AdafactorAxes.standardRules (v.axes.map some) = .ok r) ∧
      ∃ r, AdafactorAxes.applyRulesTo lower AdafactorAxes.standardRules ((InitScalable.Spec.stackOf ax n v).axes.map some) = .ok r := by
    intro X n hX scope v hv
    rw [InitScalable.layer_below ⟨cfg, false, ax⟩ (L := X) hX scope] at hv
    obtain ⟨w, hw, rfl⟩ := List.mem_map.1 hv
    have hkind := layer_kinds cfg hX w hw
    simp only [List.mem_cons, List.not_mem_nil, or_false, Prod.mk.injEq] at hkind
    simp only [InitScalable.Spec.stackOf, InitScalable.below]
    rcases hkind with ⟨e1, -⟩ | ⟨e1, -⟩ | ⟨e1, -⟩ | ⟨e1, -⟩ | ⟨e1, -⟩ | ⟨e1, -⟩ <;> rw [e1] <;> rcases hax2 with rfl | rfl <;> exact ⟨⟨_, rfl⟩, ⟨_, rfl⟩⟩
  constructor
  · intro v hv
    simp only [InitScalable.Spec.separate, List.mem_append, List.mem_flatMap, List.mem_range, List.mem_cons, List.not_mem_nil, or_false] at hv
    rcases hv with ((((h | ⟨k, -, h⟩) | h) | ⟨k, -, h⟩) | h) | h
    · obtain ⟨r, h1, -⟩ := hp v (by simp [plain, h]); exact ⟨r, h1⟩
    · exact (key _ 0 (.inl rfl) _ v h).1
    · obtain ⟨r, h1, -⟩ := hp v (by simp [plain, h]); exact ⟨r, h1⟩
    · exact (key _ 0 (.inr rfl) _ v h).1
    · obtain ⟨r, h1, -⟩ := hp v (by simp [plain, h]); exact ⟨r, h1⟩
    · obtain ⟨r, h1, -⟩ := hp v (by simp [plain, h]); exact ⟨r, h1⟩
  · intro v hv
    simp only [InitScalable.Spec.stacked, List.mem_append, List.mem_map, List.mem_cons, List.not_mem_nil, or_false] at hv
    rcases hv with ((((h | ⟨w, h, rfl⟩) | h) | ⟨w, h, rfl⟩) | h) | h
    · obtain ⟨r, h1, -⟩ := hp v (by simp [plain, h]); exact ⟨r, h1⟩
    · exact (key _ _ (.inl rfl) _ w h).2
    · obtain ⟨r, h1, -⟩ := hp v (by simp [plain, h]); exact ⟨r, h1⟩
    · exact (key _ _ (.inr rfl) _ w h).2
    · obtain ⟨r, h1, -⟩ := hp v (by simp [plain, h]); exact ⟨r, h1⟩
    · obtain ⟨r, h1, -⟩ := hp v (by simp [plain, h]); exact ⟨r, h1⟩

/-- **C117.** Training with scanned layers and with separate layers.  The two networks have the same configuration but for `scan_layers`; `vars` and `vars'`
are the parameters they create.  Start with parameters that are the same up to stacking, and use losses that are the same for such parameters.  Then with
Adafactor, the standard factor rules, any learning rates and any clipping of the global norm, after any number of steps both runs have succeeded and
the parameters are still the same up to stacking. -/
theorem C117_train (cfg : InitScalable.Config) (hN : 0 < cfg.numActs) (hE : 0 < cfg.numEnc) (hD : 0 < cfg.numDec) (B n m : Nat) (es ds : Bool) (vars vars' : List Var)
    (hv : InitScalable.init { cfg with scanLayers := false } [B, m] [B, n] es ds = some vars)
    (hv' : InitScalable.init { cfg with scanLayers := true } [B, m] [B, n] es ds = some vars')
    (lower : Name → Name) (D0 : Def) (hf : D0.factored = true) (hs : ∀ l, (D0.argsort l).Perm (List.range l.length))
    (hsort : ∀ l i j, i < j → j < (D0.argsort l).length → l.getD ((D0.argsort l).getD i 0) 0 ≤ l.getD ((D0.argsort l).getD j 0) 0)
    (h1 : D0.minDim ≤ cfg.embDim) (h2 : D0.minDim ≤ cfg.mlpDim) (h3 : cfg.numHeads < D0.minDim ∨ 32 < D0.minDim)
    (H : HP ℝ) (hdr : 0 < H.decayRate) (heps : 0 < H.eps1) (ho : H.stepOffset ≤ 0) (lr : Nat → ℝ) (thr : Option ℝ)
    (loss loss' : Nat → Values → ℝ) (hloss : ∀ t W W', Same cfg.toConfig cfg.paramScanAxis W W' → loss t W = loss' t W')
    (grad grad' : Nat → Dict (NDArray ℝ) → Dict (NDArray ℝ)) (hg : ∀ t P, Fits vars P → IsGrad vars (loss t) P (grad t P))
    (hg' : ∀ t P, Fits vars' P → IsGrad vars' (loss' t) P (grad' t P))
    (P P' : Dict (NDArray ℝ)) (hP : Fits vars P) (hP' : Fits vars' P') (hsame : Same cfg.toConfig cfg.paramScanAxis (values P) (values P')) :
    ∃ D D', optimizer lower D0 vars = .ok D ∧ optimizer lower D0 vars' = .ok D' ∧
      ∀ T, ∃ s s', train D H thr lr grad P T = .ok s ∧ train D' H thr lr grad' P' T = .ok s' ∧ s.2.1 = T ∧ s'.2.1 = T ∧ Fits vars s.1 ∧ Fits vars' s'.1 ∧
        Same cfg.toConfig cfg.paramScanAxis (values s.1) (values s'.1) := by
  have hes : es = true → ds = true := by
    intro he
    by_contra hc
    rw [InitScalable.C116_segments _ _ _ es ds (.inl ⟨he, by simpa using hc⟩)] at hv
    cases hv
  have hax : cfg.paramScanAxis ≤ 1 := by
    by_contra hd
    rw [InitScalable.C116_axis { cfg with scanLayers := true } rfl (by dsimp only; omega) hN] at hv'
    cases hv'
  rw [InitScalable.C116_separate { cfg with scanLayers := false } rfl hN B n m es ds hes] at hv
  rw [InitScalable.C116_stacked { cfg with scanLayers := true } rfl hax hN B n m es ds hes] at hv'
  dsimp only at hv hv'
  cases hv
  cases hv'
  have hL := covers cfg.toConfig cfg.paramScanAxis hax hE hD
  obtain ⟨r1, r2⟩ := rules_ok cfg.toConfig cfg.paramScanAxis hax lower
  obtain ⟨mp, o1, o2⟩ := optimizer_ok D0 (by simp [InitScalable.Spec.separate]) hL.nodup (fits_named hP) r1
  obtain ⟨mp', o1', o2'⟩ := optimizer_ok D0 (by simp [InitScalable.Spec.stacked]) hL.nodup' (fits_named hP') r2
  refine ⟨_, _, o1, o1', fun T => ?_⟩
  have hd := links_dims cfg.toConfig cfg.paramScanAxis lower hax (D := { D0 with factorMap := some mp }) (D' := { D0 with factorMap := some mp' })
    hs hsort hf hf rfl rfl h1 h2 h3 rfl rfl o2 o2'
  obtain ⟨s, s', t1, t2, t3⟩ := train_inv (lr := lr) (thr := thr) (D := { D0 with factorMap := some mp }) (D' := { D0 with factorMap := some mp' })
    hs hs hdr heps ho hL hd (fun t W W' h => hloss t W W' ((agree_same _ _ W W').1 h)) hg hg' hP hP' ((agree_same _ _ _ _).2 hsame) T
  exact ⟨s, s', t1, t2, t3.step, t3.step', t3.fits, t3.fits', (agree_same _ _ _ _).1 (t3.agree hL)⟩

/-- **C117.** For parameters that are the same up to stacking, the gradients are the same up to stacking, and so is the norm of all gradients. -/
theorem C117_gradients (cfg : InitScalable.Config) (hN : 0 < cfg.numActs) (hE : 0 < cfg.numEnc) (hD : 0 < cfg.numDec) (B n m : Nat) (es ds : Bool)
    (vars vars' : List Var) (hv : InitScalable.init { cfg with scanLayers := false } [B, m] [B, n] es ds = some vars)
    (hv' : InitScalable.init { cfg with scanLayers := true } [B, m] [B, n] es ds = some vars')
    (loss loss' : Values → ℝ) (hloss : ∀ W W', Same cfg.toConfig cfg.paramScanAxis W W' → loss W = loss' W')
    (P P' G G' : Dict (NDArray ℝ)) (hsame : Same cfg.toConfig cfg.paramScanAxis (values P) (values P'))
    (hG : IsGrad vars loss P G) (hG' : IsGrad vars' loss' P' G') :
    Same cfg.toConfig cfg.paramScanAxis (values G) (values G') ∧ normAll G (vars.map Var.path) = normAll G' (vars'.map Var.path) := by
  have hes : es = true → ds = true := by
    intro he
    by_contra hc
    rw [InitScalable.C116_segments _ _ _ es ds (.inl ⟨he, by simpa using hc⟩)] at hv
    cases hv
  have hax : cfg.paramScanAxis ≤ 1 := by
    by_contra hd
    rw [InitScalable.C116_axis { cfg with scanLayers := true } rfl (by dsimp only; omega) hN] at hv'
    cases hv'
  rw [InitScalable.C116_separate { cfg with scanLayers := false } rfl hN B n m es ds hes] at hv
  rw [InitScalable.C116_stacked { cfg with scanLayers := true } rfl hax hN B n m es ds hes] at hv'
  dsimp only at hv hv'
  cases hv
  cases hv'
  have hL := covers cfg.toConfig cfg.paramScanAxis hax hE hD
  have := agree_grad hL (fun W W' h => hloss W W' ((agree_same _ _ W W').1 h)) ((agree_same _ _ _ _).2 hsame) hG hG'
  exact ⟨(agree_same _ _ _ _).1 this, agree_norm hL this hG.fits hG'.fits⟩

/-! ### The networks of the parameters -/

section
variable {d h e f : Nat}

theorem slice_enc {N : Nat} (acts : (ℝ → ℝ) × List (ℝ → ℝ)) (r : Nat → List Name → List Nat → ℝ) (k : Fin N) :
    (encStackOf acts r : ScalableT5.EncStack N d h e f).slice k = encOf acts (r k) := by
  simp only [ScalableT5.EncStack.slice, encStackOf, encOf, ScalableT5.MlpStack.slice, mlpStackOf, mlpOf, List.mapIdx_eq_zipIdx_map, List.map_map]
  rfl

theorem slice_dec {N : Nat} (acts : (ℝ → ℝ) × List (ℝ → ℝ)) (r : Nat → List Name → List Nat → ℝ) (k : Fin N) :
    (decStackOf acts r : ScalableT5.DecStack N d h e f).slice k = decOf acts (r k) := by
  simp only [ScalableT5.DecStack.slice, decStackOf, decOf, ScalableT5.MlpStack.slice, mlpStackOf, mlpOf, List.mapIdx_eq_zipIdx_map, List.map_map]
  rfl

end

theorem box1 {a n : Nat} (h : a < n) : InBox [n] [a] := List.Forall₂.cons h List.Forall₂.nil

theorem box2 {a b n m : Nat} (h : a < n) (h' : b < m) : InBox [n, m] [a, b] := List.Forall₂.cons h (box1 h')

theorem box3 {a b c n m l : Nat} (h : a < n) (h' : b < m) (h'' : c < l) : InBox [n, m, l] [a, b, c] := List.Forall₂.cons h (box2 h' h'')

section
open Verif.InitScalable.Spec
variable (cfg : InitT5.Config) (acts : (ℝ → ℝ) × List (ℝ → ℝ))

/-- Equal on the parameters listed. -/
def On (vs : List Var) (r r' : List Name → List Nat → ℝ) : Prop := ∀ v ∈ vs, ∀ i, InBox v.shape i → r v.path i = r' v.path i

theorem On.sub {vs ws : List Var} {r r' : List Name → List Nat → ℝ} (h : On ws r r') (hs : ∀ v ∈ vs, v ∈ ws) : On vs r r' := fun v hv => h v (hs v hv)

theorem rel_congr {r r' : List Name → List Nat → ℝ} (h : On [relpos cfg []] r r') : (relOf r : Fin cfg.numHeads → ℤ → ℝ) = relOf r' := by
  funext a b
  unfold relOf
  split_ifs with hb
  · exact h _ (.head _) _ (box2 a.2 (by change b.toNat < 32; omega))
  · rfl

theorem norm_congr' {name : String} {r r' : List Name → List Nat → ℝ} (h : On [InitScalable.Spec.norm cfg [] name] r r') :
    (normOf name r : Transformer.Vec cfg.embDim) = normOf name r' := by
  funext a
  exact h _ (.head _) _ (box1 a.2)

theorem attn_congr {name : String} {r r' : List Name → List Nat → ℝ} (h : On (attention cfg [] name) r r') :
    (attnOf name r : ScalableT5.Attn cfg.embDim cfg.numHeads cfg.headDim) = attnOf name r' := by
  unfold attnOf
  congr 1 <;> funext a b c
  · exact h _ (.head _) _ (box3 a.2 b.2 c.2)
  · exact h _ (.tail _ (.head _)) _ (box3 a.2 b.2 c.2)
  · exact h _ (.tail _ (.tail _ (.head _))) _ (box3 a.2 b.2 c.2)
  · exact h _ (.tail _ (.tail _ (.tail _ (.head _)))) _ (box3 a.2 b.2 c.2)

theorem mlp_congr (ha : cfg.numActs = acts.2.length + 1) {r r' : List Name → List Nat → ℝ} (h : On (mlp cfg []) r r') :
    (mlpOf acts r : Transformer.Mlp cfg.embDim cfg.mlpDim) = mlpOf acts r' := by
  have hw : ∀ k < acts.2.length + 1, ∀ (a : Fin cfg.embDim) (b : Fin cfg.mlpDim),
      r ["mlp".toList, InitT5.wiName (acts.2.length + 1) k, "kernel".toList] [a.val, b.val] =
        r' ["mlp".toList, InitT5.wiName (acts.2.length + 1) k, "kernel".toList] [a.val, b.val] := by
    intro k hk a b
    rw [← ha] at hk ⊢
    exact h _ (List.mem_append_left _ (List.mem_map_of_mem (List.mem_range.2 hk))) _ (box2 a.2 b.2)
  unfold mlpOf
  dsimp only
  congr 1
  · congr 1
    funext a b
    exact hw 0 (by omega) a b
  · apply List.ext_getElem (by simp)
    intro k hk _
    simp only [List.length_mapIdx] at hk
    simp only [List.getElem_mapIdx]
    congr 1
    funext a b
    exact hw (k + 1) (by omega) a b
  · funext a b
    exact h (at' [] ["mlp", "wo", "kernel"] [("mlp", cfg.mlpDim), ("embed", cfg.embDim)]) (List.mem_append_right _ (.head _)) _ (box2 a.2 b.2)

theorem enc_congr (ha : cfg.numActs = acts.2.length + 1) {r r' : List Name → List Nat → ℝ} (h : On (encLayer cfg []) r r') :
    (encOf acts r : ScalableT5.EncLayer cfg.embDim cfg.numHeads cfg.headDim cfg.mlpDim) = encOf acts r' := by
  unfold encOf
  rw [rel_congr cfg (h.sub fun v hv => by simp_all [encLayer]), norm_congr' cfg (name := "pre_attention_layer_norm") (h.sub fun v hv => by simp_all [encLayer]),
    attn_congr cfg (h.sub fun v hv => by simp [encLayer, hv]), norm_congr' cfg (name := "pre_mlp_layer_norm") (h.sub fun v hv => by simp_all [encLayer]),
    mlp_congr cfg acts ha (h.sub fun v hv => by simp [encLayer, hv])]

theorem dec_congr (ha : cfg.numActs = acts.2.length + 1) {r r' : List Name → List Nat → ℝ} (h : On (decLayer cfg []) r r') :
    (decOf acts r : ScalableT5.DecLayer cfg.embDim cfg.numHeads cfg.headDim cfg.mlpDim) = decOf acts r' := by
  unfold decOf
  rw [rel_congr cfg (h.sub fun v hv => by simp_all [decLayer]), norm_congr' cfg (name := "pre_self_attention_layer_norm") (h.sub fun v hv => by simp_all [decLayer]),
    attn_congr cfg (name := "self_attention") (h.sub fun v hv => by simp [decLayer, hv]),
    norm_congr' cfg (name := "pre_cross_attention_layer_norm") (h.sub fun v hv => by simp_all [decLayer]),
    attn_congr cfg (name := "encoder_decoder_attention") (h.sub fun v hv => by simp [decLayer, hv]),
    norm_congr' cfg (name := "pre_mlp_layer_norm") (h.sub fun v hv => by simp_all [decLayer]),
    mlp_congr cfg acts ha (h.sub fun v hv => by simp [decLayer, hv])]

theorem unstack_same (ha : cfg.numActs = acts.2.length + 1) (ax : Nat) (hax : ax ≤ 1) (eps : ℝ) {W W' : Values} (h : Same cfg ax W W') :
    (scannedOf cfg eps acts W' ax).unstack = netOf cfg eps acts W := by
  have hlen : ∀ v, (v ∈ encLayer cfg [] ∨ v ∈ decLayer cfg []) → ∀ i, InBox v.shape i → ax ≤ i.length := by
    intro v hv i hi
    have h1 := List.Forall₂.length_eq hi
    have h2 : 1 ≤ v.shape.length := by
      have hm : ∀ v ∈ mlp cfg [], 1 ≤ v.shape.length := by
        intro v hv
        simp only [mlp, List.mem_append, List.mem_map, List.mem_singleton] at hv
        rcases hv with ⟨i, -, rfl⟩ | rfl <;> simp [at']
      have ht : ∀ name, ∀ v ∈ attention cfg [] name, 1 ≤ v.shape.length := by
        intro name v hv
        simp only [attention, List.mem_cons, List.not_mem_nil, or_false] at hv
        rcases hv with rfl | rfl | rfl | rfl <;> simp [at']
      rcases hv with hv | hv
      · simp only [encLayer, List.mem_append, List.mem_cons, List.not_mem_nil, or_false] at hv
        rcases hv with (((rfl | rfl) | h) | rfl) | h
        · simp [relpos, at']
        · simp [InitScalable.Spec.norm, at']
        · exact ht _ v h
        · simp [InitScalable.Spec.norm, at']
        · exact hm v h
      · simp only [decLayer, List.mem_append, List.mem_cons, List.not_mem_nil, or_false] at hv
        rcases hv with (((((rfl | rfl) | h) | rfl) | h) | rfl) | h
        · simp [relpos, at']
        · simp [InitScalable.Spec.norm, at']
        · exact ht _ v h
        · simp [InitScalable.Spec.norm, at']
        · exact ht _ v h
        · simp [InitScalable.Spec.norm, at']
        · exact hm v h
    omega
  have hn : ∀ {name : String} {s : String}, InitScalable.Spec.norm cfg [s.toList] name ∈ plain cfg →
      (normOf name (fun p => W' (s.toList :: p)) : Transformer.Vec cfg.embDim) = normOf name fun p => W (s.toList :: p) := by
    intro name s hm
    funext a
    exact (h.plain _ hm _ (box1 a.2)).symm
  unfold ScalableT5.Scanned.unstack scannedOf netOf
  dsimp only
  congr 1
  · funext v a
    exact (h.plain (embedding cfg) (by simp [plain]) _ (box2 v.2 a.2)).symm
  · congr 1
    funext k
    rw [slice_enc]
    apply enc_congr cfg acts ha
    intro v hv i hi
    beta_reduce
    rw [InitScalable.insertIdx_ins _ _ _ (hlen v (.inl hv) i hi)]
    exact (h.enc k k.2 v hv i hi).symm
  · exact hn (s := "encoder") (by simp [plain, encNorm])
  · congr 1
    funext k
    rw [slice_dec]
    apply dec_congr cfg acts ha
    intro v hv i hi
    beta_reduce
    rw [InitScalable.insertIdx_ins _ _ _ (hlen v (.inr hv) i hi)]
    exact (h.dec k k.2 v hv i hi).symm
  · exact hn (s := "decoder") (by simp [plain, decNorm])
  · unfold headOf
    split_ifs with hv
    · rfl
    · congr 1
      funext a b
      exact (h.plain (at' ["decoder".toList] ["logits_dense", "kernel"] [("embed", cfg.embDim), ("vocab", cfg.vocabSize)]) (by simp [plain, head, hv]) _
        (box2 a.2 b.2)).symm

end

/-- **C117.** With parameters that are the same up to stacking, both networks compute the same logits for every row, and the same when they decode. -/
theorem C117_logits (cfg : InitT5.Config) (acts : (ℝ → ℝ) × List (ℝ → ℝ)) (ha : cfg.numActs = acts.2.length + 1) (ax : Nat) (hax : ax ≤ 1) (eps : ℝ)
    (W W' : Values) (h : Same cfg ax W W') (ex : ℝ → ℝ) (lg : ℕ → ℝ) :
    (∀ {n m : Nat} (b : Transformer.Input n m), ScalableT5.scanApply ex lg (scannedOf cfg eps acts W' ax) b = ScalableT5.apply ex lg (netOf cfg eps acts W) b) ∧
    ∀ {m : Nat} (L : Nat) (encTokens : Masks.Row m) (tokens : List Int),
      ScalableT5.scanPredict ex lg (scannedOf cfg eps acts W' ax) L encTokens tokens = ScalableT5.predict ex lg (netOf cfg eps acts W) L encTokens tokens :=
  ⟨fun b => by rw [ScalableT5.C100_scan, unstack_same cfg acts ha ax hax eps h], fun L x t => by
    rw [ScalableT5.C100_scan_decode, unstack_same cfg acts ha ax hax eps h]⟩

/-- **C117.** Training with any loss `F t` of the logits (of the batch of step `t`): after any number of steps both networks compute the same logits. -/
theorem C117_networks (cfg : InitScalable.Config) (acts : (ℝ → ℝ) × List (ℝ → ℝ)) (ha : cfg.numActs = acts.2.length + 1) (hE : 0 < cfg.numEnc)
    (hD : 0 < cfg.numDec) (B n m : Nat) (es ds : Bool) (vars vars' : List Var)
    (hv : InitScalable.init { cfg with scanLayers := false } [B, m] [B, n] es ds = some vars)
    (hv' : InitScalable.init { cfg with scanLayers := true } [B, m] [B, n] es ds = some vars')
    (lower : Name → Name) (D0 : Def) (hf : D0.factored = true) (hs : ∀ l, (D0.argsort l).Perm (List.range l.length))
    (hsort : ∀ l i j, i < j → j < (D0.argsort l).length → l.getD ((D0.argsort l).getD i 0) 0 ≤ l.getD ((D0.argsort l).getD j 0) 0)
    (h1 : D0.minDim ≤ cfg.embDim) (h2 : D0.minDim ≤ cfg.mlpDim) (h3 : cfg.numHeads < D0.minDim ∨ 32 < D0.minDim)
    (H : HP ℝ) (hdr : 0 < H.decayRate) (heps : 0 < H.eps1) (ho : H.stepOffset ≤ 0) (lr : Nat → ℝ) (thr : Option ℝ) (ex : ℝ → ℝ) (lg : ℕ → ℝ) (eps : ℝ)
    (F : Nat → ((n m : Nat) → Transformer.Input n m → Option (Fin n → Transformer.Vec cfg.vocabSize)) → ℝ)
    (grad grad' : Nat → Dict (NDArray ℝ) → Dict (NDArray ℝ))
    (hg : ∀ t P, Fits vars P → IsGrad vars (fun W => F t fun _ _ b => ScalableT5.apply ex lg (netOf cfg.toConfig eps acts W) b) P (grad t P))
    (hg' : ∀ t P, Fits vars' P →
      IsGrad vars' (fun W => F t fun _ _ b => ScalableT5.scanApply ex lg (scannedOf cfg.toConfig eps acts W cfg.paramScanAxis) b) P (grad' t P))
    (P P' : Dict (NDArray ℝ)) (hP : Fits vars P) (hP' : Fits vars' P') (hsame : Same cfg.toConfig cfg.paramScanAxis (values P) (values P')) :
    ∃ D D', optimizer lower D0 vars = .ok D ∧ optimizer lower D0 vars' = .ok D' ∧
      ∀ T, ∃ s s', train D H thr lr grad P T = .ok s ∧ train D' H thr lr grad' P' T = .ok s' ∧
        ∀ {n m : Nat} (b : Transformer.Input n m), ScalableT5.scanApply ex lg (scannedOf cfg.toConfig eps acts (values s'.1) cfg.paramScanAxis) b =
          ScalableT5.apply ex lg (netOf cfg.toConfig eps acts (values s.1)) b := by
  have hN : 0 < cfg.numActs := by omega
  have hax : cfg.paramScanAxis ≤ 1 := by
    by_contra hd
    rw [InitScalable.C116_axis { cfg with scanLayers := true } rfl (by dsimp only; omega) hN] at hv'
    cases hv'
  obtain ⟨D, D', d1, d2, h⟩ := C117_train cfg hN hE hD B n m es ds vars vars' hv hv' lower D0 hf hs hsort h1 h2 h3 H hdr heps ho lr thr _ _
    (fun t W W' hW => by
      congr 1
      funext n m b
      exact ((C117_logits cfg.toConfig acts ha _ hax eps W W' hW ex lg).1 b).symm) grad grad' hg hg' P P' hP hP' hsame
  refine ⟨D, D', d1, d2, fun T => ?_⟩
  obtain ⟨s, s', t1, t2, -, -, -, -, hS⟩ := h T
  exact ⟨s, s', t1, t2, (C117_logits cfg.toConfig acts ha _ hax eps _ _ hS ex lg).1⟩

/-! ### Trees with the parameters of the networks -/

/-- The last components of the paths of parameters. -/
def ends : List Name := ["kernel".toList, "scale".toList, "embedding".toList, "rel_embedding".toList]

/-- Ends with one of these, and they occur nowhere else; no slashes. -/
def good : List Name → Bool
  | [] => false
  | [z] => ends.contains z
  | c :: c' :: p => !c.contains '/' && !ends.contains c && good (c' :: p)

theorem good_last {z : Name} (h : good [z] = true) : '/' ∉ z := by
  simp only [good, ends, List.contains_iff_mem, List.mem_cons, List.not_mem_nil, or_false] at h
  rcases h with rfl | rfl | rfl | rfl <;> decide

theorem good_named : ∀ p, good p = true → Named p
  | [], h => by cases h
  | [z], h => ⟨by simp, fun k hk => by rw [List.mem_singleton.1 hk]; exact good_last h⟩
  | c :: c' :: p, h => by
    simp only [good, Bool.and_eq_true, Bool.not_eq_true', List.contains_eq_mem, decide_eq_false_iff_not] at h
    refine ⟨by simp, fun k hk => ?_⟩
    rcases List.mem_cons.1 hk with rfl | hk
    · exact h.1.1
    · exact (good_named (c' :: p) h.2).2 k hk

theorem good_prefix : ∀ p q, good p = true → good q = true → p <+: q → p = q
  | [], q, h, _, _ => by cases h
  | [z], [], _, h, _ => by cases h
  | [z], [w], _, _, hp => by rw [List.cons_prefix_cons] at hp; rw [hp.1]
  | [z], w :: w' :: q, h1, h2, hp => by
    rw [List.cons_prefix_cons] at hp
    simp only [good, Bool.and_eq_true, Bool.not_eq_true', hp.1] at h1 h2
    rw [h1] at h2
    exact absurd h2.1.2 (by simp)
  | c :: c' :: p, [], _, h, _ => by cases h
  | c :: c' :: p, [w], _, _, hp => by
    rw [List.cons_prefix_cons] at hp
    simpa using hp.2
  | c :: c' :: p, w :: w' :: q, h1, h2, hp => by
    rw [List.cons_prefix_cons] at hp
    simp only [good, Bool.and_eq_true] at h1 h2
    rw [hp.1, good_prefix _ _ h1.2 h2.2 hp.2]

theorem good_cons {c : Name} {p : List Name} (h1 : '/' ∉ c) (h2 : c ∉ ends) (h : good p = true) : good (c :: p) = true := by
  cases p with
  | nil => cases h
  | cons a p => simp [good, h, h1, h2]

theorem layerName_good (k : Nat) : '/' ∉ layerName k ∧ layerName k ∉ ends := by
  constructor
  · intro h
    rcases List.mem_append.1 h with h | h
    · revert h; decide
    · exact absurd (Ckpt.dec_digits k _ h) (by decide)
  · intro h
    have := List.mem_map_of_mem (f := List.head?) h
    have e : (layerName k).head? = some 'l' := rfl
    rw [e] at this
    revert this; decide

theorem wiName_good (n k : Nat) : '/' ∉ InitT5.wiName n k ∧ InitT5.wiName n k ∉ ends := by
  unfold InitT5.wiName
  split_ifs
  · decide
  · constructor
    · intro h
      rcases List.mem_append.1 h with h | h
      · revert h; decide
      · exact absurd (Ckpt.dec_digits k _ h) (by decide)
    · intro h
      have := List.mem_map_of_mem (f := List.head?) h
      have e : ("wi_".toList ++ Ckpt.dec k).head? = some 'w' := rfl
      rw [e] at this
      revert this; decide

section
open Verif.InitScalable.Spec
variable (cfg : InitT5.Config)

theorem layer_good {X : List Name → List Var} (hX : X = encLayer cfg ∨ X = decLayer cfg) : ∀ v ∈ X [], good v.path = true := by
  have ht : ∀ name, (name = "attention" ∨ name = "self_attention" ∨ name = "encoder_decoder_attention") → ∀ v ∈ attention cfg [] name, good v.path = true := by
    intro name hn v hv
    simp only [attention, List.mem_cons, List.not_mem_nil, or_false] at hv
    rcases hv with rfl | rfl | rfl | rfl <;> rcases hn with rfl | rfl | rfl <;> simp only [at'] <;> decide
  have hm : ∀ v ∈ mlp cfg [], good v.path = true := by
    intro v hv
    simp only [mlp, List.mem_append, List.mem_map, List.mem_singleton] at hv
    rcases hv with ⟨i, -, rfl⟩ | rfl
    · exact good_cons (by decide) (by decide) (good_cons (wiName_good _ _).1 (wiName_good _ _).2 (by decide))
    · simp only [at']; decide
  intro v hv
  rcases hX with rfl | rfl
  · simp only [encLayer, List.mem_append, List.mem_cons, List.not_mem_nil, or_false] at hv
    rcases hv with (((rfl | rfl) | h) | rfl) | h
    · simp only [relpos, at']; decide
    · simp only [InitScalable.Spec.norm, at']; decide
    · exact ht _ (.inl rfl) v h
    · simp only [InitScalable.Spec.norm, at']; decide
    · exact hm v h
  · simp only [decLayer, List.mem_append, List.mem_cons, List.not_mem_nil, or_false] at hv
    rcases hv with (((((rfl | rfl) | h) | rfl) | h) | rfl) | h
    · simp only [relpos, at']; decide
    · simp only [InitScalable.Spec.norm, at']; decide
    · exact ht _ (.inr (.inl rfl)) v h
    · simp only [InitScalable.Spec.norm, at']; decide
    · exact ht _ (.inr (.inr rfl)) v h
    · simp only [InitScalable.Spec.norm, at']; decide
    · exact hm v h

theorem plain_good : ∀ v ∈ plain cfg, good v.path = true := by
  intro v hv
  simp only [plain, List.mem_append, List.mem_cons, List.not_mem_nil, or_false] at hv
  rcases hv with (rfl | rfl | rfl) | hv
  · simp only [embedding, at']; decide
  · simp only [encNorm, InitScalable.Spec.norm, at']; decide
  · simp only [decNorm, InitScalable.Spec.norm, at']; decide
  · unfold head at hv
    split_ifs at hv
    · cases hv
    · rw [List.mem_singleton.1 hv]
      simp only [at']; decide

theorem all_good (ax : Nat) (l : Link) (hl : l ∈ links cfg ax) : good l.path = true ∧ good l.path' = true := by
  rcases (mem_links cfg ax l).1 hl with ⟨v, hv, rfl⟩ | ⟨k, hk, v, hv, rfl⟩ | ⟨k, hk, v, hv, rfl⟩
  · exact ⟨plain_good cfg v hv, plain_good cfg v hv⟩
  · have := layer_good cfg (.inl rfl) v hv
    exact ⟨good_cons (by decide) (by decide) (good_cons (layerName_good k).1 (layerName_good k).2 this),
      good_cons (by decide) (by decide) (good_cons (by decide) (by decide) this)⟩
  · have := layer_good cfg (.inr rfl) v hv
    exact ⟨good_cons (by decide) (by decide) (good_cons (layerName_good k).1 (layerName_good k).2 this),
      good_cons (by decide) (by decide) (good_cons (by decide) (by decide) this)⟩

end

theorem tree_of {vars : List Var} (hn : (vars.map Var.path).Nodup) (hg : ∀ v ∈ vars, good v.path = true) (W : Values) :
    ∃ P, Fits vars P ∧ ∀ v ∈ vars, ∀ i, values P v.path i = W v.path i := by
  obtain ⟨d, -, h2, h3⟩ := ApplyGrad.restore_rows (β := NDArray ℝ) vars Var.path (fun v => ⟨v.shape, W v.path⟩) hn (fun v hv => good_named _ (hg v hv))
    (fun v hv w hw => good_prefix _ _ (hg v hv) (hg w hw))
  have h4 : ∀ v ∈ vars, arrayAt d v.path = some ⟨v.shape, W v.path⟩ := fun v hv => (h3 _ _).2 ⟨v, hv, rfl, rfl⟩
  refine ⟨d, ⟨h2, ⟨hn, fun p => ⟨fun hp => ?_, fun hp => ?_⟩⟩, fun v hv a ha => ?_⟩, fun v hv i => ?_⟩
  · obtain ⟨v, hv, rfl⟩ := List.mem_map.1 hp
    rw [h4 v hv]; simp
  · obtain ⟨a, ha⟩ := Option.ne_none_iff_exists'.mp hp
    obtain ⟨v, hv, rfl, -⟩ := (h3 p a).1 ha
    exact List.mem_map_of_mem hv
  · rw [h4 v hv] at ha
    cases ha
    rfl
  · simp only [values, h4 v hv]

/-- **C117.** The starting points and the gradients of `C117_train` exist: for any values of the parameters there is a tree of the parameters created by
either network that has them, and for any loss a function that computes its gradients. -/
theorem C117_trees (cfg : InitScalable.Config) (hN : 0 < cfg.numActs) (hE : 0 < cfg.numEnc) (hD : 0 < cfg.numDec) (B n m : Nat) (es ds : Bool) (vars : List Var)
    (hv : InitScalable.init cfg [B, m] [B, n] es ds = some vars) :
    (∀ W : Values, ∃ P, Fits vars P ∧ ∀ v ∈ vars, ∀ i, values P v.path i = W v.path i) ∧
    ∀ loss : Nat → Values → ℝ, ∃ grad : Nat → Dict (NDArray ℝ) → Dict (NDArray ℝ), ∀ t P, IsGrad vars (loss t) P (grad t P) := by
  have hes : es = true → ds = true := by
    intro he
    by_contra hc
    rw [InitScalable.C116_segments _ _ _ es ds (.inl ⟨he, by simpa using hc⟩)] at hv
    cases hv
  have hgood : (vars.map Var.path).Nodup ∧ ∀ v ∈ vars, good v.path = true := by
    refine ⟨(InitScalable.C116_names cfg hN B n m es ds vars hv).1, ?_⟩
    cases hsc : cfg.scanLayers with
    | false =>
      rw [InitScalable.C116_separate cfg hsc hN B n m es ds hes] at hv
      cases hv
      intro v hv
      obtain ⟨l, hl, h1, -⟩ := (covers cfg.toConfig 0 (by omega) hE hD).of_left hv
      rw [← h1]
      exact (all_good _ _ l hl).1
    | true =>
      have hax : cfg.paramScanAxis ≤ 1 := by
        by_contra hd
        rw [InitScalable.C116_axis cfg hsc (by omega) hN] at hv
        cases hv
      rw [InitScalable.C116_stacked cfg hsc hax hN B n m es ds hes] at hv
      cases hv
      intro v hv
      obtain ⟨l, hl, h1⟩ := (covers cfg.toConfig _ hax hE hD).onto v hv
      rw [← h1]
      exact (all_good _ _ l hl).2
  refine ⟨tree_of hgood.1 hgood.2, fun loss => ?_⟩
  have h : ∀ t P, ∃ G, IsGrad vars (loss t) P G := by
    intro t P
    obtain ⟨G, h1, h2⟩ := tree_of hgood.1 hgood.2 fun p i => deriv (fun x => loss t (bump (values P) p i x)) 0
    exact ⟨G, h1, fun v hv i _ => h2 v hv i⟩
  choose grad hgrad using h
  exact ⟨grad, hgrad⟩

/-! ### Concrete cases -/

/-- Hyper parameters with momentum. -/
noncomputable def H0 : HP ℝ := ⟨none, some (1 / 2), 4 / 5, 0, true, none, some 1, none, none, 1, 1, false⟩

/-- A loss of the small network of `InitScalable` that depends on the embedding and on all layers of the encoder. -/
noncomputable def loss0 (t : Nat) (W : Values) : ℝ :=
  W ["token_embedder".toList, "embedding".toList] [0, 0] * t +
    (W ("encoder".toList :: layerName 0 :: ["pre_mlp_layer_norm".toList, "scale".toList]) [3] +
      2 * W ("encoder".toList :: layerName 1 :: ["pre_mlp_layer_norm".toList, "scale".toList]) [3]) ^ 2

/-- The same for stacked layers. -/
noncomputable def loss1 (t : Nat) (W : Values) : ℝ :=
  W ["token_embedder".toList, "embedding".toList] [0, 0] * t +
    (W ["encoder".toList, "encoder".toList, "pre_mlp_layer_norm".toList, "scale".toList] [3, 0] +
      2 * W ["encoder".toList, "encoder".toList, "pre_mlp_layer_norm".toList, "scale".toList] [3, 1]) ^ 2

theorem loss_same (t : Nat) (W W' : Values) (h : Same (InitScalable.small true).toConfig 1 W W') : loss0 t W = loss1 t W' := by
  have hb : InBox [8] [3] := List.Forall₂.cons (by decide) List.Forall₂.nil
  have hm : InitScalable.Spec.norm (InitScalable.small true).toConfig [] "pre_mlp_layer_norm" ∈ InitScalable.Spec.encLayer (InitScalable.small true).toConfig [] := by
    simp [InitScalable.Spec.encLayer]
  have e0 := h.plain (InitScalable.Spec.embedding (InitScalable.small true).toConfig) (by simp [plain]) [0, 0]
    (List.Forall₂.cons (by decide) (List.Forall₂.cons (by decide) List.Forall₂.nil))
  have e1 := h.enc 0 (by decide) _ hm [3] hb
  have e2 := h.enc 1 (by decide) _ hm [3] hb
  unfold loss0 loss1
  have f0 : W ["token_embedder".toList, "embedding".toList] [0, 0] = W' ["token_embedder".toList, "embedding".toList] [0, 0] := e0
  have f1 : W ("encoder".toList :: layerName 0 :: ["pre_mlp_layer_norm".toList, "scale".toList]) [3] =
    W' ["encoder".toList, "encoder".toList, "pre_mlp_layer_norm".toList, "scale".toList] [3, 0] := e1
  have f2 : W ("encoder".toList :: layerName 1 :: ["pre_mlp_layer_norm".toList, "scale".toList]) [3] =
    W' ["encoder".toList, "encoder".toList, "pre_mlp_layer_norm".toList, "scale".toList] [3, 1] := e2
  rw [f0, f1, f2]

/-- Trees with the same value everywhere. -/
theorem const_trees : ∃ (vars vars' : List Var) (P P' : Dict (NDArray ℝ)), InitScalable.init (InitScalable.small false) [3, 5] [3, 7] false true = some vars ∧
    InitScalable.init (InitScalable.small true) [3, 5] [3, 7] false true = some vars' ∧ Fits vars P ∧ Fits vars' P' ∧
    (∀ v ∈ vars, ∀ i, values P v.path i = 1) ∧ Same (InitScalable.small true).toConfig 1 (values P) (values P') ∧
    (∀ loss : Nat → Values → ℝ, ∃ grad : Nat → Dict (NDArray ℝ) → Dict (NDArray ℝ), ∀ t P, IsGrad vars (loss t) P (grad t P)) ∧
    ∀ loss : Nat → Values → ℝ, ∃ grad : Nat → Dict (NDArray ℝ) → Dict (NDArray ℝ), ∀ t P, IsGrad vars' (loss t) P (grad t P) := by
  have hv := InitScalable.C116_separate (InitScalable.small false) rfl (by decide) 3 7 5 false true (by decide)
  have hv' := InitScalable.C116_stacked (InitScalable.small true) rfl (by decide) (by decide) 3 7 5 false true (by decide)
  obtain ⟨t1, g1⟩ := C117_trees (InitScalable.small false) (by decide) (by decide) (by decide) 3 7 5 false true _ hv
  obtain ⟨t2, g2⟩ := C117_trees (InitScalable.small true) (by decide) (by decide) (by decide) 3 7 5 false true _ hv'
  obtain ⟨P, hP, hP1⟩ := t1 fun _ _ => 1
  obtain ⟨P', hP', hP1'⟩ := t2 fun _ _ => 1
  have hL := covers (InitScalable.small true).toConfig 1 (by decide) (by decide) (by decide)
  refine ⟨_, _, P, P', hv, hv', hP, hP', hP1, ?_, g1, g2⟩
  rw [← agree_same]
  intro l hl i _
  obtain ⟨v, hv, e1, -⟩ := hL.mem_left hl
  obtain ⟨v', hv', e1', -⟩ := hL.right l hl
  rw [← e1, ← e1']
  exact (hP1 v hv i).trans (hP1' v' hv' _).symm

/-- Networks, optimizer, losses, gradients and parameters that meet all hypotheses of `C117_train`, with clipping and momentum. -/
example : ∃ (vars vars' : List Var) (grad grad' : Nat → Dict (NDArray ℝ) → Dict (NDArray ℝ)) (P P' : Dict (NDArray ℝ)) (D D' : Def),
    InitScalable.init (InitScalable.small false) [3, 5] [3, 7] false true = some vars ∧
    InitScalable.init (InitScalable.small true) [3, 5] [3, 7] false true = some vars' ∧
    (∀ t P, IsGrad vars (loss0 t) P (grad t P)) ∧ (∀ t P, IsGrad vars' (loss1 t) P (grad' t P)) ∧
    (∀ v ∈ vars, ∀ i, values P v.path i = 1) ∧
    ∀ T, ∃ s s', train D H0 (some 1) (fun t => 1 / (t + 1)) grad P T = .ok s ∧ train D' H0 (some 1) (fun t => 1 / (t + 1)) grad' P' T = .ok s' ∧
      Same (InitScalable.small true).toConfig 1 (values s.1) (values s'.1) := by
  obtain ⟨vars, vars', P, P', hv, hv', hP, hP', hP1, hsame, g1, g2⟩ := const_trees
  obtain ⟨grad, hg⟩ := g1 loss0
  obtain ⟨grad', hg'⟩ := g2 loss1
  obtain ⟨D, D', -, -, h⟩ := C117_train (InitScalable.small true) (by decide) (by decide) (by decide) 3 7 5 false true _ _ hv hv' id
    ⟨true, none, 4, argsort⟩ rfl argsort_perm argsort_sorted (by decide) (by decide) (by decide) H0 (by norm_num [H0]) (by norm_num [H0]) (by simp [H0])
    (fun t => 1 / (t + 1)) (some 1) loss0 loss1 loss_same grad grad' (fun t P _ => hg t P) (fun t P _ => hg' t P) P P' hP hP' hsame
  refine ⟨_, _, grad, grad', P, P', D, D', hv, hv', hg, hg', hP1, fun T => ?_⟩
  obtain ⟨s, s', h1, h2, -, -, -, -, h3⟩ := h T
  exact ⟨s, s', h1, h2, h3⟩

/-- A row of one token. -/
def row0 : Transformer.Input 1 1 := ⟨fun _ => 3, fun _ => 0, fun _ => 5, none, none⟩

/-- Those of `C117_networks` are met by the loss that is the square of a logit, for the activations `x` and `x * x`. -/
example : ∃ (vars vars' : List Var) (grad grad' : Nat → Dict (NDArray ℝ) → Dict (NDArray ℝ)) (P P' : Dict (NDArray ℝ)) (D D' : Def),
    InitScalable.init (InitScalable.small false) [3, 5] [3, 7] false true = some vars ∧
    InitScalable.init (InitScalable.small true) [3, 5] [3, 7] false true = some vars' ∧
    (∀ t P, IsGrad vars (fun W => ((ScalableT5.apply Real.exp (fun n => Real.log n) (netOf (InitScalable.small true).toConfig 1 (fun x => x, [fun x => x * x]) W)
      row0).map fun y => (y 0 (5 : Fin 100)) ^ 2).getD 0) P (grad t P)) ∧
    ∀ T, ∃ s s', train D H0 (some 1) (fun t => 1 / (t + 1)) grad P T = .ok s ∧ train D' H0 (some 1) (fun t => 1 / (t + 1)) grad' P' T = .ok s' ∧
      ∀ {n m : Nat} (b : Transformer.Input n m),
        ScalableT5.scanApply Real.exp (fun n => Real.log n) (scannedOf (InitScalable.small true).toConfig 1 (fun x => x, [fun x => x * x]) (values s'.1) 1) b =
          ScalableT5.apply Real.exp (fun n => Real.log n) (netOf (InitScalable.small true).toConfig 1 (fun x => x, [fun x => x * x]) (values s.1)) b := by
  obtain ⟨vars, vars', P, P', hv, hv', hP, hP', -, hsame, g1, g2⟩ := const_trees
  let F : Nat → ((n m : Nat) → Transformer.Input n m → Option (Fin n → Transformer.Vec (InitScalable.small true).vocabSize)) → ℝ :=
    fun _ net => ((net 1 1 row0).map fun y => (y 0 (5 : Fin 100)) ^ 2).getD 0
  obtain ⟨grad, hg⟩ := g1 fun t W => F t fun _ _ b =>
    ScalableT5.apply Real.exp (fun n => Real.log n) (netOf (InitScalable.small true).toConfig 1 (fun x => x, [fun x => x * x]) W) b
  obtain ⟨grad', hg'⟩ := g2 fun t W => F t fun _ _ b =>
    ScalableT5.scanApply Real.exp (fun n => Real.log n) (scannedOf (InitScalable.small true).toConfig 1 (fun x => x, [fun x => x * x]) W 1) b
  obtain ⟨D, D', -, -, h⟩ := C117_networks (InitScalable.small true) (fun x => x, [fun x => x * x]) rfl (by decide) (by decide) 3 7 5 false true _ _ hv hv' id
    ⟨true, none, 4, argsort⟩ rfl argsort_perm argsort_sorted (by decide) (by decide) (by decide) H0 (by norm_num [H0]) (by norm_num [H0]) (by simp [H0])
    (fun t => 1 / (t + 1)) (some 1) Real.exp (fun n => Real.log n) 1 F grad grad' (fun t P _ => hg t P) (fun t P _ => hg' t P) P P' hP hP' hsame
  exact ⟨_, _, grad, grad', P, P', D, D', hv, hv', hg, h⟩

end Verif.ScanTrain
