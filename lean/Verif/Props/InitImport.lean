import Verif.Spec.InitImport
import Verif.Props.InitT5
import Verif.Lemmas.StateDict
import Verif.Props.Importer
import Verif.Props.AdafactorAxes
/-
C114, continued: the optimizer state of an initialised T5 network, and importing a Mesh TensorFlow checkpoint into it.
-/
namespace Verif.InitT5
open Verif.InitT5.Spec Verif.Importer.Spec

variable {cfg : Config}

/-! ### Adafactor -/

section
open Verif.AdafactorAxes Verif.Adafactor

theorem combo_rules (lower : Name → Name) : ∀ l ∈ combos, ∃ r, applyRulesTo lower standardRules (l.map some) = .ok r ∧ r.length = l.length ∧
    FactorDim.batch ∉ r := by
  intro l hl
  simp only [combos, List.mem_cons, List.not_mem_nil, or_false] at hl
  rcases hl with rfl | rfl | rfl | rfl | rfl | rfl | rfl | rfl <;> exact ⟨_, rfl, rfl, by decide⟩

theorem factorMap_ok (lower : Name → Name) (rules : List (Name × FVal)) : ∀ (axes : List (Name × Axes)),
    (∀ e ∈ axes, ∃ r, applyRulesTo lower rules e.2 = .ok r) → ∃ m, factorMapOf lower rules axes = .ok m ∧ m.map (·.1) = axes.map (·.1)
  | [], _ => ⟨[], rfl, rfl⟩
  | (p, a) :: rest, h => by
    obtain ⟨r, hr⟩ := h (p, a) List.mem_cons_self
    obtain ⟨m, hm, hn⟩ := factorMap_ok lower rules rest fun e he => h e (List.mem_cons_of_mem _ he)
    refine ⟨(p, r) :: m, ?_, by simp [hn]⟩
    simp only at hr
    simp only [factorMapOf, hr, hm]

variable {V : Type}

theorem initState_ok (O : Ops V) (D : Def) (momentum : Bool) : ∀ (params : List (Name × List Nat)),
    (∀ e ∈ params, ∃ st, initParam O D momentum e.1 e.2 = .ok st) → ∃ sts, initState O D momentum params = .ok sts
  | [], _ => ⟨[], rfl⟩
  | (p, s) :: rest, h => by
    obtain ⟨st, hst⟩ := h (p, s) List.mem_cons_self
    obtain ⟨sts, hsts⟩ := initState_ok O D momentum rest fun e he => h e (List.mem_cons_of_mem _ he)
    simp only at hst
    exact ⟨(p, st) :: sts, by simp only [initState, hst, hsts]⟩

/-- The shapes of the arrays of a parameter state. -/
def shapesOf (st : PState V) : Moment → List Nat
  | .m => st.m.shape
  | .v => st.v.shape
  | .vRow => st.vRow.shape
  | .vCol => st.vCol.shape

theorem path_sep (p : Param) : pathOf p ≠ [] ∧ ∀ c ∈ pathOf p, '/' ∉ c := by
  have hd : ∀ n, '/' ∉ Ckpt.dec n := fun n h => absurd (Ckpt.dec_digits n _ h) (by decide)
  have hl : ∀ n, '/' ∉ "layers_".toList ++ Ckpt.dec n := fun n h => (List.mem_append.1 h).elim (by decide) (hd n)
  have hside : ∀ e, '/' ∉ side e := fun e => by cases e <;> decide
  have hio : ∀ o num, '/' ∉ ioName o num := by
    intro o num
    cases o <;> cases num
    · exact (by decide : '/' ∉ "wi".toList)
    · exact fun h => (List.mem_append.1 h).elim (by decide) (hd _)
    · exact (by decide : '/' ∉ "wo".toList)
    · exact fun h => (List.mem_append.1 h).elim (by decide) (hd _)
  have hk : ∀ k : Attn, '/' ∉ k.name := fun k => by cases k <;> decide
  have hm : ∀ k : Mat, '/' ∉ k.name := fun k => by cases k <;> decide
  have hn : ∀ k : Norm, '/' ∉ k.name := fun k => by cases k <;> decide
  have h1 : ∀ a : Name, '/' ∉ a → ∀ c ∈ [a], '/' ∉ c := fun a ha c hc => by rw [List.mem_singleton.1 hc]; exact ha
  have h2 : ∀ (a : Name) (l : List Name), '/' ∉ a → (∀ c ∈ l, '/' ∉ c) → ∀ c ∈ a :: l, '/' ∉ c := fun a l ha hl c hc => by
    rcases List.mem_cons.1 hc with rfl | hc
    · exact ha
    · exact hl c hc
  cases p with
  | shared => exact ⟨by decide, by decide⟩
  | emb e => exact ⟨List.cons_ne_nil _ _, h2 _ _ (hside e) (by decide)⟩
  | rel e n => exact ⟨List.cons_ne_nil _ _, h2 _ _ (hside e) (by decide)⟩
  | attn e n k m => exact ⟨List.cons_ne_nil _ _, h2 _ _ (hside e) (h2 _ _ (hl n) (h2 _ _ (hk k) (h2 _ _ (hm m) (by decide))))⟩
  | mlp e n o num => exact ⟨List.cons_ne_nil _ _, h2 _ _ (hside e) (h2 _ _ (hl n) (h2 _ _ (by decide) (h2 _ _ (hio o num) (by decide))))⟩
  | ln e n k => exact ⟨List.cons_ne_nil _ _, h2 _ _ (hside e) (h2 _ _ (hl n) (h2 _ _ (hn k) (by decide)))⟩
  | finalLn e => cases e <;> exact ⟨by decide, by decide⟩
  | logits => exact ⟨by decide, by decide⟩

theorem shape_rank (p : Param) : (shapeOf cfg p).length = (axesOf p).length ∧ (shapeOf cfg p).length ≤ 2 := by
  cases p with
  | attn e n k m => cases m <;> simp [shapeOf, axesOf]
  | mlp e n o num => cases o <;> simp [shapeOf, axesOf]
  | _ => simp [shapeOf, axesOf]

/-- The state of a parameter for which the heuristic applies. -/
theorem moments_of (O : Ops V) (D : Def) (momentum : Bool) (path : Name) (s : List Nat) (hs : ∀ l, (D.argsort l).Perm (List.range l.length))
    (hsort : ∀ l i j, i < j → j < (D.argsort l).length → l.getD ((D.argsort l).getD i 0) 0 ≤ l.getD ((D.argsort l).getD j 0) 0)
    (hf : D.factored = true) (h2 : s.length ≤ 2)
    (hm : D.factorMap = none ∨ ∃ m r, D.factorMap = some m ∧ m path = some (.dims r) ∧ r.length = s.length ∧ FactorDim.batch ∉ r) :
    ∃ st, initParam O D momentum path s = .ok st ∧ MomentShapes D.minDim momentum s (shapesOf st) := by
  obtain ⟨d, hd, h3, h4⟩ := (C48_dims D path s hs hsort hf).2 h2 hm
  by_cases hc : s.length = 2 ∧ D.minDim ≤ s.getD 0 0 ∧ D.minDim ≤ s.getD 1 0
  · obtain ⟨a, b, rfl⟩ := List.length_eq_two.1 hc.1
    have hfac : Factored D.minDim [a, b] := ⟨a, b, rfl, hc.2.1, hc.2.2⟩
    rcases h3 hc with ⟨rfl, hle⟩ | ⟨rfl, hle⟩
    · refine ⟨_, by simp only [initParam, hd]; rfl, ⟨by cases momentum <;> rfl, ?_, fun h => absurd hfac h⟩⟩
      intro a' b' he _ _
      simp only [List.cons.injEq, and_true] at he
      obtain ⟨rfl, rfl⟩ := he
      simp only [List.getD_cons_zero, List.getD_cons_succ] at hle
      exact ⟨rfl, by rw [Nat.min_eq_left hle]; rfl, by rw [Nat.max_eq_right hle]; rfl⟩
    · refine ⟨_, by simp only [initParam, hd]; rfl, ⟨by cases momentum <;> rfl, ?_, fun h => absurd hfac h⟩⟩
      intro a' b' he _ _
      simp only [List.cons.injEq, and_true] at he
      obtain ⟨rfl, rfl⟩ := he
      simp only [List.getD_cons_zero, List.getD_cons_succ] at hle
      exact ⟨rfl, by rw [Nat.min_eq_right hle]; rfl, by rw [Nat.max_eq_left hle]; rfl⟩
  · rw [h4 hc] at hd
    refine ⟨_, by simp only [initParam, hd]; rfl, ⟨by cases momentum <;> rfl, ?_, fun _ => ⟨rfl, rfl, rfl⟩⟩⟩
    rintro a b rfl ha hb
    exact absurd ⟨rfl, ha, hb⟩ hc

/-- **C114.** Adafactor with the standard factor rules accepts the parameters: `set_param_axes` finds a rule for every one of them, and `init_state`
gives each a state of these shapes (a second moment in two factors if both dimensions reach the minimum). -/
theorem C114_adafactor {Has : Param → Prop} {vars : List Var} (h : Are cfg Has vars) (O : Ops V) (D0 : Def) (lower : Name → Name) (momentum : Bool)
    (hs : ∀ l, (D0.argsort l).Perm (List.range l.length))
    (hsort : ∀ l i j, i < j → j < (D0.argsort l).length → l.getD ((D0.argsort l).getD i 0) 0 ≤ l.getD ((D0.argsort l).getD j 0) 0)
    (hf : D0.factored = true) :
    ∃ D sts, setParamAxes lower (some standardRules) D0 (vars.map fun v => (StateDict.join v.path, v.axes.map some)) = .ok D ∧
      initState O D momentum (vars.map fun v => (StateDict.join v.path, v.shape)) = .ok sts ∧
      ∀ (i : Nat) (v : Var), vars[i]? = some v → ∃ st, sts[i]? = some (StateDict.join v.path, st) ∧
        MomentShapes D0.minDim momentum v.shape (shapesOf st) := by
  have hnd : ((vars.map fun v => (StateDict.join v.path, v.axes.map some)).map (·.1)).Nodup := by
    rw [List.map_map]
    have h1 : vars.Nodup := List.Nodup.of_map _ h.1
    refine List.Nodup.map_on ?_ h1
    intro v hv w hw he
    obtain ⟨p, hp, rfl⟩ := (h.2 v).1 hv
    obtain ⟨q, hq, rfl⟩ := (h.2 w).1 hw
    have : pathOf p = pathOf q := StateDict.join_inj _ _ (path_sep p).1 (path_sep q).1 (path_sep p).2 (path_sep q).2 he
    exact List.inj_on_of_nodup_map h.1 hv hw this
  obtain ⟨m, hmap, hnames⟩ := factorMap_ok lower standardRules (vars.map fun v => (StateDict.join v.path, v.axes.map some)) (by
    intro e he
    obtain ⟨v, hv, rfl⟩ := List.mem_map.1 he
    obtain ⟨p, -, rfl⟩ := (h.2 v).1 hv
    obtain ⟨r, hr, -⟩ := combo_rules lower _ (axes_combo p)
    exact ⟨r, hr⟩)
  have hD : ∃ D, setParamAxes lower (some standardRules) D0 (vars.map fun v => (StateDict.join v.path, v.axes.map some)) = .ok D ∧
      D.factored = true ∧ D.minDim = D0.minDim ∧ D.argsort = D0.argsort ∧ ∀ v ∈ vars, ∃ m r, D.factorMap = some m ∧
        m (StateDict.join v.path) = some (.dims r) ∧ r.length = v.shape.length ∧ FactorDim.batch ∉ r := by
    cases m with
    | nil =>
      refine ⟨{ D0 with factorMap := none }, by simp only [setParamAxes, hmap], hf, rfl, rfl, ?_⟩
      intro v hv
      have : vars = [] := by
        have hl := congrArg List.length hnames
        simp only [List.length_map, List.length_nil] at hl
        exact List.length_eq_zero_iff.1 hl.symm
      rw [this] at hv
      cases hv
    | cons e m =>
      refine ⟨{ D0 with factorMap := some fun p => ((e :: m).find? (fun e => e.1 = p)).map fun e => Rule.dims e.2 }, by simp only [setParamAxes, hmap], hf, rfl, rfl, ?_⟩
      intro v hv
      obtain ⟨r, hr, hfind⟩ := factorMap_get hmap hnd _ _ (List.mem_map.2 ⟨v, hv, rfl⟩)
      obtain ⟨p, -, rfl⟩ := (h.2 v).1 hv
      obtain ⟨r', hr', hl, hb⟩ := combo_rules lower _ (axes_combo p)
      have : r = r' := Except.ok.inj (hr.symm.trans hr')
      subst this
      refine ⟨_, r, rfl, ?_, by rw [hl]; exact (shape_rank p).1.symm, hb⟩
      simp only [hfind, Option.map_some]
  obtain ⟨D, h1, h2, h3, h4, h5⟩ := hD
  have hone : ∀ v ∈ vars, ∃ st, initParam O D momentum (StateDict.join v.path) v.shape = .ok st ∧
      MomentShapes D0.minDim momentum v.shape (shapesOf st) := by
    intro v hv
    have hr : v.shape.length ≤ 2 := by
      obtain ⟨p, -, rfl⟩ := (h.2 v).1 hv
      exact (shape_rank p).2
    rw [← h3]
    exact moments_of O D momentum _ _ (by rw [h4]; exact hs) (by rw [h4]; exact hsort) h2 hr (.inr (h5 v hv))
  obtain ⟨sts, hsts⟩ := initState_ok O D momentum (vars.map fun v => (StateDict.join v.path, v.shape)) (by
    intro e he
    obtain ⟨v, hv, rfl⟩ := List.mem_map.1 he
    obtain ⟨st, hst, -⟩ := hone v hv
    exact ⟨st, hst⟩)
  refine ⟨D, sts, h1, hsts, ?_⟩
  intro i v hv
  obtain ⟨st, hst, hi⟩ := (initState_get hsts).2 i (StateDict.join v.path) v.shape (by rw [List.getElem?_map, hv]; rfl)
  obtain ⟨st', hst', hsh⟩ := hone v (List.mem_of_getElem? hv)
  have : st = st' := Except.ok.inj (hi.symm.trans hst')
  subst this
  exact ⟨st, hst, hsh⟩

end
/-! ### Importing a checkpoint of the T5 code base -/

section
open Verif.Importer (s leafKey apply t5Rules addMissing correctRel updateStateDict restoreT5 stateLeaf converted)

variable {V : Type}

theorem mean_t5 (rms : Bool) (sl : Slot) {p : Param} (h : HasT5 cfg p) : meaning (tfVar false rms sl p) = some (.leaf sl p) := by
  cases h with
  | rel h => rename_i e; cases e <;> rfl
  | wi h _ => rename_i e _ _ _; cases e <;> rfl
  | wo h => rename_i e _; cases e <;> rfl
  | preMlp h => rename_i e _; cases e <;> rfl
  | finalLn e => cases e <;> rfl
  | _ => rfl

theorem mean_lm (rms : Bool) (sl : Slot) {p : Param} (h : HasLm cfg p) : meaning (tfVar true rms sl p) = some (.leaf sl p) := by
  cases h <;> rfl

/-- The name of a slot in the state dict. -/
def slotOf : Slot → Option Name
  | .param => none
  | .v => some (s "v")
  | .vRow => some (s "v_row")
  | .vCol => some (s "v_col")

theorem leaf_path (sl : Slot) (p : Param) : (Target.leaf sl p).path = leafKey (slotOf sl) p.path := by cases sl <;> rfl

/-- The optimizer arrays that a T5 checkpoint does not have. -/
def Lacks (cfg : Config) (minDim : Nat) (o : Moment) (p : Param) : Prop :=
  o = .m ∨ (o = .v ∧ Factored minDim (shapeOf cfg p)) ∨ ((o = .vRow ∨ o = .vCol) ∧ ¬ Factored minDim (shapeOf cfg p))

/-- Where the value of a leaf comes from. -/
def Src (cfg : Config) (lm rms : Bool) (minDim : Nat) (ph : V) (ckpt : List (Importer.Spec.Var × V)) (o : Option Name) (p : Param) (x : V) : Prop :=
  (∃ sl, o = slotOf sl ∧ (tfVar lm rms sl p, x) ∈ ckpt) ∨ (∃ w : Moment, o = some w.name ∧ Lacks cfg minDim w p ∧ x = ph)

theorem apply_wf (conv : V → V) (wb wl : Nat) (ckpt : List (Importer.Spec.Var × V)) (hm : ∀ e ∈ ckpt, (meaning e.1).isSome = true) {new}
    (h : apply (t5Rules conv) (ckpt.map fun e => (e.1.name wb wl, e.2)) = .ok new) : PyDict.WF new := by
  obtain ⟨new', h1, h2, -⟩ := Importer.C49_apply (t5Rules conv) (ckpt.map fun e => (e.1.name wb wl, e.2)) (by
    intro kv hkv
    obtain ⟨e, he, rfl⟩ := List.mem_map.mp hkv
    obtain ⟨t, ht⟩ := Option.isSome_iff_exists.mp (hm e he)
    obtain ⟨f, hf, hx⟩ := Importer.C49_t5_names conv wb wl e.1 e.2
    rw [ht] at hx
    exact ⟨f, _, hf, hx⟩)
  rw [← Except.ok.inj (h1.symm.trans h)]
  exact h2

theorem stateLeaf_target (p : List Name) : stateLeaf (s "target" :: p) = some (s "state" :: s "param_states" :: p) := by
  have h := Importer.after_append (s "target") []
  rw [List.append_nil] at h
  simp only [stateLeaf, h, List.append_nil]

theorem stateLeaf_state (p : List Name) : stateLeaf (s "state" :: p) = none := rfl

section
variable {vars : List Var} {lm rms : Bool} {Has : Param → Prop} {minDim : Nat} {shape : V → List Nat} {ckpt : List (Importer.Spec.Var × V)} {conv : V → V} {ph : V}

theorem tf_inj (hmean : ∀ sl p, Has p → meaning (tfVar lm rms sl p) = some (.leaf sl p)) {sl sl' : Slot} {p p' : Param} (hp : Has p) (hp' : Has p')
    (h : tfVar lm rms sl p = tfVar lm rms sl' p') : sl = sl' ∧ p = p' := by
  have := (hmean sl p hp).symm.trans ((congrArg meaning h).trans (hmean sl' p' hp'))
  simpa using this

theorem converted_tf (sl : Slot) (p : Param) (x : V) : converted conv (tfVar lm rms sl p) x = x := by cases p <;> rfl

/-- After the rules: the leaves of the variables. -/
theorem new_get (hmean : ∀ sl p, Has p → meaning (tfVar lm rms sl p) = some (.leaf sl p)) (hC : IsCkpt cfg lm rms Has minDim shape ckpt) (wb wl : Nat) :
    ∃ new, apply (t5Rules conv) (ckpt.map fun e => (e.1.name wb wl, e.2)) = .ok new ∧ PyDict.WF new ∧
      ∀ k y, PyDict.get new k = some y ↔ (k = Target.step.path ∧ ∃ x, (.step, x) ∈ ckpt ∧ y = conv x) ∨
        ∃ sl p, Has p ∧ k = leafKey (slotOf sl) p.path ∧ (tfVar lm rms sl p, y) ∈ ckpt := by
  have hform : ∀ e ∈ ckpt, e.1 = .step ∨ ∃ sl p, e.1 = tfVar lm rms sl p ∧ Has p := by
    intro e he
    rcases (hC.mem e.1).1 (List.mem_map_of_mem he) with h | ⟨sl, p, h, hp, -⟩
    · exact .inl h
    · exact .inr ⟨sl, p, h, hp⟩
  have hm : ∀ e ∈ ckpt, (meaning e.1).isSome = true := by
    intro e he
    rcases hform e he with h | ⟨sl, p, h, hp⟩
    · rw [h]; rfl
    · rw [h, hmean sl p hp]; rfl
  have hd : (ckpt.map fun e => meaning e.1).Nodup := by
    have : (ckpt.map fun e => meaning e.1) = (ckpt.map Prod.fst).map meaning := by rw [List.map_map]; rfl
    rw [this]
    refine List.Nodup.map_on ?_ hC.vars
    intro v hv w hw he
    obtain ⟨a, ha, rfl⟩ := List.mem_map.1 hv
    obtain ⟨b, hb, rfl⟩ := List.mem_map.1 hw
    rcases hform a ha with h1 | ⟨sl, p, h1, hp⟩ <;> rcases hform b hb with h2 | ⟨sl', p', h2, hp'⟩
    · rw [h1, h2]
    · rw [h1, h2, hmean _ _ hp'] at he; cases he
    · rw [h1, h2, hmean _ _ hp] at he; cases he
    · rw [h1, h2, hmean _ _ hp, hmean _ _ hp'] at he
      cases he
      rw [h1, h2]
  obtain ⟨new, h1, h2⟩ := Importer.C49_t5_import conv wb wl ckpt hm hd
  refine ⟨new, h1, apply_wf conv wb wl ckpt hm h1, ?_⟩
  intro k y
  rw [h2]
  constructor
  · rintro ⟨v, x, t, hv, ht, rfl, rfl⟩
    rcases hform _ hv with h | ⟨sl, p, h, hp⟩
    · simp only at h
      subst h
      cases ht
      exact .inl ⟨rfl, x, hv, rfl⟩
    · simp only at h
      subst h
      rw [hmean sl p hp] at ht
      cases ht
      exact .inr ⟨sl, p, hp, leaf_path sl p, by rw [converted_tf]; exact hv⟩
  · rintro (⟨rfl, x, hx, rfl⟩ | ⟨sl, p, hp, rfl, hy⟩)
    · exact ⟨.step, x, .step, hx, rfl, rfl, rfl⟩
    · exact ⟨_, y, _, hy, hmean sl p hp, (leaf_path sl p).symm, (converted_tf sl p y).symm⟩

theorem ckpt_has (hmean : ∀ sl p, Has p → meaning (tfVar lm rms sl p) = some (.leaf sl p)) (hC : IsCkpt cfg lm rms Has minDim shape ckpt)
    {p : Param} (hp : Has p) (sl : Slot) : (∃ x, (tfVar lm rms sl p, x) ∈ ckpt) ↔
      (sl = .param ∨ (sl = .v ∧ ¬ Factored minDim (shapeOf cfg p)) ∨ ((sl = .vRow ∨ sl = .vCol) ∧ Factored minDim (shapeOf cfg p))) := by
  have h1 : (∃ x, (tfVar lm rms sl p, x) ∈ ckpt) ↔ tfVar lm rms sl p ∈ ckpt.map Prod.fst := by simp
  rw [h1, hC.mem]
  constructor
  · rintro (h | ⟨sl', p', h, hp', hc⟩)
    · have := (hmean sl p hp).symm.trans (congrArg meaning h)
      cases this
    · obtain ⟨rfl, rfl⟩ := tf_inj hmean hp hp' h
      exact hc
  · intro hc
    exact .inr ⟨sl, p, rfl, hp, hc⟩

theorem slot_inj {sl sl' : Slot} {p p' : Param} (h : leafKey (slotOf sl) p.path = leafKey (slotOf sl') p'.path) : sl = sl' ∧ p = p' := by
  rw [← leaf_path, ← leaf_path] at h
  simpa using Importer.C49_keys_distinct _ _ h

theorem path_inj {p p' : Param} (h : p.path = p'.path) : p = p' :=
  (slot_inj (sl := .param) (sl' := .param) (congrArg (leafKey none) h)).2

theorem step_ne (o : Option Name) (p : Param) : Target.step.path ≠ leafKey o p.path := by
  intro h
  cases o with
  | none => simp [leafKey, Target.path, s] at h
  | some n => simp [leafKey, Target.path, s] at h

/-- After the missing slots have been added. -/
theorem missing_spec (hmean : ∀ sl p, Has p → meaning (tfVar lm rms sl p) = some (.leaf sl p)) (hC : IsCkpt cfg lm rms Has minDim shape ckpt)
    {new : List (List Name × V)} {y : V} (hnew : ∀ k y, PyDict.get new k = some y ↔ (k = Target.step.path ∧ ∃ x, (.step, x) ∈ ckpt ∧ y = conv x) ∨
        ∃ sl p, Has p ∧ k = leafKey (slotOf sl) p.path ∧ (tfVar lm rms sl p, y) ∈ ckpt) (k : List Name) :
    PyDict.get (addMissing ph new) k = some y ↔ (k = Target.step.path ∧ ∃ x, (.step, x) ∈ ckpt ∧ y = conv x) ∨
      ∃ o p, Has p ∧ k = leafKey o p.path ∧ Src cfg lm rms minDim ph ckpt o p y := by
  have hhas : ∀ sl p, Has p → (PyDict.has new (leafKey (slotOf sl) p.path) = true ↔ ∃ x, (tfVar lm rms sl p, x) ∈ ckpt) := by
    intro sl p hp
    unfold PyDict.has
    rw [Option.isSome_iff_exists]
    constructor
    · rintro ⟨y, hy⟩
      rcases (hnew _ _).1 hy with ⟨h, -⟩ | ⟨sl', p', hp', h, hx⟩
      · exact absurd h.symm (step_ne _ _)
      · obtain ⟨rfl, rfl⟩ := slot_inj h
        exact ⟨y, hx⟩
    · rintro ⟨x, hx⟩
      exact ⟨x, (hnew _ _).2 (.inr ⟨sl, p, hp, rfl, hx⟩)⟩
  have hE : (∃ k0 ∈ PyDict.keys new, ∃ sl, stateLeaf k0 = some sl ∧ (k = sl ++ [s "m"] ∨
        (PyDict.has new (sl ++ [s "v"]) = true ∧ (k = sl ++ [s "v_row"] ∨ k = sl ++ [s "v_col"])) ∨
        (PyDict.has new (sl ++ [s "v"]) = false ∧ PyDict.has new (sl ++ [s "v_row"]) = true ∧ k = sl ++ [s "v"]))) ↔
      ∃ (w : Moment) (p : Param), Has p ∧ k = leafKey (some w.name) p.path ∧ Lacks cfg minDim w p := by
    have hsl : ∀ p : Param, Has p → ((PyDict.has new ((s "state" :: s "param_states" :: p.path) ++ [s "v"]) = true ↔ ¬ Factored minDim (shapeOf cfg p)) ∧
        (PyDict.has new ((s "state" :: s "param_states" :: p.path) ++ [s "v_row"]) = true ↔ Factored minDim (shapeOf cfg p))) := by
      intro p hp
      have h1 := (hhas .v p hp).trans (ckpt_has hmean hC hp .v)
      have h2 := (hhas .vRow p hp).trans (ckpt_has hmean hC hp .vRow)
      exact ⟨h1.trans (by simp), h2.trans (by simp)⟩
    constructor
    · rintro ⟨k0, hk0, sl, hs, hc⟩
      obtain ⟨y0, hy0⟩ := Option.isSome_iff_exists.1 ((PyDict.get_isSome_iff _ _).2 hk0)
      rcases (hnew _ _).1 hy0 with ⟨rfl, -⟩ | ⟨sl', p, hp, rfl, hx⟩
      · cases (stateLeaf_state [s "step"]).symm.trans hs
      · cases sl' with
        | param =>
          have := (stateLeaf_target p.path).symm.trans hs
          cases this
          obtain ⟨hv, hr⟩ := hsl p hp
          rcases hc with rfl | ⟨h1, rfl | rfl⟩ | ⟨h1, h2, rfl⟩
          · exact ⟨.m, p, hp, rfl, .inl rfl⟩
          · exact ⟨.vRow, p, hp, rfl, .inr (.inr ⟨.inl rfl, hv.1 h1⟩)⟩
          · exact ⟨.vCol, p, hp, rfl, .inr (.inr ⟨.inr rfl, hv.1 h1⟩)⟩
          · exact ⟨.v, p, hp, rfl, .inr (.inl ⟨rfl, hr.1 h2⟩)⟩
        | v => cases (stateLeaf_state _).symm.trans hs
        | vRow => cases (stateLeaf_state _).symm.trans hs
        | vCol => cases (stateLeaf_state _).symm.trans hs
    · rintro ⟨w, p, hp, rfl, hl⟩
      obtain ⟨x, hx⟩ := (ckpt_has hmean hC hp .param).2 (.inl rfl)
      have hk0 : leafKey none p.path ∈ PyDict.keys new := by
        rw [← PyDict.get_isSome_iff, Option.isSome_iff_exists]
        exact ⟨x, (hnew _ _).2 (.inr ⟨.param, p, hp, rfl, hx⟩)⟩
      obtain ⟨hv, hr⟩ := hsl p hp
      refine ⟨_, hk0, _, stateLeaf_target p.path, ?_⟩
      rcases hl with rfl | ⟨rfl, hF⟩ | ⟨rfl | rfl, hF⟩
      · exact .inl rfl
      · refine .inr (.inr ⟨?_, hr.2 hF, rfl⟩)
        rw [← Bool.not_eq_true]
        exact fun h => hv.1 h hF
      · exact .inr (.inl ⟨hv.2 hF, .inl rfl⟩)
      · exact .inr (.inl ⟨hv.2 hF, .inr rfl⟩)
  have hms := Importer.C49_missing_slots ph new k
  rw [hE] at hms
  by_cases hc : ∃ (w : Moment) (p : Param), Has p ∧ k = leafKey (some w.name) p.path ∧ Lacks cfg minDim w p
  · rw [hms.1 hc]
    obtain ⟨w, p, hp, rfl, hl⟩ := hc
    constructor
    · intro h
      cases h
      exact .inr ⟨_, p, hp, rfl, .inr ⟨w, rfl, hl, rfl⟩⟩
    · rintro (⟨h, -⟩ | ⟨o, p', hp', h, hsrc⟩)
      · exact absurd h.symm (step_ne _ _)
      · obtain ⟨rfl, h2⟩ := Importer.leafKey_inj h
        cases path_inj h2
        rcases hsrc with ⟨sl, h3, hx⟩ | ⟨w', -, -, rfl⟩
        · exfalso
          have h4 := (ckpt_has hmean hC hp sl).1 ⟨_, hx⟩
          cases sl with
          | param => cases h3
          | v =>
            cases w <;> simp [slotOf, Moment.name, s] at h3
            simp only [reduceCtorEq, true_and, false_or, false_and, or_self, or_false] at h4
            simp [Lacks] at hl
            exact h4 hl
          | vRow =>
            cases w <;> simp [slotOf, Moment.name, s] at h3
            simp at h4
            simp [Lacks] at hl
            exact hl h4
          | vCol =>
            cases w <;> simp [slotOf, Moment.name, s] at h3
            simp at h4
            simp [Lacks] at hl
            exact hl h4
        · rfl
  · rw [hms.2 hc, hnew]
    constructor
    · rintro (h | ⟨sl, p, hp, h, hx⟩)
      · exact .inl h
      · exact .inr ⟨_, p, hp, h, .inl ⟨sl, rfl, hx⟩⟩
    · rintro (h | ⟨o, p, hp, h, ⟨sl, rfl, hx⟩ | ⟨w, rfl, hl, -⟩⟩)
      · exact .inl h
      · exact .inr ⟨sl, p, hp, h, hx⟩
      · exact absurd ⟨w, p, hp, h, hl⟩ hc

theorem shared_eq (p : Param) : Importer.sharedPath p = pathOf p := by cases p <;> rfl

/-- After the relative position biases have been moved. -/
theorem rel_spec (hgood : ∀ p, Has p → Good p) {d : List (List Name × V)} (hd : PyDict.WF d)
    (hget : ∀ k y, PyDict.get d k = some y ↔ (k = Target.step.path ∧ ∃ x, (.step, x) ∈ ckpt ∧ y = conv x) ∨
      ∃ o p, Has p ∧ k = leafKey o p.path ∧ Src cfg lm rms minDim ph ckpt o p y) :
    PyDict.WF (correctRel d) ∧ ∀ k y, (k, y) ∈ correctRel d ↔ (k = Target.step.path ∧ ∃ x, (.step, x) ∈ ckpt ∧ y = conv x) ∨
      ∃ o p, Has p ∧ k = leafKey o (pathOf p) ∧ Src cfg lm rms minDim ph ckpt o p y := by
  have hform : ∀ k y, (k, y) ∈ d → (k = Target.step.path ∧ ∃ x, (.step, x) ∈ ckpt ∧ y = conv x) ∨
      ∃ o p, Has p ∧ k = leafKey o p.path ∧ Src cfg lm rms minDim ph ckpt o p y := fun k y h => (hget k y).1 (PyDict.get_of_mem d hd k y h)
  obtain ⟨-, hrel⟩ := Importer.C49_relpos d hd (by
    intro k hk
    obtain ⟨⟨k', y⟩, hm, rfl⟩ := List.mem_map.1 hk
    rcases hform _ _ hm with ⟨h, -⟩ | ⟨o, p, -, h, -⟩
    · exact .inl h
    · exact .inr ⟨o, p, h⟩)
  obtain ⟨h1, h2, h3⟩ := hrel (by
    intro o e n hk
    obtain ⟨⟨k', y⟩, hm, he⟩ := List.mem_map.1 hk
    simp only at he
    subst he
    rcases hform _ _ hm with ⟨h, -⟩ | ⟨o', p, hp, h, -⟩
    · exact absurd h.symm (step_ne _ _)
    · obtain ⟨-, h5⟩ := Importer.leafKey_inj h
      have := path_inj h5
      subst this
      have := hgood _ hp
      revert this
      cases n with
      | zero => intro _; rfl
      | succ n => intro h; simp [Good] at h)
  have hstep : Importer.dropLayer Target.step.path = Target.step.path := rfl
  have hleaf : ∀ (o : Option Name) (p : Param), Importer.dropLayer (leafKey o p.path) = leafKey o (pathOf p) := by
    intro o p
    rw [(Importer.rel_of_leaf o p).2, shared_eq]
  have hsne : ∀ (o : Option Name) (p : Param), Target.step.path ≠ leafKey o (pathOf p) := by
    intro o p h
    cases o with
    | none => simp [leafKey, Target.path, s] at h
    | some n =>
      simp only [leafKey, Target.path, s, List.cons.injEq] at h
      exact absurd h.2.1 (by decide)
  have hkeys : ((d.map fun kv => (Importer.dropLayer kv.1, kv.2)).map Prod.fst).Nodup := by
    rw [List.map_map]
    refine List.Nodup.map_on ?_ (List.Nodup.of_map _ hd)
    rintro ⟨k, y⟩ hk ⟨k', y'⟩ hk' he
    have hkk : k = k' := by
      simp only [Function.comp] at he
      rcases hform _ _ hk with ⟨rfl, -⟩ | ⟨o, p, hp, rfl, -⟩ <;> rcases hform _ _ hk' with ⟨rfl, -⟩ | ⟨o', p', hp', rfl, -⟩
      · rfl
      · rw [hstep, hleaf] at he; exact absurd he (hsne _ _)
      · rw [hstep, hleaf] at he; exact absurd he.symm (hsne _ _)
      · rw [hleaf, hleaf] at he
        obtain ⟨rfl, h6⟩ := Importer.leafKey_inj he
        rw [pathOf_inj (hgood _ hp) (hgood _ hp') h6]
    subst hkk
    have e1 := PyDict.get_of_mem d hd _ _ hk
    have e2 := PyDict.get_of_mem d hd _ _ hk'
    rw [Option.some.inj (e1.symm.trans e2)]
  have hsub : ∀ e ∈ (d.map fun kv => (Importer.dropLayer kv.1, kv.2)), e ∈ correctRel d := by
    intro e he
    obtain ⟨⟨k, y⟩, hk, rfl⟩ := List.mem_map.1 he
    have hg := PyDict.get_of_mem d hd _ _ hk
    rcases hform _ _ hk with ⟨rfl, -⟩ | ⟨o, p, hp, rfl, -⟩
    · exact PyDict.mem_of_get _ _ _ (h2 y hg)
    · have := PyDict.mem_of_get _ _ _ (h1 o p y hg)
      rw [shared_eq] at this
      simp only [hleaf]
      exact this
  have hperm : (d.map fun kv => (Importer.dropLayer kv.1, kv.2)).Perm (correctRel d) :=
    ((List.Nodup.of_map _ hkeys).subperm hsub).perm_of_length_le (by rw [h3, List.length_map])
  refine ⟨(hperm.map Prod.fst).nodup_iff.1 hkeys, ?_⟩
  intro k y
  rw [← hperm.mem_iff, List.mem_map]
  constructor
  · rintro ⟨⟨k', y'⟩, hk, he⟩
    simp only [Prod.mk.injEq] at he
    obtain ⟨rfl, rfl⟩ := he
    rcases hform _ _ hk with ⟨rfl, h⟩ | ⟨o, p, hp, rfl, h⟩
    · exact .inl ⟨rfl, h⟩
    · exact .inr ⟨o, p, hp, hleaf o p, h⟩
  · rintro (⟨rfl, h⟩ | ⟨o, p, hp, rfl, h⟩)
    · exact ⟨(Target.step.path, y), PyDict.mem_of_get _ _ _ ((hget _ _).2 (.inl ⟨rfl, h⟩)), rfl⟩
    · exact ⟨(leafKey o p.path, y), PyDict.mem_of_get _ _ _ ((hget _ _).2 (.inr ⟨o, p, hp, rfl, h⟩)), by simp only [hleaf]⟩

theorem src_shape (hA : Are cfg Has vars) (hC : IsCkpt cfg lm rms Has minDim shape ckpt)
    (hmean : ∀ sl p, Has p → meaning (tfVar lm rms sl p) = some (.leaf sl p))
    {moments : Var → Moment → List Nat} (hM : ∀ v ∈ vars, MomentShapes minDim false v.shape (moments v)) (hph : shape ph = [1])
    {o : Option Name} {p : Param} {x : V} (hp : Has p) (h : Src cfg lm rms minDim ph ckpt o p x) :
    (o = none ∧ shape x = shapeOf cfg p) ∨ ∃ w : Moment, o = some w.name ∧ shape x = moments ⟨pathOf p, shapeOf cfg p, axesOf p⟩ w := by
  have hm := hM _ ((hA.2 _).2 ⟨p, hp, rfl⟩)
  rcases h with ⟨sl, rfl, hx⟩ | ⟨w, rfl, hl, rfl⟩
  · have hc := (ckpt_has hmean hC hp sl).1 ⟨_, hx⟩
    cases sl with
    | param => exact .inl ⟨rfl, hC.param p x hp hx⟩
    | v =>
      have hF : ¬ Factored minDim (shapeOf cfg p) := by simpa using hc
      exact .inr ⟨.v, rfl, by rw [hC.v p x hp hx, (hm.plain hF).1]⟩
    | vRow =>
      obtain ⟨a, b, he, ha, hb⟩ : Factored minDim (shapeOf cfg p) := by simpa using hc
      exact .inr ⟨.vRow, rfl, by rw [hC.vRow p x a b hp he hx, (hm.factored a b he ha hb).2.1]⟩
    | vCol =>
      obtain ⟨a, b, he, ha, hb⟩ : Factored minDim (shapeOf cfg p) := by simpa using hc
      exact .inr ⟨.vCol, rfl, by rw [hC.vCol p x a b hp he hx, (hm.factored a b he ha hb).2.2]⟩
  · refine .inr ⟨w, rfl, ?_⟩
    rw [hph]
    rcases hl with rfl | ⟨rfl, a, b, he, ha, hb⟩ | ⟨rfl | rfl, hF⟩
    · exact hm.first.symm
    · exact (hm.factored a b he ha hb).1.symm
    · exact (hm.plain hF).2.1.symm
    · exact (hm.plain hF).2.2.symm

/-- For every array of the state there is a value. -/
theorem src_total (hC : IsCkpt cfg lm rms Has minDim shape ckpt) (hmean : ∀ sl p, Has p → meaning (tfVar lm rms sl p) = some (.leaf sl p))
    {p : Param} (hp : Has p) (o : Option Moment) : ∃ x, Src cfg lm rms minDim ph ckpt (o.map Moment.name) p x := by
  have fromCkpt : ∀ sl, (sl = .param ∨ (sl = .v ∧ ¬ Factored minDim (shapeOf cfg p)) ∨ ((sl = .vRow ∨ sl = .vCol) ∧ Factored minDim (shapeOf cfg p))) →
      ∃ x, Src cfg lm rms minDim ph ckpt (slotOf sl) p x := fun sl h => by
    obtain ⟨x, hx⟩ := (ckpt_has hmean hC hp sl).2 h
    exact ⟨x, .inl ⟨sl, rfl, hx⟩⟩
  cases o with
  | none => exact fromCkpt .param (.inl rfl)
  | some w =>
    by_cases hF : Factored minDim (shapeOf cfg p)
    · cases w with
      | m => exact ⟨ph, .inr ⟨.m, rfl, .inl rfl, rfl⟩⟩
      | v => exact ⟨ph, .inr ⟨.v, rfl, .inr (.inl ⟨rfl, hF⟩), rfl⟩⟩
      | vRow => exact fromCkpt .vRow (.inr (.inr ⟨.inl rfl, hF⟩))
      | vCol => exact fromCkpt .vCol (.inr (.inr ⟨.inr rfl, hF⟩))
    · cases w with
      | m => exact ⟨ph, .inr ⟨.m, rfl, .inl rfl, rfl⟩⟩
      | v => exact fromCkpt .v (.inr (.inl ⟨rfl, hF⟩))
      | vRow => exact ⟨ph, .inr ⟨.vRow, rfl, .inr (.inr ⟨.inl rfl, hF⟩), rfl⟩⟩
      | vCol => exact ⟨ph, .inr ⟨.vCol, rfl, .inr (.inr ⟨.inr rfl, hF⟩), rfl⟩⟩

theorem import_all (hA : Are cfg Has vars) (hgood : ∀ p, Has p → Good p) (hC : IsCkpt cfg lm rms Has minDim shape ckpt)
    (hmean : ∀ sl p, Has p → meaning (tfVar lm rms sl p) = some (.leaf sl p))
    {moments : Var → Moment → List Nat} (hM : ∀ v ∈ vars, MomentShapes minDim false v.shape (moments v)) (hph : shape ph = [1])
    {state : List (List Name × List Nat)} (hS : IsState vars moments state) (hstep : ∀ x, (.step, x) ∈ ckpt → shape (conv x) = []) (wb wl : Nat) :
    ∃ r, restoreT5 (t5Rules conv) ph shape state true (ckpt.map fun e => (e.1.name wb wl, e.2)) = .ok r ∧
      Imported lm rms Has conv ph ckpt state r := by
  obtain ⟨new, h1, h2, h3⟩ := new_get (conv := conv) hmean hC wb wl
  have hwf : PyDict.WF (addMissing ph new) := PyDict.wf_update _ _ h2
  obtain ⟨h4, h5⟩ := rel_spec (conv := conv) (ph := ph) hgood hwf (fun k y => missing_spec hmean hC h3 k)
  have hsget : ∀ k s, (k, s) ∈ state → PyDict.get state k = some s := fun k s h => PyDict.get_of_mem state hS.keys k s h
  have hcheck : ∀ kv ∈ correctRel (addMissing ph new), PyDict.get state kv.1 = some (shape kv.2) := by
    rintro ⟨k, y⟩ hk
    refine hsget _ _ ((hS.mem _ _).2 ?_)
    rcases (h5 k y).1 hk with ⟨rfl, x, hx, rfl⟩ | ⟨o, p, hp, rfl, hsrc⟩
    · exact .inl ⟨rfl, hstep x hx⟩
    · have hv : (⟨pathOf p, shapeOf cfg p, axesOf p⟩ : Var) ∈ vars := (hA.2 _).2 ⟨p, hp, rfl⟩
      rcases src_shape hA hC hmean hM hph hp hsrc with ⟨rfl, h⟩ | ⟨w, rfl, h⟩
      · exact .inr (.inl ⟨_, hv, rfl, h⟩)
      · exact .inr (.inr ⟨_, hv, w, rfl, h⟩)
  refine ⟨correctRel (addMissing ph new), ?_, ⟨⟨?_, h4⟩, ?_, ?_, ?_, ?_, ?_, ?_, ?_⟩⟩
  · unfold restoreT5
    rw [h1]
    exact ((Importer.C49_state_dict shape state _ _).1).2 ⟨rfl, hcheck⟩
  · intro k
    constructor
    · intro hk
      obtain ⟨kv, hm, rfl⟩ := List.mem_map.1 hk
      exact List.mem_map.2 ⟨_, PyDict.mem_of_get _ _ _ (hcheck kv hm), rfl⟩
    · intro hk
      obtain ⟨⟨k', sh⟩, hm, rfl⟩ := List.mem_map.1 hk
      have : ∃ y, (k', y) ∈ correctRel (addMissing ph new) := by
        rcases (hS.mem _ _).1 hm with ⟨rfl, -⟩ | ⟨v, hv, rfl, -⟩ | ⟨v, hv, w, rfl, -⟩
        · have : (Importer.Spec.Var.step) ∈ ckpt.map Prod.fst := (hC.mem _).2 (.inl rfl)
          obtain ⟨⟨v, x⟩, hx, he⟩ := List.mem_map.1 this
          simp only at he
          subst he
          exact ⟨conv x, (h5 _ _).2 (.inl ⟨rfl, x, hx, rfl⟩)⟩
        · obtain ⟨p, hp, rfl⟩ := (hA.2 v).1 hv
          obtain ⟨x, hx⟩ := src_total (ph := ph) hC hmean hp none
          exact ⟨x, (h5 _ _).2 (.inr ⟨_, p, hp, rfl, hx⟩)⟩
        · obtain ⟨p, hp, rfl⟩ := (hA.2 v).1 hv
          obtain ⟨x, hx⟩ := src_total (ph := ph) hC hmean hp (some w)
          exact ⟨x, (h5 _ _).2 (.inr ⟨_, p, hp, rfl, hx⟩)⟩
      obtain ⟨y, hy⟩ := this
      exact List.mem_map.2 ⟨_, hy, rfl⟩
  · intro x hx
    exact (h5 _ _).2 (.inl ⟨rfl, x, hx, rfl⟩)
  · intro p x hp hx
    exact (h5 _ _).2 (.inr ⟨none, p, hp, rfl, .inl ⟨.param, rfl, hx⟩⟩)
  · intro p x hp hx
    exact (h5 _ _).2 (.inr ⟨_, p, hp, rfl, .inl ⟨.v, rfl, hx⟩⟩)
  · intro p x hp hx
    exact (h5 _ _).2 (.inr ⟨_, p, hp, rfl, .inl ⟨.vRow, rfl, hx⟩⟩)
  · intro p x hp hx
    exact (h5 _ _).2 (.inr ⟨_, p, hp, rfl, .inl ⟨.vCol, rfl, hx⟩⟩)
  · intro p hp
    exact (h5 _ _).2 (.inr ⟨_, p, hp, rfl, .inr ⟨.m, rfl, .inl rfl, rfl⟩⟩)
  · intro k y hk
    rcases (h5 k y).1 hk with ⟨rfl, h⟩ | ⟨o, p, hp, rfl, hsrc⟩
    · exact .inl ⟨rfl, h⟩
    · refine .inr ⟨?_, ?_⟩
      · intro h
        cases o with
        | none => simp [leafKey, s] at h
        | some n =>
          simp only [leafKey, s, List.cons.injEq] at h
          exact absurd h.2.1 (by decide)
      · rcases hsrc with ⟨sl, rfl, hx⟩ | ⟨w, rfl, -, rfl⟩
        · exact .inl ⟨sl, p, hp, hx⟩
        · exact .inr ⟨rfl, rfl⟩

end

/-- **C114.** A checkpoint of the T5 code base for the same architecture is imported completely into the state of an initialised encoder-decoder network
with Adafactor: nothing in the checkpoint is left over or has another shape, and no array of the state is left without a value. -/
theorem C114_import_t5 {B n m : Nat} {es ds : Bool} {vars : List Var} (hi : initT5 cfg [B, m] [B, n] es ds = some vars) (ha : 0 < cfg.numActs)
    (hs : es = true → ds = true) {minDim : Nat} {moments : Var → Moment → List Nat} (hM : ∀ v ∈ vars, MomentShapes minDim false v.shape (moments v))
    {state : List (List Name × List Nat)} (hS : IsState vars moments state) {rms : Bool} {shape : V → List Nat} {ckpt : List (Importer.Spec.Var × V)}
    (hC : IsCkpt cfg false rms (HasT5 cfg) minDim shape ckpt) {conv : V → V} {ph : V} (hph : shape ph = [1])
    (hstep : ∀ x, (.step, x) ∈ ckpt → shape (conv x) = []) (wb wl : Nat) :
    ∃ r, restoreT5 (t5Rules conv) ph shape state true (ckpt.map fun e => (e.1.name wb wl, e.2)) = .ok r ∧
      Imported false rms (HasT5 cfg) conv ph ckpt state r := by
  obtain ⟨vars', hA, hall⟩ := C114_t5 cfg ha
  have : vars' = vars := Option.some.inj ((hall B n m es ds hs).symm.trans hi)
  subst this
  exact import_all hA (fun _ => good_t5) hC (fun sl p => mean_t5 rms sl) hM hph hS hstep wb wl

/-- **C114.** The same for the decoder-only network and a checkpoint of a decoder-only T5 model. -/
theorem C114_import_lm {B n : Nat} {vars : List Var} (hi : initLm cfg [B, n] = some vars) (ha : 0 < cfg.numActs)
    {minDim : Nat} {moments : Var → Moment → List Nat} (hM : ∀ v ∈ vars, MomentShapes minDim false v.shape (moments v))
    {state : List (List Name × List Nat)} (hS : IsState vars moments state) {rms : Bool} {shape : V → List Nat} {ckpt : List (Importer.Spec.Var × V)}
    (hC : IsCkpt cfg true rms (HasLm cfg) minDim shape ckpt) {conv : V → V} {ph : V} (hph : shape ph = [1])
    (hstep : ∀ x, (.step, x) ∈ ckpt → shape (conv x) = []) (wb wl : Nat) :
    ∃ r, restoreT5 (t5Rules conv) ph shape state true (ckpt.map fun e => (e.1.name wb wl, e.2)) = .ok r ∧
      Imported true rms (HasLm cfg) conv ph ckpt state r := by
  obtain ⟨vars', hA, hall⟩ := C114_lm cfg ha
  have : vars' = vars := Option.some.inj ((hall B n).symm.trans hi)
  subst this
  exact import_all hA (fun _ => good_of_lm) hC (fun sl p => mean_lm rms sl) hM hph hS hstep wb wl

/-! ### The hypotheses can be met -/

/-- The state dict of given variables. -/
def stateOf (vars : List Var) (moments : Var → Moment → List Nat) : List (List Name × List Nat) :=
  (["state".toList, "step".toList], []) :: vars.flatMap fun v =>
    ("target".toList :: v.path, v.shape) :: [Moment.m, .v, .vRow, .vCol].map fun o => ("state".toList :: "param_states".toList :: (v.path ++ [o.name]), moments v o)

theorem stateOf_is {Has : Param → Prop} {vars : List Var} (hA : Are cfg Has vars) (moments : Var → Moment → List Nat) :
    IsState vars moments (stateOf vars moments) := by
  have hpar : ∀ (v : Var) (o : Moment), leafKey (some o.name) v.path = "state".toList :: "param_states".toList :: (v.path ++ [o.name]) := fun v o => rfl
  have htar : ∀ v : Var, leafKey none v.path = "target".toList :: v.path := fun v => rfl
  constructor
  · unfold stateOf
    rw [List.map_cons, List.nodup_cons, List.map_flatMap]
    refine ⟨?_, ?_⟩
    · intro h
      obtain ⟨v, hv, h⟩ := List.mem_flatMap.1 h
      simp only [List.map_cons, List.map_nil, List.mem_cons, List.not_mem_nil, or_false, List.cons.injEq] at h
      obtain ⟨h, -⟩ | ⟨-, h, -⟩ | ⟨-, h, -⟩ | ⟨-, h, -⟩ | ⟨-, h, -⟩ := h <;> exact absurd h (by decide)
    · rw [List.nodup_flatMap]
      constructor
      · intro v hv
        simp only [List.map_cons, List.map_nil, ← hpar, ← htar]
        have : ([none, some Moment.m.name, some Moment.v.name, some Moment.vRow.name, some Moment.vCol.name].map fun o => leafKey o v.path).Nodup :=
          List.Nodup.map (fun a b h => (Importer.leafKey_inj h).1) (by decide)
        exact this
      · refine List.Pairwise.imp_of_mem ?_ (List.Nodup.of_map _ hA.1)
        intro v w hv hw hne x hx hx'
        have key : ∀ v : Var, x ∈ List.map Prod.fst (("target".toList :: v.path, v.shape) :: List.map (fun o => ("state".toList :: "param_states".toList ::
            (v.path ++ [o.name]), moments v o)) [Moment.m, .v, .vRow, .vCol]) → ∃ o, x = leafKey o v.path := by
          intro v h
          simp only [List.map_cons, List.map_nil, List.mem_cons, List.not_mem_nil, or_false, ← hpar, ← htar] at h
          rcases h with h | h | h | h | h <;> exact ⟨_, h⟩
        obtain ⟨o, ho⟩ := key v hx
        obtain ⟨o', ho'⟩ := key w hx'
        exact hne (List.inj_on_of_nodup_map hA.1 hv hw (Importer.leafKey_inj (ho.symm.trans ho')).2)
  · intro k sh
    simp only [stateOf, List.mem_cons, List.mem_flatMap, Prod.mk.injEq, List.mem_map, List.not_mem_nil, or_false]
    constructor
    · rintro (h | ⟨v, hv, h | ⟨o, -, rfl, rfl⟩⟩)
      · exact .inl h
      · exact .inr (.inl ⟨v, hv, h⟩)
      · exact .inr (.inr ⟨v, hv, o, rfl, rfl⟩)
    · rintro (h | ⟨v, hv, h⟩ | ⟨v, hv, o, rfl, rfl⟩)
      · exact .inl h
      · exact .inr ⟨v, hv, .inl h⟩
      · exact .inr ⟨v, hv, .inr ⟨o, by cases o <;> simp, rfl, rfl⟩⟩

instance (minDim : Nat) (shape : List Nat) : Decidable (Factored minDim shape) :=
  match shape with
  | [a, b] => decidable_of_iff (minDim ≤ a ∧ minDim ≤ b) ⟨fun h => ⟨a, b, rfl, h.1, h.2⟩, by rintro ⟨_, _, he, h⟩; cases he; exact h⟩
  | [] => isFalse (by rintro ⟨_, _, h, -⟩; cases h)
  | [_] => isFalse (by rintro ⟨_, _, h, -⟩; cases h)
  | _ :: _ :: _ :: _ => isFalse (by rintro ⟨_, _, h, -⟩; cases h)

/-- The state shapes of a parameter without momentum. -/
def momentsOf (minDim : Nat) (v : Var) : Moment → List Nat
  | .m => [1]
  | .v => if Factored minDim v.shape then [1] else v.shape
  | .vRow => if Factored minDim v.shape then [v.shape.min?.getD 0] else [1]
  | .vCol => if Factored minDim v.shape then [v.shape.max?.getD 0] else [1]

theorem momentsOf_are (minDim : Nat) (v : Var) : MomentShapes minDim false v.shape (momentsOf minDim v) := by
  refine ⟨rfl, ?_, ?_⟩
  · intro a b he ha hb
    have hF : Factored minDim v.shape := ⟨a, b, he, ha, hb⟩
    refine ⟨if_pos hF, (if_pos hF).trans ?_, (if_pos hF).trans ?_⟩ <;> rw [he] <;> rfl
  · intro hF
    simp only [momentsOf, if_neg hF, and_self]

/-- The slots that the checkpoint has. -/
def slots (minDim : Nat) (shape : List Nat) : List (Slot × List Nat) :=
  (.param, shape) :: if Factored minDim shape then [(.vRow, [shape.min?.getD 0]), (.vCol, [shape.max?.getD 0])] else [(.v, shape)]

/-- A checkpoint whose values are their shapes. -/
def ckptOf (cfg : Config) (lm rms : Bool) (minDim : Nat) (ps : List Param) : List (Importer.Spec.Var × List Nat) :=
  (.step, []) :: ps.flatMap fun p => (slots minDim (shapeOf cfg p)).map fun e => (tfVar lm rms e.1 p, e.2)

theorem mem_slots {minDim : Nat} {shape : List Nat} {sl : Slot} {x : List Nat} (h : (sl, x) ∈ slots minDim shape) :
    (sl = .param ∧ x = shape) ∨ (sl = .v ∧ ¬ Factored minDim shape ∧ x = shape) ∨
      (Factored minDim shape ∧ ((sl = .vRow ∧ x = [shape.min?.getD 0]) ∨ (sl = .vCol ∧ x = [shape.max?.getD 0]))) := by
  unfold slots at h
  by_cases hF : Factored minDim shape
  · simp only [if_pos hF, List.mem_cons, List.not_mem_nil, or_false, Prod.mk.injEq] at h
    rcases h with h | h | h
    · exact .inl h
    · exact .inr (.inr ⟨hF, .inl h⟩)
    · exact .inr (.inr ⟨hF, .inr h⟩)
  · simp only [if_neg hF, List.mem_cons, List.not_mem_nil, or_false, Prod.mk.injEq] at h
    rcases h with h | h
    · exact .inl h
    · exact .inr (.inl ⟨h.1, hF, h.2⟩)

theorem ckptOf_is {lm rms : Bool} {Has : Param → Prop} {ps : List Param} (hn : ps.Nodup) (hps : ∀ p, p ∈ ps ↔ Has p) (minDim : Nat)
    (hmean : ∀ sl p, Has p → meaning (tfVar lm rms sl p) = some (.leaf sl p)) :
    IsCkpt cfg lm rms Has minDim id (ckptOf cfg lm rms minDim ps) := by
  have hback : ∀ {sl p x}, Has p → (tfVar lm rms sl p, x) ∈ ckptOf cfg lm rms minDim ps → (sl, x) ∈ slots minDim (shapeOf cfg p) := by
    intro sl p x hp h
    rcases List.mem_cons.1 h with h | h
    · have : meaning (tfVar lm rms sl p) = meaning .step := congrArg (fun e => meaning e.1) h
      rw [hmean sl p hp] at this
      cases this
    · obtain ⟨q, hq, h⟩ := List.mem_flatMap.1 h
      obtain ⟨⟨sl', x'⟩, he, h⟩ := List.mem_map.1 h
      simp only [Prod.mk.injEq] at h
      obtain ⟨h1, rfl⟩ := h
      obtain ⟨rfl, rfl⟩ := tf_inj hmean ((hps q).1 hq) hp h1
      exact he
  refine ⟨?_, ?_, ?_, ?_, ?_, ?_⟩
  · unfold ckptOf
    rw [List.map_cons, List.nodup_cons, List.map_flatMap]
    constructor
    · intro h
      obtain ⟨p, hp, h⟩ := List.mem_flatMap.1 h
      rw [List.map_map] at h
      obtain ⟨e, -, h⟩ := List.mem_map.1 h
      have := (congrArg meaning h).symm.trans (hmean e.1 p ((hps p).1 hp))
      cases this
    · rw [List.nodup_flatMap]
      constructor
      · intro p hp
        rw [List.map_map]
        have h1 : ((slots minDim (shapeOf cfg p)).map Prod.fst).Nodup := by
          unfold slots
          by_cases hF : Factored minDim (shapeOf cfg p)
          · rw [if_pos hF]; simp
          · rw [if_neg hF]; simp
        have h2 := List.Nodup.map_on (f := fun sl => tfVar lm rms sl p) (fun a _ b _ h => (tf_inj hmean ((hps p).1 hp) ((hps p).1 hp) h).1) h1
        rw [List.map_map] at h2
        exact h2
      · refine List.Pairwise.imp_of_mem ?_ hn
        intro p q hp hq hne x hx hx'
        beta_reduce at hx hx'
        rw [List.map_map] at hx hx'
        obtain ⟨e, -, rfl⟩ := List.mem_map.1 hx
        obtain ⟨e', -, h⟩ := List.mem_map.1 hx'
        exact hne (tf_inj hmean ((hps p).1 hp) ((hps q).1 hq) h.symm).2
  · intro v
    unfold ckptOf
    rw [List.map_cons, List.mem_cons, List.map_flatMap, List.mem_flatMap]
    constructor
    · rintro (h | ⟨p, hp, h⟩)
      · exact .inl h
      · rw [List.map_map] at h
        obtain ⟨⟨sl, x⟩, he, rfl⟩ := List.mem_map.1 h
        refine .inr ⟨sl, p, rfl, (hps p).1 hp, ?_⟩
        rcases mem_slots he with h | h | ⟨hF, h | h⟩
        · exact .inl h.1
        · exact .inr (.inl ⟨h.1, h.2.1⟩)
        · exact .inr (.inr ⟨.inl h.1, hF⟩)
        · exact .inr (.inr ⟨.inr h.1, hF⟩)
    · rintro (h | ⟨sl, p, rfl, hp, h⟩)
      · exact .inl h
      · refine .inr ⟨p, (hps p).2 hp, ?_⟩
        rw [List.map_map]
        have : ∃ x, (sl, x) ∈ slots minDim (shapeOf cfg p) := by
          unfold slots
          rcases h with rfl | ⟨rfl, hF⟩ | ⟨rfl | rfl, hF⟩
          · exact ⟨_, List.mem_cons_self⟩
          · exact ⟨shapeOf cfg p, by simp [if_neg hF]⟩
          · exact ⟨[(shapeOf cfg p).min?.getD 0], by simp [if_pos hF]⟩
          · exact ⟨[(shapeOf cfg p).max?.getD 0], by simp [if_pos hF]⟩
        obtain ⟨x, hx⟩ := this
        exact List.mem_map.2 ⟨_, hx, rfl⟩
  · intro p x hp hx
    rcases mem_slots (hback hp hx) with h | h | ⟨-, h | h⟩
    · exact h.2
    all_goals cases h.1
  · intro p x hp hx
    rcases mem_slots (hback hp hx) with h | h | ⟨-, h | h⟩
    · cases h.1
    · exact h.2.2
    all_goals cases h.1
  · intro p x a b hp he hx
    rcases mem_slots (hback hp hx) with h | h | ⟨-, h | h⟩
    · cases h.1
    · cases h.1
    · rw [h.2, he]; rfl
    · cases h.1
  · intro p x a b hp he hx
    rcases mem_slots (hback hp hx) with h | h | ⟨-, h | h⟩
    · cases h.1
    · cases h.1
    · cases h.1
    · rw [h.2, he]; rfl

/-- A checkpoint in which the large matrices have factored moments and the small ones do not. -/
example : ∃ vars r, initT5 demo [3, 5] [3, 7] false false = some vars ∧
    IsCkpt demo false true (HasT5 demo) 5 id (ckptOf demo false true 5 (adds [] (encCalls demo ++ decCalls demo))) ∧
    restoreT5 (t5Rules fun _ => []) [1] id (stateOf vars (momentsOf 5)) true
      ((ckptOf demo false true 5 (adds [] (encCalls demo ++ decCalls demo))).map fun e => (e.1.name 3 3, e.2)) = .ok r := by
  obtain ⟨vars, hA, hall⟩ := C114_t5 demo (by decide)
  have hC : IsCkpt demo false true (HasT5 demo) 5 id (ckptOf demo false true 5 (adds [] (encCalls demo ++ decCalls demo))) :=
    ckptOf_is (nodup_adds _ _ List.nodup_nil) mem_t5 5 fun sl p => mean_t5 true sl
  obtain ⟨r, hr, -⟩ := C114_import_t5 (hall 3 7 5 false false (by simp)) (by decide) (by simp) (fun v _ => momentsOf_are 5 v) (stateOf_is hA _) hC
    (conv := fun _ => []) (ph := [1]) rfl (fun _ _ => rfl) 3 3
  exact ⟨vars, r, hall 3 7 5 false false (by simp), hC, hr⟩

example : ∃ vars r, initLm demo [3, 5] = some vars ∧ IsCkpt demo true false (HasLm demo) 5 id (ckptOf demo true false 5 (adds [] (lmCalls demo))) ∧
    restoreT5 (t5Rules fun _ => []) [1] id (stateOf vars (momentsOf 5)) true
      ((ckptOf demo true false 5 (adds [] (lmCalls demo))).map fun e => (e.1.name 3 3, e.2)) = .ok r := by
  obtain ⟨vars, hA, hall⟩ := C114_lm demo (by decide)
  have hC : IsCkpt demo true false (HasLm demo) 5 id (ckptOf demo true false 5 (adds [] (lmCalls demo))) :=
    ckptOf_is (nodup_adds _ _ List.nodup_nil) mem_lm 5 fun sl p => mean_lm false sl
  obtain ⟨r, hr, -⟩ := C114_import_lm (hall 3 5) (by decide) (fun v _ => momentsOf_are 5 v) (stateOf_is hA _) hC
    (conv := fun _ => []) (ph := [1]) rfl (fun _ _ => rfl) 3 3
  exact ⟨vars, r, hall 3 5, hC, hr⟩

/-- `argsort` by a stable sort of the positions. -/
def argsort (l : List Nat) : List Nat := (List.range l.length).mergeSort fun i j => l.getD i 0 ≤ l.getD j 0

theorem argsort_perm (l : List Nat) : (argsort l).Perm (List.range l.length) := List.mergeSort_perm _ _

theorem argsort_sorted (l : List Nat) (i j : Nat) (h : i < j) (hj : j < (argsort l).length) :
    l.getD ((argsort l).getD i 0) 0 ≤ l.getD ((argsort l).getD j 0) 0 := by
  have hs : (argsort l).Pairwise fun a b => (decide (l.getD a 0 ≤ l.getD b 0)) = true :=
    List.pairwise_mergeSort (fun a b c h1 h2 => by simp only [decide_eq_true_eq] at *; omega) (fun a b => by simp only [Bool.or_eq_true, decide_eq_true_eq]; omega) _
  have := List.pairwise_iff_getElem.1 hs i j (by omega) hj h
  simpa [List.getD_eq_getElem?_getD, List.getElem?_eq_getElem hj, List.getElem?_eq_getElem (show i < (argsort l).length by omega)] using this

/-- Adafactor on the demo network. -/
example : ∃ vars D sts, initT5 demo [3, 5] [3, 7] false false = some vars ∧
    AdafactorAxes.setParamAxes id (some AdafactorAxes.standardRules) ⟨true, none, 5, argsort⟩
      (vars.map fun v => (StateDict.join v.path, v.axes.map some)) = .ok D ∧
    AdafactorAxes.initState Adafactor.intOps D false (vars.map fun v => (StateDict.join v.path, v.shape)) = .ok sts ∧ sts.length = vars.length := by
  obtain ⟨vars, hA, hall⟩ := C114_t5 demo (by decide)
  obtain ⟨D, sts, h1, h2, -⟩ := C114_adafactor hA Adafactor.intOps ⟨true, none, 5, argsort⟩ id false argsort_perm argsort_sorted rfl
  exact ⟨vars, D, sts, hall 3 7 5 false false (by simp), h1, h2, by rw [(AdafactorAxes.initState_get h2).1, List.length_map]⟩

end
end Verif.InitT5
