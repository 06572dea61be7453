import Verif.Lemmas.Adafactor
/-
C48: what the Adafactor optimizer computes, and what it leaves alone.
-/
namespace Verif.Adafactor
open Verif.ND Spec

variable {V : Type}

/-- C48: one update of one parameter.  For any shape, any factorization rule and any scalar arithmetic: if the accumulators have the
shapes `init_param_state` gave them, the update succeeds, the new parameter and the new accumulators have the same shapes as before,
and every element is what the definition of Adafactor says: second moments averaged over the column (row) dimensions, the row moment
divided by its mean along the row dimensions, update clipping and parameter scale over the averaging dimensions, momentum, weight
decay, and the NaN guard last. -/
theorem C48_update (O : Ops V) (D : Def) (H : HP V) (step : Int) (path : List Char) (param grad : NDArray V)
    (st init : PState V) (lr : V) (hs : ∀ l, (D.argsort l).Perm (List.range l.length))
    (hlr : H.learningRate = some lr) (hg : grad.shape = param.shape)
    (hi : initParam O D H.beta1.isSome path param.shape = .ok init) (hst : ShapesOf st init) :
    ∃ avg d np st', dimsFor D path param.shape = .ok (avg, d) ∧
      applyParam O D H step path param st grad = .ok (np, st') ∧ np.shape = param.shape ∧ ShapesOf st' init ∧
      (∀ d1 d0, d = .dims d1 d0 → ∀ i, InBox param.shape i →
        let decay := O.decayPow (step - H.stepOffset) H.decayRate
        let y := yFactored O H decay param.shape d1 d0 st.vRow.get st.vCol.get grad.get
        np.get i = O.castP (keep O H (param.get i) (newParam O H lr param.shape avg param.get st.m.get y i)) ∧
        st'.vRow.get (del d0 i) = keep O H (st.vRow.get (del d0 i)) (rowEst O H decay param.shape d0 st.vRow.get grad.get i) ∧
        st'.vCol.get (del d1 i) = keep O H (st.vCol.get (del d1 i)) (rowEst O H decay param.shape d1 st.vCol.get grad.get i) ∧
        (H.beta1.isSome = true → st'.m.get i =
          keep O H (st.m.get i) (O.castM (subtrahend O H lr param.shape avg param.get st.m.get y i)))) ∧
      ((∀ d1 d0, d ≠ .dims d1 d0) → ∀ i, InBox param.shape i →
        let decay := O.decayPow (step - H.stepOffset) H.decayRate
        let y := yPlain O H decay st.v.get grad.get
        np.get i = O.castP (keep O H (param.get i) (newParam O H lr param.shape avg param.get st.m.get y i)) ∧
        st'.v.get i = keep O H (st.v.get i) (ema O decay (st.v.get i) (sqr O H grad.get i)) ∧
        (H.beta1.isSome = true → st'.m.get i =
          keep O H (st.m.get i) (O.castM (subtrahend O H lr param.shape avg param.get st.m.get y i)))) := by
  cases hd : dimsFor D path param.shape with
  | error e => rw [initParam, hd] at hi; cases hi
  | ok q =>
    obtain ⟨avg, d⟩ := q
    obtain ⟨np0, up, he, hnp, ⟨u1, u2, u3, u4⟩, _, hf, hu⟩ := applyParam_raw O D H step path param grad st init lr avg d hs hlr hg hd hi hst
    obtain ⟨p, a, b, c, e, hgu, gp, ga, gb, gc, gm⟩ := guard_is O H param st np0 up hnp u1 u2 u3 u4
    have hmsh : H.beta1.isSome = true → st.m.shape = param.shape := by
      intro h
      rw [hst.2.2.2]
      unfold initParam at hi
      rw [hd, h] at hi
      cases d <;> simp only [Except.ok.injEq] at hi <;> rw [← hi] <;> rfl
    refine ⟨avg, d, un O.castP p, ⟨a, b, c, e⟩, rfl, he.trans hgu, gp.1,
      ⟨ga.1.trans hst.1, gb.1.trans hst.2.1, gc.1.trans hst.2.2.1, gm.1.trans hst.2.2.2⟩, ?_, ?_⟩
    · rintro d1 d0 rfl i hb
      obtain ⟨_, hf⟩ := hf d1 d0 rfl
      obtain ⟨f1, f2, f3, f4⟩ := hf i hb
      have hsh : st.vRow.shape = del d0 param.shape ∧ st.vCol.shape = del d1 param.shape := by
        unfold initParam at hi
        rw [hd] at hi
        simp only [Except.ok.injEq] at hi
        rw [hst.1, hst.2.1, ← hi]; exact ⟨rfl, rfl⟩
      refine ⟨?_, ?_, ?_, ?_⟩
      · simp only [un]; rw [gp.2 i hb, f1]
      · rw [← f2]; exact ga.2 _ (hsh.1 ▸ del_inBox hb)
      · rw [← f3]; exact gb.2 _ (hsh.2 ▸ del_inBox hb)
      · intro h; rw [← f4 h]; exact gm.2 i (by rw [hmsh h]; exact hb)
    · intro hne i hb
      obtain ⟨_, _, hu⟩ := hu hne
      obtain ⟨f1, f2, f4⟩ := hu i hb
      have hsh : st.v.shape = param.shape := by
        unfold initParam at hi
        rw [hd] at hi
        cases d with
        | dims d1 d0 => exact absurd rfl (hne d1 d0)
        | unfactored => simp only [Except.ok.injEq] at hi; rw [hst.2.2.1, ← hi]; rfl
        | heuristic => simp only [Except.ok.injEq] at hi; rw [hst.2.2.1, ← hi]; rfl
      refine ⟨?_, ?_, ?_⟩
      · simp only [un]; rw [gp.2 i hb, f1]
      · rw [← f2]; exact gc.2 i (hsh ▸ hb)
      · intro h; rw [← f4 h]; exact gm.2 i (by rw [hmsh h]; exact hb)

theorem notMem_positions (r : List FactorDim) (d : FactorDim) : positions r d = [] ↔ d ∉ r := by
  rw [List.eq_nil_iff_forall_not_mem]
  simp only [mem_positions]
  constructor
  · intro h hm
    obtain ⟨k, hk, he⟩ := List.mem_iff_getElem.mp hm
    exact h k (by rw [List.getElem?_eq_getElem hk, he])
  · intro h k hk
    exact h (List.mem_of_getElem? hk)

theorem mem_del_range (n : Nat) (dims : List Nat) (k : Nat) : k ∈ del dims (List.range n) ↔ k < n ∧ k ∉ dims := by
  unfold del
  simp only [List.mem_map, List.mem_filter, List.mem_range, List.length_range, Bool.not_eq_true', List.contains_eq_mem, decide_eq_false_iff_not]
  constructor
  · rintro ⟨j, ⟨h1, h2⟩, rfl⟩
    rw [getD_lt _ 0 (by simpa using h1)]
    simpa using ⟨h1, h2⟩
  · rintro ⟨h1, h2⟩
    exact ⟨k, ⟨h1, h2⟩, by rw [getD_lt _ 0 (by simpa using h1)]; simp⟩

theorem dims_explicit (D : Def) (path : List Char) (s : List Nat) (r : List FactorDim) (m : List Char → Option Rule) (hf : D.factored = true)
    (hm : D.factorMap = some m) (hp : m path = some (.dims r)) (hr : r.length = s.length) (hx : FactorDim.batch ∈ r ∨ 2 < s.length) :
    dimsFor D path s = .ok (del (positions r .batch) (List.range s.length),
      if FactorDim.row ∉ r ∧ FactorDim.column ∉ r then .unfactored else .dims (positions r .row) (positions r .column)) := by
  have h1 : factorRule D path = .ok (some (.dims r)) := by
    simp only [factorRule, hf, if_true, hm, hp]
  have h2 : ¬ (s.length ≤ 2 ∧ FactorDim.batch ∉ r) := by
    rintro ⟨ha, hb⟩
    rcases hx with h | h
    · exact hb h
    · omega
  simp only [dimsFor, h1, parseRule, hr, ne_eq, not_true_eq_false, if_false, notMem_positions]
  rw [if_neg h2]
  by_cases hc : FactorDim.row ∉ r ∧ FactorDim.column ∉ r
  · simp only [if_pos hc]
  · simp only [if_neg hc]

/-- C48: which dimensions are averaged and factored.  An explicit rule is obeyed when it marks a BATCH dimension or the parameter has
rank above two: statistics are averaged over exactly the dimensions not marked BATCH, the rows are the dimensions marked ROW, the
columns those marked COLUMN.  Otherwise (rank at most two, no BATCH, or no factor map) the two dimensions are factored exactly when
both sizes reach the minimum, the larger as column, and all dimensions are averaged. -/
theorem C48_dims (D : Def) (path : List Char) (s : List Nat) (hs : ∀ l, (D.argsort l).Perm (List.range l.length))
    (hsort : ∀ l i j, i < j → j < (D.argsort l).length → l.getD ((D.argsort l).getD i 0) 0 ≤ l.getD ((D.argsort l).getD j 0) 0)
    (hf : D.factored = true) :
    (∀ m r, D.factorMap = some m → m path = some (.dims r) → r.length = s.length → (FactorDim.batch ∈ r ∨ 2 < s.length) →
      ∃ avg d, dimsFor D path s = .ok (avg, d) ∧ (∀ k, k ∈ avg ↔ k < s.length ∧ r[k]? ≠ some .batch) ∧
        ((FactorDim.row ∉ r ∧ FactorDim.column ∉ r) → d = .unfactored) ∧
        (¬ (FactorDim.row ∉ r ∧ FactorDim.column ∉ r) → ∃ d1 d0, d = .dims d1 d0 ∧
          (∀ k, k ∈ d1 ↔ r[k]? = some .row) ∧ (∀ k, k ∈ d0 ↔ r[k]? = some .column))) ∧
    (s.length ≤ 2 → (D.factorMap = none ∨ ∃ m r, D.factorMap = some m ∧ m path = some (.dims r) ∧ r.length = s.length ∧ FactorDim.batch ∉ r) →
      ∃ d, dimsFor D path s = .ok (List.range s.length, d) ∧
        ((s.length = 2 ∧ D.minDim ≤ s.getD 0 0 ∧ D.minDim ≤ s.getD 1 0) →
          (d = .dims [0] [1] ∧ s.getD 0 0 ≤ s.getD 1 0) ∨ (d = .dims [1] [0] ∧ s.getD 1 0 ≤ s.getD 0 0)) ∧
        (¬ (s.length = 2 ∧ D.minDim ≤ s.getD 0 0 ∧ D.minDim ≤ s.getD 1 0) → d = .unfactored)) := by
  constructor
  · intro m r hm hp hr hx
    refine ⟨_, _, dims_explicit D path s r m hf hm hp hr hx, ?_, ?_, ?_⟩
    · intro k
      rw [mem_del_range, mem_positions]
    · intro hc
      rw [if_pos hc]
    · intro hc
      rw [if_neg hc]
      exact ⟨_, _, rfl, fun k => mem_positions _ _ _, fun k => mem_positions _ _ _⟩
  · intro h2 hrule
    have hd : dimsFor D path s = .ok (List.range s.length, factoredDims D s) := by
      rcases hrule with hm | ⟨m, r, hm, hp, hr, hb⟩
      · have h1 : factorRule D path = .ok (some .heuristic) := by simp only [factorRule, hf, if_true, hm]
        simp only [dimsFor, h1, parseRule, if_neg (show ¬ 2 < s.length by omega)]
      · have h1 : factorRule D path = .ok (some (.dims r)) := by
          simp only [factorRule, hf, if_true, hm, hp]
        have h3 : s.length ≤ 2 ∧ positions r .batch = [] := ⟨h2, (notMem_positions _ _).mpr hb⟩
        simp only [dimsFor, h1, parseRule, hr, ne_eq, not_true_eq_false, if_false, h3, and_self, if_true]
    refine ⟨_, hd, ?_, ?_⟩
    · rintro ⟨hl, ha, hb⟩
      have hlen : (D.argsort s).length = 2 := by rw [(hs s).length_eq]; simpa using hl
      obtain ⟨x, y, hxy⟩ := List.length_eq_two.mp hlen
      have hperm := hs s
      rw [hl, hxy, show List.range 2 = [0, 1] from rfl] at hperm
      have hsrt := hsort s 0 1 (by omega) (by omega)
      rw [hxy] at hsrt
      simp only [List.getD_cons_zero, List.getD_cons_succ] at hsrt
      have hxy' : (x = 0 ∧ y = 1) ∨ (x = 1 ∧ y = 0) := by
        have hx : x ∈ [0, 1] := hperm.mem_iff.mp (by simp)
        have hy : y ∈ [0, 1] := hperm.mem_iff.mp (by simp)
        have hn : x ≠ y := by
          have := (hperm.nodup_iff).mpr (by decide)
          simpa using this
        simp only [List.mem_cons, List.not_mem_nil, or_false] at hx hy
        omega
      unfold factoredDims
      simp only [hf, hl, hxy, Bool.not_true, Bool.false_eq_true, false_or, show ¬ (2 < 2) by omega, if_false,
        List.length_cons, List.length_nil, List.getD_cons_zero, List.getD_cons_succ]
      rcases hxy' with ⟨rfl, rfl⟩ | ⟨rfl, rfl⟩
      · left
        exact ⟨if_neg (show ¬ s.getD 0 0 < D.minDim by omega), hsrt⟩
      · right
        exact ⟨if_neg (show ¬ s.getD 1 0 < D.minDim by omega), hsrt⟩
    · intro hn
      unfold factoredDims
      by_cases hl : s.length = 2
      · have hlen : (D.argsort s).length = 2 := by rw [(hs s).length_eq]; simpa using hl
        obtain ⟨x, y, hxy⟩ := List.length_eq_two.mp hlen
        have hperm := hs s
        rw [hl, hxy, show List.range 2 = [0, 1] from rfl] at hperm
        have hsrt := hsort s 0 1 (by omega) (by omega)
        rw [hxy] at hsrt
        simp only [List.getD_cons_zero, List.getD_cons_succ] at hsrt
        have hxy' : (x = 0 ∧ y = 1) ∨ (x = 1 ∧ y = 0) := by
          have hx : x ∈ [0, 1] := hperm.mem_iff.mp (by simp)
          have hy : y ∈ [0, 1] := hperm.mem_iff.mp (by simp)
          have hn : x ≠ y := by
            have := (hperm.nodup_iff).mpr (by decide)
            simpa using this
          simp only [List.mem_cons, List.not_mem_nil, or_false] at hx hy
          omega
        have hnn : ¬ (D.minDim ≤ s.getD 0 0 ∧ D.minDim ≤ s.getD 1 0) := fun h => hn ⟨hl, h⟩
        simp only [hf, hl, hxy, Bool.not_true, Bool.false_eq_true, false_or, show ¬ (2 < 2) by omega, if_false,
          List.length_cons, List.length_nil, List.getD_cons_zero, List.getD_cons_succ]
        rcases hxy' with ⟨rfl, rfl⟩ | ⟨rfl, rfl⟩
        · exact if_pos (show s.getD 0 0 < D.minDim by omega)
        · exact if_pos (show s.getD 1 0 < D.minDim by omega)
      · exact if_pos (Or.inr (by omega))

/-! ### Any number of steps -/

/-- C48: from the initial state on, any number of updates with gradients of the parameter's shape succeeds and keeps the shapes of the
parameter and of the accumulators, provided that a learning rate is given and that `beta1` stays given or stays absent. -/
theorem C48_run (O : Ops V) (D : Def) (path : List Char) (momentum : Bool) (init : PState V) (s : List Nat)
    (hs : ∀ l, (D.argsort l).Perm (List.range l.length)) (hi : initParam O D momentum path s = .ok init) :
    ∀ (l : List (HP V × NDArray V)) (step : Int) (p : NDArray V) (st : PState V), p.shape = s → ShapesOf st init →
      (∀ x ∈ l, x.1.learningRate.isSome = true ∧ x.1.beta1.isSome = momentum ∧ x.2.shape = s) →
      ∃ p' st', run O D path step l (p, st) = .ok (p', st') ∧ p'.shape = s ∧ ShapesOf st' init := by
  intro l
  induction l with
  | nil => intro step p st hp hst _; exact ⟨p, st, rfl, hp, hst⟩
  | cons x l ih =>
    obtain ⟨H, g⟩ := x
    intro step p st hp hst hl
    obtain ⟨h1, h2, h3⟩ := hl (H, g) (by simp)
    obtain ⟨lr, hlr⟩ := Option.isSome_iff_exists.mp h1
    dsimp only at h2 h3
    obtain ⟨avg, d, np, st', _, he, hnp, hst', _⟩ := C48_update O D H step path p g st init lr hs hlr (by rw [h3, hp]) (by rw [hp, h2]; exact hi) hst
    obtain ⟨p'', st'', hr, h4, h5⟩ := ih (step + 1) np st' (hnp.trans hp) hst' (fun x hx => hl x (by simp [hx]))
    exact ⟨p'', st'', by simp only [run, he, hr], h4, h5⟩

/-- C48: with `skip_nan_updates` and gradients of any values, a parameter and accumulators free of NaN stay free of NaN for ever. -/
theorem C48_nan_free (O : Ops V) (D : Def) (path : List Char) (momentum : Bool) (init : PState V) (s : List Nat)
    (hs : ∀ l, (D.argsort l).Perm (List.range l.length)) (hi : initParam O D momentum path s = .ok init)
    (hcast : ∀ v, O.isnan v = false → O.isnan (O.castP v) = false) :
    ∀ (l : List (HP V × NDArray V)) (step : Int) (p : NDArray V) (st : PState V) (x' : NDArray V × PState V), p.shape = s → ShapesOf st init →
      (∀ x ∈ l, x.1.learningRate.isSome = true ∧ x.1.beta1.isSome = momentum ∧ x.2.shape = s ∧ x.1.skipNan = true) →
      AllNanFree O (p, st) → run O D path step l (p, st) = .ok x' → AllNanFree O x' := by
  intro l
  induction l with
  | nil => intro step p st x' _ _ _ hn hr; cases hr; exact hn
  | cons x l ih =>
    obtain ⟨H, g⟩ := x
    intro step p st x' hp hst hl hn hr
    obtain ⟨h1, h2, h3, hk⟩ := hl (H, g) (by simp)
    obtain ⟨lr, hlr⟩ := Option.isSome_iff_exists.mp h1
    dsimp only at h2 h3 hk
    cases hd : dimsFor D path p.shape with
    | error e => rw [initParam, ← hp, hd] at hi; cases hi
    | ok q =>
      obtain ⟨avg, d⟩ := q
      obtain ⟨np0, up, he, hnp, ⟨u1, u2, u3, u4⟩, _⟩ := applyParam_raw O D H step path p g st init lr avg d hs hlr (by rw [h3, hp]) hd
        (by rw [hp, h2]; exact hi) hst
      obtain ⟨q, a, b, c, e, hgu, gp, ga, gb, gc, gm⟩ := guard_is O H p st np0 up hnp u1 u2 u3 u4
      have one : ∀ (o n out : NDArray V), Guarded O H o n out → NanFree O o → NanFree O out := by
        intro o n out hgd hno i hi
        rw [hgd.1] at hi
        rw [hgd.2 i hi]
        simp only [keep, hk, Bool.true_and]
        cases hx : O.isnan (n.get i) with
        | true => simp only [if_true]; exact hno i hi
        | false => simpa using hx
      simp only [run, he, hgu] at hr
      refine ih (step + 1) (un O.castP q) ⟨a, b, c, e⟩ x' (gp.1.trans hp)
        ⟨ga.1.trans hst.1, gb.1.trans hst.2.1, gc.1.trans hst.2.2.1, gm.1.trans hst.2.2.2⟩ (fun x hx => hl x (by simp [hx])) ?_ hr
      refine ⟨?_, one _ _ _ ga hn.2.1, one _ _ _ gb hn.2.2.1, one _ _ _ gc hn.2.2.2.1, one _ _ _ gm hn.2.2.2.2⟩
      intro i hi
      exact hcast _ (one _ _ _ gp hn.1 i hi)

/-! ### Batched parameters do not influence each other -/

/-- Values agree in the slice of `i0`. -/
def AgreeF (s B i0 : List Nat) (f g : List Nat → V) : Prop := ∀ i, InBox s i → SameAt B i i0 → f i = g i

theorem slice_agree {s B i0 dims : List Nat} {f g : List Nat → V} (h : AgreeF s B i0 f g) (hB : ∀ k ∈ B, k < s.length ∧ k ∉ dims)
    {i : List Nat} (hi : SameAt B i i0) : (slice s dims i).map f = (slice s dims i).map g := by
  apply List.map_congr_left
  intro j hj
  obtain ⟨hb, hsame⟩ := (mem_slice s dims i j).1 hj
  refine h j hb ?_
  intro k hk
  obtain ⟨h1, h2⟩ := hB k hk
  rw [hsame k h1 h2, hi k hk]

theorem rms_agree (O : Ops V) {s B i0 dims : List Nat} {f g : List Nat → V} (h : AgreeF s B i0 f g) (hB : ∀ k ∈ B, k < s.length ∧ k ∉ dims) :
    AgreeF s B i0 (rms O s dims f) (rms O s dims g) := by
  intro i _ hi
  unfold rms
  rw [slice_agree (f := fun i' => O.mul (f i') (f i')) (g := fun i' => O.mul (g i') (g i')) (B := B) (i0 := i0)
    (fun j hj hsj => by dsimp only; rw [h j hj hsj]) hB hi]

theorem rowEst_agree (O : Ops V) (H : HP V) (decay : V) {s B i0 d : List Nat} {v w g g' : List Nat → V} (hB : ∀ k ∈ B, k < s.length ∧ k ∉ d)
    (hv : AgreeF s B i0 (fun i => v (del d i)) (fun i => w (del d i))) (hg : AgreeF s B i0 g g') :
    AgreeF s B i0 (rowEst O H decay s d v g) (rowEst O H decay s d w g') := by
  intro i hb hi
  unfold rowEst
  rw [slice_agree (f := sqr O H g) (g := sqr O H g') (B := B) (i0 := i0) (fun j hj hsj => by simp only [sqr, hg j hj hsj]) hB hi]
  have := hv i hb hi
  dsimp only at this
  rw [this]

theorem subtrahend_agree (O : Ops V) (H : HP V) (lr : V) {s B i0 avg : List Nat} {p p' m m' y y' : List Nat → V}
    (hB : ∀ k ∈ B, k < s.length ∧ k ∉ avg) (hp : AgreeF s B i0 p p') (hm : H.beta1.isSome = true → AgreeF s B i0 m m') (hy : AgreeF s B i0 y y') :
    AgreeF s B i0 (subtrahend O H lr s avg p m y) (subtrahend O H lr s avg p' m' y') := by
  intro i hb hi
  have h1 : stepSize O H lr s avg p i = stepSize O H lr s avg p' i := by
    unfold stepSize
    rw [rms_agree O hp hB i hb hi]
  have h2 : clipped O H.clip s avg y i = clipped O H.clip s avg y' i := by
    unfold clipped
    rw [rms_agree O hy hB i hb hi, hy i hb hi]
  unfold subtrahend
  rw [h1, h2]
  cases hbeta : H.beta1 with
  | none => rfl
  | some b =>
    dsimp only
    rw [hm (by rw [hbeta]; rfl) i hb hi]

theorem newParam_agree (O : Ops V) (H : HP V) (lr : V) {s B i0 avg : List Nat} {p p' m m' y y' : List Nat → V}
    (hB : ∀ k ∈ B, k < s.length ∧ k ∉ avg) (hp : AgreeF s B i0 p p') (hm : H.beta1.isSome = true → AgreeF s B i0 m m') (hy : AgreeF s B i0 y y') :
    AgreeF s B i0 (newParam O H lr s avg p m y) (newParam O H lr s avg p' m' y') := by
  intro i hb hi
  unfold newParam
  rw [subtrahend_agree O H lr hB hp hm hy i hb hi, hp i hb hi]

theorem agree_step (O : Ops V) (D : Def) (H : HP V) (step : Int) (path : List Char) (m : List Char → Option Rule) (r : List FactorDim)
    (s i0 : List Nat) (init : PState V) (hs : ∀ l, (D.argsort l).Perm (List.range l.length)) (hf : D.factored = true)
    (hm : D.factorMap = some m) (hr : m path = some (.dims r)) (hlen : r.length = s.length) (hbatch : FactorDim.batch ∈ r)
    (hlr : H.learningRate.isSome = true) (hi : initParam O D H.beta1.isSome path s = .ok init)
    (p q g g' : NDArray V) (st su : PState V) (hp : p.shape = s) (hq : q.shape = s) (hg : g.shape = s) (hg' : g'.shape = s)
    (hst : ShapesOf st init) (hsu : ShapesOf su init) (ha : Agree r i0 H.beta1.isSome (p, st) (q, su))
    (hgg : AgreeF s (positions r .batch) i0 g.get g'.get) :
    ∃ x y, applyParam O D H step path p st g = .ok x ∧ applyParam O D H step path q su g' = .ok y ∧
      x.1.shape = s ∧ y.1.shape = s ∧ ShapesOf x.2 init ∧ ShapesOf y.2 init ∧ Agree r i0 H.beta1.isSome x y := by
  obtain ⟨lr, hlr⟩ := Option.isSome_iff_exists.mp hlr
  obtain ⟨avg, d, np, st', hd, he, hnp, hst', hF, hU⟩ := C48_update O D H step path p g st init lr hs hlr (by rw [hg, hp]) (by rw [hp]; exact hi) hst
  obtain ⟨avg2, d2, nq, su', hd2, he2, hnq, hsu', hF2, hU2⟩ :=
    C48_update O D H step path q g' su init lr hs hlr (by rw [hg', hq]) (by rw [hq]; exact hi) hsu
  refine ⟨_, _, he, he2, hnp.trans hp, hnq.trans hq, hst', hsu', ?_⟩
  rw [hp] at hd hnp hF hU
  rw [hq] at hd2 hnq hF2 hU2
  rw [hd] at hd2
  simp only [Except.ok.injEq, Prod.mk.injEq] at hd2
  obtain ⟨rfl, rfl⟩ := hd2
  have hdd := dims_explicit D path s r m hf hm hr hlen (Or.inl hbatch)
  rw [hd] at hdd
  simp only [Except.ok.injEq, Prod.mk.injEq] at hdd
  obtain ⟨havg, hd0⟩ := hdd
  have hBlt : ∀ k ∈ positions r .batch, k < s.length := by
    intro k hk
    rw [mem_positions] at hk
    rw [← hlen]; exact (List.getElem?_eq_some_iff.mp hk).1
  have hBavg : ∀ k ∈ positions r .batch, k < s.length ∧ k ∉ avg := by
    intro k hk
    refine ⟨hBlt k hk, ?_⟩
    rw [havg, mem_del_range]
    exact fun h => h.2 hk
  have hBd : ∀ c, c ≠ FactorDim.batch → ∀ k ∈ positions r .batch, k < s.length ∧ k ∉ positions r c := by
    intro c hc k hk
    refine ⟨hBlt k hk, ?_⟩
    rw [mem_positions] at hk ⊢
    rw [hk]
    simpa using hc.symm
  have ha' : ∀ i, InBox s i → SameAt (positions r .batch) i i0 → _ := fun i hb => ha i (by rw [hp]; exact hb)
  have hpp : AgreeF s (positions r .batch) i0 p.get q.get := fun i hb hs' => (ha' i hb hs').1
  have hmm : H.beta1.isSome = true → AgreeF s (positions r .batch) i0 st.m.get su.m.get := fun h i hb hs' => (ha' i hb hs').2.1 h
  intro i hb hsame
  dsimp only at hb
  rw [hnp] at hb
  by_cases hc : FactorDim.row ∉ r ∧ FactorDim.column ∉ r
  · rw [if_pos hc] at hd0
    have hne : ∀ d1 d0, d ≠ .dims d1 d0 := by intro d1 d0 h; rw [hd0] at h; cases h
    have hvv : AgreeF s (positions r .batch) i0 st.v.get su.v.get := fun i hb hs' => (ha' i hb hs').2.2.1 hc
    have hy : AgreeF s (positions r .batch) i0 (yPlain O H (O.decayPow (step - H.stepOffset) H.decayRate) st.v.get g.get)
        (yPlain O H (O.decayPow (step - H.stepOffset) H.decayRate) su.v.get g'.get) := by
      intro j hj hsj
      simp only [yPlain, sqr, hvv j hj hsj, hgg j hj hsj]
    obtain ⟨f1, f2, f3⟩ := hU hne i hb
    obtain ⟨k1, k2, k3⟩ := hU2 hne i hb
    refine ⟨?_, ?_, ?_, fun h => absurd hc h⟩
    · rw [f1, k1, newParam_agree O H lr hBavg hpp hmm hy i hb hsame, hpp i hb hsame]
    · intro h
      rw [f3 h, k3 h, subtrahend_agree O H lr hBavg hpp hmm hy i hb hsame, hmm h i hb hsame]
    · intro _
      dsimp only
      rw [f2, k2, hvv i hb hsame]
      simp only [sqr, hgg i hb hsame]
  · rw [if_neg hc] at hd0
    have hrr : AgreeF s (positions r .batch) i0 (fun i => st.vRow.get (del (positions r .column) i)) (fun i => su.vRow.get (del (positions r .column) i)) :=
      fun i hb hs' => ((ha' i hb hs').2.2.2 hc).1
    have hcc : AgreeF s (positions r .batch) i0 (fun i => st.vCol.get (del (positions r .row) i)) (fun i => su.vCol.get (del (positions r .row) i)) :=
      fun i hb hs' => ((ha' i hb hs').2.2.2 hc).2
    have hR := rowEst_agree O H (O.decayPow (step - H.stepOffset) H.decayRate) (hBd .column (by simp)) hrr hgg
    have hC := rowEst_agree O H (O.decayPow (step - H.stepOffset) H.decayRate) (hBd .row (by simp)) hcc hgg
    have hy : AgreeF s (positions r .batch) i0
        (yFactored O H (O.decayPow (step - H.stepOffset) H.decayRate) s (positions r .row) (positions r .column) st.vRow.get st.vCol.get g.get)
        (yFactored O H (O.decayPow (step - H.stepOffset) H.decayRate) s (positions r .row) (positions r .column) su.vRow.get su.vCol.get g'.get) := by
      intro j hj hsj
      unfold yFactored
      rw [hR j hj hsj, hC j hj hsj, hgg j hj hsj, slice_agree hR (hBd .row (by simp)) hsj]
    obtain ⟨f1, f2, f3, f4⟩ := hF _ _ hd0 i hb
    obtain ⟨k1, k2, k3, k4⟩ := hF2 _ _ hd0 i hb
    refine ⟨?_, ?_, fun h => absurd h hc, ?_⟩
    · rw [f1, k1, newParam_agree O H lr hBavg hpp hmm hy i hb hsame, hpp i hb hsame]
    · intro h
      rw [f4 h, k4 h, subtrahend_agree O H lr hBavg hpp hmm hy i hb hsame, hmm h i hb hsame]
    · intro _
      have e1 := hrr i hb hsame
      have e2 := hcc i hb hsame
      dsimp only at e1 e2 ⊢
      rw [f2, k2, f3, k3, hR i hb hsame, hC i hb hsame, e1, e2]
      exact ⟨rfl, rfl⟩

/-- C48: batched arrays (scanned layers, fused projections) are optimized independently.  For a parameter whose rule marks some
dimensions BATCH, run any number of updates on two parameters of the same shape whose values, accumulators and gradients are equal in
the slice with the batch coordinates of `i0` and arbitrary elsewhere: the results are equal in that slice. -/
theorem C48_batch (O : Ops V) (D : Def) (path : List Char) (m : List Char → Option Rule) (r : List FactorDim) (momentum : Bool)
    (s i0 : List Nat) (init : PState V) (hs : ∀ l, (D.argsort l).Perm (List.range l.length)) (hf : D.factored = true)
    (hm : D.factorMap = some m) (hr : m path = some (.dims r)) (hlen : r.length = s.length) (hbatch : FactorDim.batch ∈ r)
    (hi : initParam O D momentum path s = .ok init) :
    ∀ (l : List (HP V × NDArray V × NDArray V)) (step : Int) (p q : NDArray V) (st su : PState V), p.shape = s → q.shape = s →
      ShapesOf st init → ShapesOf su init → Agree r i0 momentum (p, st) (q, su) →
      (∀ x ∈ l, x.1.learningRate.isSome = true ∧ x.1.beta1.isSome = momentum ∧ x.2.1.shape = s ∧ x.2.2.shape = s ∧
        ∀ i, InBox s i → SameAt (positions r .batch) i i0 → x.2.1.get i = x.2.2.get i) →
      ∃ x y, run O D path step (l.map fun x => (x.1, x.2.1)) (p, st) = .ok x ∧
        run O D path step (l.map fun x => (x.1, x.2.2)) (q, su) = .ok y ∧ Agree r i0 momentum x y := by
  intro l
  induction l with
  | nil => intro step p q st su _ _ _ _ ha _; exact ⟨_, _, rfl, rfl, ha⟩
  | cons z l ih =>
    obtain ⟨H, g, g'⟩ := z
    intro step p q st su hp hq hst hsu ha hl
    obtain ⟨h1, h2, h3, h4, h5⟩ := hl (H, g, g') (by simp)
    dsimp only at h2 h3 h4 h5
    obtain ⟨⟨p', st'⟩, ⟨q', su'⟩, e1, e2, s1, s2, s3, s4, ha'⟩ := agree_step O D H step path m r s i0 init hs hf hm hr hlen hbatch h1 (by rw [h2]; exact hi)
      p q g g' st su hp hq h3 h4 hst hsu (by rw [h2]; exact ha) h5
    rw [h2] at ha'
    obtain ⟨x, y, r1, r2, ha''⟩ := ih (step + 1) p' q' st' su' s1 s2 s3 s4 ha' (fun x hx => hl x (by simp [hx]))
    exact ⟨x, y, by simp only [List.map_cons, run, e1, r1], by simp only [List.map_cons, run, e2, r2], ha''⟩

/-! ### Logical axis rules -/

/-- C48: what `set_param_axes` makes of the rules of a parameter's axes: it raises exactly when ROW, COLUMN and NONE occur together;
the result has both ROW and COLUMN or neither; with both it is the given rule; BATCH annotations are never lost or invented. -/
theorem C48_axis_rules (l : List FactorDim) :
    (applyRules l = .error .incomplete ↔ FactorDim.row ∈ l ∧ FactorDim.column ∈ l ∧ FactorDim.none ∈ l) ∧
    (∀ r, applyRules l = .ok r → r.length = l.length ∧ (FactorDim.row ∈ r ↔ FactorDim.column ∈ r) ∧
      (FactorDim.row ∈ l ∧ FactorDim.column ∈ l → r = l ∧ FactorDim.none ∉ r) ∧
      (∀ k : Nat, r[k]? = some FactorDim.batch ↔ l[k]? = some FactorDim.batch)) := by
  unfold applyRules
  constructor
  · constructor
    · intro h
      split_ifs at h with h1 h2
      simpa [List.contains_iff_mem, and_assoc] using h1
    · rintro ⟨h1, h2, h3⟩
      rw [if_pos (by simp [h1, h2, h3])]
  · intro r h
    split_ifs at h with h1 h2
    · cases h
      have hrow : ∀ l' : List FactorDim, FactorDim.row ∉ l'.map (fun x => if x = .row ∨ x = .column then .none else x) := by
        intro l' hm
        obtain ⟨x, _, hx⟩ := List.mem_map.mp hm
        cases x <;> simp at hx
      have hcol : ∀ l' : List FactorDim, FactorDim.column ∉ l'.map (fun x => if x = .row ∨ x = .column then .none else x) := by
        intro l' hm
        obtain ⟨x, _, hx⟩ := List.mem_map.mp hm
        cases x <;> simp at hx
      refine ⟨by simp, ⟨fun h => absurd h (hrow _), fun h => absurd h (hcol _)⟩, ?_, ?_⟩
      · rintro ⟨ha, hb⟩
        simp [ha, hb] at h2
      · intro k
        rw [List.getElem?_map]
        cases hk : l[k]? with
        | none => simp
        | some x => cases x <;> simp
    · cases h
      simp only [Bool.or_eq_true, Bool.not_eq_true', List.contains_eq_mem, decide_eq_false_iff_not, not_or, not_not] at h2
      refine ⟨rfl, ⟨fun _ => h2.2, fun _ => h2.1⟩, fun _ => ⟨rfl, ?_⟩, fun k => Iff.rfl⟩
      intro hn
      exact h1 (by simp [h2.1, h2.2, hn])

/-! ### Concrete cases -/

/-- Integer arithmetic, for the examples. -/
def intOps : Ops Int where
  add := (· + ·)
  sub := (· - ·)
  mul := (· * ·)
  div := (· / ·)
  max := max
  min := min
  pow := fun a _ => a
  sqrt := id
  rsqrt := id
  mean := fun l => l.sum / l.length
  isnan := fun x => x == -999
  zero := 0
  one := 1
  isZero := fun x => x == 0
  decayPow := fun n _ => n
  castG := id
  castM := id
  castP := id

def exDef : Def where
  factored := true
  factorMap := some fun p => if p = ['w'] then some (.dims [.row, .batch, .column]) else none
  minDim := 2
  argsort := fun l => if l.getD 1 0 < l.getD 0 0 ∧ l.length = 2 then [1, 0] else List.range l.length

def exHP : HP Int where
  learningRate := some 2
  beta1 := none
  decayRate := 1
  stepOffset := 0
  mulByScale := true
  maxScale := none
  clip := none
  weightDecay := none
  wdExponent := none
  eps1 := 1
  eps2 := 1
  skipNan := true

/-- The hypotheses of `C48_update`, `C48_run` and `C48_batch` are met: a 2 by 2 by 3 parameter with rule (ROW, BATCH, COLUMN). -/
example : ∀ l, (exDef.argsort l).Perm (List.range l.length) := by
  intro l
  unfold exDef
  dsimp only
  split_ifs with h
  · rw [h.2]; decide
  · exact List.Perm.refl _

example : (initParam intOps exDef false ['w'] [2, 2, 3]).map (fun st => (st.vRow.shape, st.vCol.shape, st.v.shape, st.m.shape)) =
    .ok ([2, 2], [2, 3], [1], [1]) := by rfl

/-- The update at a batch coordinate does depend on the gradient there and not on the other. -/
example : ((applyParam intOps exDef exHP 0 ['w'] ⟨[2, 2, 3], fun _ => 5⟩ ⟨zeros 0 [2, 2], zeros 0 [2, 3], zeros 0 [1], zeros 0 [1]⟩
    ⟨[2, 2, 3], fun i => if i = [0, 0, 0] then 4 else 1⟩).map fun x => (x.1.get [0, 0, 0], x.1.get [1, 0, 1], x.1.get [1, 1, 0])) =
    .ok (-1795, 5, -95) := by rfl


example : dimsFor exDef ['w'] [2, 2, 3] = .ok ([0, 2], .dims [0] [2]) := by rfl
example : applyRules [.row, .batch, .none] = .ok [.none, .batch, .none] := by rfl
example : applyRules [.row, .column, .none] = .error .incomplete := by rfl
example : ∀ i, InBox [2, 2, 3] i → SameAt (positions [.row, .batch, .column] .batch) i [0, 1, 0] → i.getD 1 0 = 1 := by
  intro i _ h; exact h 1 (by decide)
example : AllNanFree intOps (⟨[2, 2, 3], fun _ => 5⟩, ⟨zeros 0 [2, 2], zeros 0 [2, 3], zeros 0 [1], zeros 0 [1]⟩) :=
  ⟨fun _ _ => rfl, fun _ _ => rfl, fun _ _ => rfl, fun _ _ => rfl, fun _ _ => rfl⟩

end Verif.Adafactor
