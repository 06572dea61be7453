import Verif.Spec.PackedMetrics
/-
Property C120: the metrics of packed and of padded batches.
-/
namespace Verif.PackedMetrics
open Verif.PackedLoss Verif.PackedLoss.Spec Verif.Transformer Verif.Transformer.Spec Verif.Metrics.Spec Verif.PackedMetrics.Spec

variable {V : Nat}

theorem segments_eq {n m : Nat} (encoder : Bool) (b : TrainBatch n m) :
    BaseMetrics.segmentIds (tokenFeatures encoder b) =
      if b.packed then (if encoder then [("encoder".toList, some (b.rows.map fun r => List.ofFn r.encSeg))] else []) ++
          [("decoder".toList, some (b.rows.map fun r => List.ofFn r.decSeg))]
        else (if encoder then [("encoder_input_tokens".toList, some ((b.rows.map fun r => List.ofFn r.encTokens).map fun r => r.map fun t => if t ≠ 0 then (1 : ℤ) else 0))] else []) ++
          [("decoder_target_tokens".toList, some ((b.rows.map fun r => List.ofFn r.decTargets).map fun r => r.map fun t => if t ≠ 0 then (1 : ℤ) else 0))] := by
  obtain ⟨rows, packed, weighted⟩ := b
  cases packed <;> cases encoder <;> rfl

/-! ### One row -/

/-- What a row has at each of its positions, for any function of logits and target. -/
theorem row_terms {n m : Nat} {β : Type} (F : Vec V → ℤ → β) (dflt : β) (ref : Example → Nat → Vec V) (g : List Example)
    (hf : (g.flatMap Example.targets).length ≤ n) (y : Fin n → Vec V)
    (hy : ∀ pre e post, g = pre ++ e :: post → ∀ (i : Nat) (j : Fin n), i < e.targets.length → j.val = (pre.flatMap Example.targets).length + i → y j = ref e i) :
    ∃ rest, (List.ofFn fun j => F (y j) ((packRow n m g).decTargets j)) =
      (g.flatMap fun e => (List.range e.targets.length).map fun i => F (ref e i) (e.targets.getD i 0)) ++ rest := by
  have hlen : ∀ es : List Example, (es.flatMap fun e => (List.range e.targets.length).map fun i => F (ref e i) (e.targets.getD i 0)).length =
      (es.flatMap Example.targets).length := fun es => flatMap_length_eq _ _ es fun e _ => by simp
  refine ⟨(List.ofFn fun j => F (y j) ((packRow n m g).decTargets j)).drop (g.flatMap Example.targets).length, ?_⟩
  conv_lhs => rw [← List.take_append_drop (g.flatMap Example.targets).length (List.ofFn _)]
  congr 1
  apply List.ext_getElem
  · rw [hlen, List.length_take, List.length_ofFn]; omega
  · intro k h1 h2
    rw [hlen] at h2
    obtain ⟨pre, e, post, i, h3, h4, h5⟩ := flatMap_split Example.targets g k h2
    have e1 := getD_flatMap (fun e : Example => (List.range e.targets.length).map fun i => F (ref e i) (e.targets.getD i 0)) dflt pre e post i (by simpa using h4)
    have e2 := getD_flatMap Example.targets 0 pre e post i h4
    rw [hlen, ← h5, ← h3] at e1
    rw [← h5, ← h3] at e2
    rw [List.getElem_take, List.getElem_ofFn, hy pre e post h3 i ⟨k, by omega⟩ h4 h5]
    rw [List.getD_eq_getElem?_getD, List.getElem?_eq_getElem (by rw [hlen]; exact h2), Option.getD_some] at e1
    rw [e1]
    simp only [packRow, pad, e2]
    simp [List.getD_eq_getElem?_getD, h4]

theorem zipWith_flatMap {α β γ δ : Type} (f : β → γ → δ) (a : α → List β) (b : α → List γ) (l : List α) (h : ∀ x ∈ l, (a x).length = (b x).length)
    (ra : List β) (rb : List γ) :
    List.zipWith f (l.flatMap a ++ ra) (l.flatMap b ++ rb) = (l.flatMap fun x => List.zipWith f (a x) (b x)) ++ List.zipWith f ra rb := by
  induction l with
  | nil => rfl
  | cons x l ih =>
    simp only [List.flatMap_cons, List.append_assoc]
    rw [List.zipWith_append (h x (List.mem_cons_self ..)), ih fun y hy => h y (List.mem_cons_of_mem _ hy)]

theorem countP_flatMap' {α β : Type} (p : β → Bool) (a : α → List β) (l : List α) : (l.flatMap a).countP p = (l.map fun x => (a x).countP p).sum := by
  induction l with
  | nil => rfl
  | cons x l ih => simp only [List.flatMap_cons, List.countP_append, ih, List.map_cons, List.sum_cons]

theorem zipWith_range {β γ δ : Type} (f : β → γ → δ) (L : Nat) (a : Nat → β) (w : List γ) (d : γ) (hw : w.length = L) :
    List.zipWith f ((List.range L).map a) w = (List.range L).map fun i => f (a i) (w.getD i d) := by
  apply List.ext_getElem
  · simp [hw]
  · intro i h1 h2
    have : i < w.length := by simp at h2; omega
    simp [List.getD_eq_getElem?_getD, this]

theorem sum_zero_iff (l : List ℝ) (h : ∀ a ∈ l, 0 ≤ a) (h0 : l.sum = 0) : ∀ a ∈ l, a = 0 := by
  induction l with
  | nil => simp
  | cons a l ih =>
    have ha := h a (List.mem_cons_self ..)
    have hl : 0 ≤ l.sum := List.sum_nonneg fun b hb => h b (List.mem_cons_of_mem _ hb)
    rw [List.sum_cons] at h0
    intro b hb
    rcases List.mem_cons.1 hb with rfl | hb
    · linarith
    · exact ih (fun c hc => h c (List.mem_cons_of_mem _ hc)) (by linarith) b hb

/-- Weights are not zero where the loss is computed. -/
theorem weightOf_ne (weighted : Bool) (lnf : LossWeights.LNF ℝ) (x : Example) (hx : x.WF) (i : Nat) (hi : i < x.targets.length) :
    (weightOf weighted lnf x).getD i 0 ≠ 0 ↔ Counts weighted x i := by
  have h1 : (wt weighted x).getD i 0 ≠ 0 ↔ Counts weighted x i := by
    cases weighted with
    | true => simp [wt, Counts]
    | false => simp [wt, Counts, List.getD_eq_getElem?_getD, hi]
  have hl := wt_length weighted x hx
  have hnn : ∀ a ∈ wt weighted x, 0 ≤ a := by
    intro a ha
    simp only [wt] at ha
    split_ifs at ha
    · exact hx.nonneg a ha
    · obtain ⟨_, _, rfl⟩ := List.mem_map.1 ha; exact zero_le_one
  have h2 : (normalised weighted x).getD i 0 ≠ 0 ↔ Counts weighted x i := by
    rw [← h1]
    have hiw : i < (wt weighted x).length := by omega
    simp only [normalised, List.getD_eq_getElem?_getD, List.getElem?_map, List.getElem?_eq_getElem hiw, Option.map_some, Option.getD_some]
    by_cases h0 : (wt weighted x).sum = 0
    · simp [h0, sum_zero_iff _ hnn h0 _ (List.getElem_mem hiw)]
    · simp [h0]
  cases lnf with
  | none => exact h1
  | const _ => exact h1
  | special s => cases s <;> first | exact h1 | exact h2
  | str s => simp only [weightOf]; split_ifs <;> assumption

/-! ### One batch -/

theorem zip_flatten {α β : Type} (a : List (List α)) (b : List (List β)) (h : a.map List.length = b.map List.length) :
    a.flatten.zip b.flatten = (List.zipWith List.zip a b).flatten := by
  induction a generalizing b with
  | nil => cases b with
    | nil => rfl
    | cons _ _ => simp at h
  | cons x a ih => cases b with
    | nil => simp at h
    | cons y b =>
      simp only [List.map_cons, List.cons.injEq] at h
      rw [List.flatten_cons, List.flatten_cons, List.zip_append h.1, ih b h.2]
      rfl

/-- What is said about a batch that holds the given groups of examples. -/
structure Describes (encoder packed weighted : Bool) (n m : Nat) (lnf : LossWeights.LNF ℝ) (ref : Example → Nat → Vec V) (smoothing z : ℝ)
    (groups : List (List Example)) (A : BaseMetrics.Args ℝ) : Prop where
  good : 0 < V → BaseMetrics.Spec.Good A
  correct : BaseMetrics.Spec.correct A = ((groups.flatten.map fun x => right weighted x (ref x)).sum : ℕ)
  unmasked : BaseMetrics.Spec.unmasked A = ((groups.flatten.map fun x => counted weighted x).sum : ℕ)
  weight : (BaseMetrics.Spec.weights A).sum = (groups.flatten.map fun x => (weightOf weighted lnf x).sum).sum
  loss : A.loss = over (factorOf weighted groups.flatten lnf)
    (groups.flatten.map fun e => (List.zipWith (· * ·) ((terms smoothing z ref e).map Prod.fst) (weightOf weighted lnf e)).sum).sum
  zLoss : A.zLoss = some (over (factorOf weighted groups.flatten lnf)
    (groups.flatten.map fun e => (List.zipWith (· * ·) ((terms smoothing z ref e).map Prod.snd) (weightOf weighted lnf e)).sum).sum)
  tokens : BaseMetrics.Spec.tokens A = (groups.length * n : ℕ)
  examples : BaseMetrics.Spec.examples A = (groups.length : ℕ)
  segments : A.segments = some (BaseMetrics.segmentIds (tokenFeatures encoder ⟨groups.map (packRow n m), packed, weighted⟩))

theorem describes {n m : Nat} (encoder : Bool) {packed : Bool} {groups : List (List Example)} (h : Made n m packed groups) (weighted : Bool)
    (logits : TrainRow n m → Option (Fin n → Vec V)) (ref : Example → Nat → Vec V) (ha : ∀ g ∈ groups, PackedLoss.Agree logits ref g)
    (lnf : LossWeights.LNF ℝ) (hs : PackingSafe weighted lnf) (smoothing z : ℝ) :
    ∃ A, metricArgs encoder logits lnf smoothing z ⟨groups.map (packRow n m), packed, weighted⟩ = some A ∧
      Describes encoder packed weighted n m lnf ref smoothing z groups A := by
  have hl : (groups.map (packRow n m)).mapM logits = some ((groups.map (packRow n m)).map fun r => (logits r).getD fun _ _ => 0) := by
    apply mapM_some
    intro r hr
    obtain ⟨g, hg, rfl⟩ := List.mem_map.1 hr
    obtain ⟨y, hy, _⟩ := ha g hg
    rw [hy]; rfl
  have hlnf := lnf_eq h weighted lnf hs
  have hloss := loss_eq h weighted logits ref ha lnf smoothing z _ _ (weightOf_length weighted lnf) hlnf
  simp only [lossFn, hl, Option.bind_some, hlnf, Option.map_some, Option.some.injEq] at hloss
  refine ⟨_, by simp only [metricArgs, hl, Option.bind_some, hlnf, Option.map_some]; rfl, ?_⟩
  have hwl : ∀ g ∈ groups, (g.flatMap (weightOf weighted lnf) ++ List.replicate (fill n g) 0).length = n := by
    intro g hg
    rw [List.length_append, flatMap_length_eq _ Example.targets g fun e he => weightOf_length weighted lnf e (h.wf g hg e he), List.length_replicate, fill]
    have := (h.fits g hg).1
    omega
  have hpos : ∀ A : BaseMetrics.Args ℝ, A.logits = (((groups.map (packRow n m)).map fun r => (logits r).getD fun _ _ => 0).map fun y => List.ofFn fun i => List.ofFn (y i)) →
      A.targets = ((groups.map (packRow n m)).map fun r => List.ofFn r.decTargets) →
      A.mask = some (groups.map fun g => g.flatMap (weightOf weighted lnf) ++ List.replicate (fill n g) 0) →
      BaseMetrics.Spec.positions A = groups.flatMap fun g => List.zipWith (fun (p : List ℝ × ℤ) (w : ℝ) => (p.1, p.2, w))
        (List.ofFn fun j => (List.ofFn (((logits (packRow n m g)).getD fun _ _ => 0) j), (packRow n m g).decTargets j))
        (g.flatMap (weightOf weighted lnf) ++ List.replicate (fill n g) 0) := by
    intro A h1 h2 h3
    simp only [BaseMetrics.Spec.positions, BaseMetrics.Spec.weights, h1, h2, h3, Option.elim]
    clear h1 h2 h3 hloss hlnf hl A ha h hs
    induction groups with
    | nil => rfl
    | cons g groups ih =>
      have ih := ih fun g hg => hwl g (List.mem_cons_of_mem _ hg)
      have hg := hwl g (List.mem_cons_self ..)
      simp only [List.map_cons, List.flatten_cons, List.flatMap_cons]
      rw [List.zip_append (by simp [hg]), List.zip_append (by simp [hg]), ih]
      congr 1
      apply List.ext_getElem
      · simp
      · intro i h1 h2; simp
  refine ⟨?_, ?_, ?_, ?_, ?_, ?_, ?_, ?_, rfl⟩
  · intro hV
    refine ⟨?_, ?_, ?_, ?_, ?_, ?_⟩
    · simp [Function.comp_def]
    · intro r hr v hv
      simp only [List.mem_map] at hr
      obtain ⟨y, -, rfl⟩ := hr
      obtain ⟨i, rfl⟩ := (List.mem_ofFn' _ _).1 hv
      intro h0
      have := congrArg List.length h0
      simp at this
      omega
    · intro M hM
      simp only [Option.some.injEq] at hM
      subst hM
      simp only [List.map_map, Function.comp_def, List.length_ofFn]
      exact List.map_congr_left hwl
    · intro segs hs f rows hm
      simp only [Option.some.injEq] at hs
      subst hs
      rw [segments_eq] at hm
      have hrect : ∃ k, ∀ r ∈ rows, r.length = k := by
        cases packed <;> cases encoder <;>
          simp only [Bool.false_eq_true, if_false, if_true, List.nil_append, List.cons_append, List.mem_cons, List.not_mem_nil, or_false, Prod.mk.injEq,
            Option.some.injEq] at hm
        · obtain ⟨-, rfl⟩ := hm
          exact ⟨n, fun r hr => by simp only [List.map_map, List.mem_map] at hr; obtain ⟨g, -, rfl⟩ := hr; simp⟩
        · rcases hm with ⟨-, rfl⟩ | ⟨-, rfl⟩
          · exact ⟨m, fun r hr => by simp only [List.map_map, List.mem_map] at hr; obtain ⟨g, -, rfl⟩ := hr; simp⟩
          · exact ⟨n, fun r hr => by simp only [List.map_map, List.mem_map] at hr; obtain ⟨g, -, rfl⟩ := hr; simp⟩
        · obtain ⟨-, rfl⟩ := hm
          exact ⟨n, fun r hr => by simp only [List.map_map, List.mem_map] at hr; obtain ⟨g, -, rfl⟩ := hr; simp⟩
        · rcases hm with ⟨-, rfl⟩ | ⟨-, rfl⟩
          · exact ⟨m, fun r hr => by simp only [List.map_map, List.mem_map] at hr; obtain ⟨g, -, rfl⟩ := hr; simp⟩
          · exact ⟨n, fun r hr => by simp only [List.map_map, List.mem_map] at hr; obtain ⟨g, -, rfl⟩ := hr; simp⟩
      obtain ⟨k, hk⟩ := hrect
      intro r hr r' hr'
      rw [hk r hr, hk r' hr']
    · simp only [Option.getD_some, segments_eq]
      cases packed <;> cases encoder <;> simp <;> decide
    · simp only [Option.getD_some, segments_eq]
      cases packed <;> cases encoder <;> simp <;> decide
  · simp only [BaseMetrics.Spec.correct]
    rw [hpos _ rfl rfl rfl, countP_flatMap', List.map_flatten, List.sum_flatten, List.map_map]
    congr 2
    refine List.map_congr_left fun g hg => ?_
    obtain ⟨y, hy, hy'⟩ := ha g hg
    obtain ⟨rest, hrest⟩ := row_terms (m := m) (fun v t => (List.ofFn v, t)) ([], 0) ref g (h.fits g hg).1 y hy'
    rw [hy, Option.getD_some, hrest, zipWith_flatMap _ _ _ _ fun x hx => by simp [weightOf_length weighted lnf x (h.wf g hg x hx)], List.countP_append,
      countP_flatMap']
    have hz : ∀ P : List ℝ × ℤ × ℝ → Bool, (∀ q, q.2.2 = 0 → P q = false) →
        (List.zipWith (fun (p : List ℝ × ℤ) (w : ℝ) => (p.1, p.2, w)) rest (List.replicate (fill n g) 0)).countP P = 0 := by
      intro P hP
      rw [List.countP_eq_zero]
      intro p hp
      obtain ⟨i, hi, rfl⟩ := List.getElem_of_mem hp
      rw [hP _ (by simp)]
      exact Bool.false_ne_true
    rw [hz _ (fun q hq => by simp [hq]), add_zero, Function.comp_apply]
    refine congrArg List.sum (List.map_congr_left fun x hx => ?_)
    have hx' := h.wf g hg x hx
    rw [zipWith_range _ _ _ _ 0 (weightOf_length weighted lnf x hx'), List.countP_map, right]
    refine List.countP_congr fun i hi => ?_
    have := weightOf_ne weighted lnf x hx' i (List.mem_range.1 hi)
    simp only [Function.comp_apply, decide_eq_true_eq, this]
  · simp only [BaseMetrics.Spec.unmasked, BaseMetrics.Spec.weights, Option.elim]
    rw [List.flatten_eq_flatMap, List.flatMap_map, countP_flatMap', List.map_flatten, List.sum_flatten, List.map_map]
    congr 2
    refine List.map_congr_left fun g hg => ?_
    rw [id_eq, List.countP_append, countP_flatMap', Function.comp_apply]
    have hz : (List.replicate (fill n g) (0 : ℝ)).countP (fun w => decide (w ≠ 0)) = 0 := by
      rw [List.countP_eq_zero]
      intro p hp
      rw [List.eq_of_mem_replicate hp]; simp
    rw [hz, add_zero]
    refine congrArg List.sum (List.map_congr_left fun x hx => ?_)
    have hx' := h.wf g hg x hx
    have e1 : weightOf weighted lnf x = (List.range x.targets.length).map fun i => (weightOf weighted lnf x).getD i 0 := by
      apply List.ext_getElem
      · simp [weightOf_length weighted lnf x hx']
      · intro i h1 h2; simp [List.getD_eq_getElem?_getD, h1]
    rw [e1, List.countP_map, counted]
    refine List.countP_congr fun i hi => ?_
    have := weightOf_ne weighted lnf x hx' i (List.mem_range.1 hi)
    simp only [Function.comp_apply, decide_eq_true_eq, this]
  · simp only [BaseMetrics.Spec.weights, Option.elim]
    have := total_weights groups (weightOf weighted lnf) (fill n)
    rw [← this, List.sum_flatten]
    rfl
  · exact congrArg Prod.fst hloss
  · exact congrArg (fun v => some v.2.1) hloss
  · simp [BaseMetrics.Spec.tokens, Function.comp_def]
  · simp [BaseMetrics.Spec.examples]

/-! ### The features -/

/-- The segments of a row of packed examples. -/
def segs (len : Example → Nat) : Int → List Example → List (LossWeights.Spec.Seq ℚ)
  | _, [] => []
  | k, e :: es => ⟨k, List.replicate (len e) 0⟩ :: segs len (k + 1) es

theorem segs_spec (len : Example → Nat) (es : List Example) (hl : ∀ e ∈ es, len e ≠ 0) (k : Int) (hk : 0 < k) :
    (segs len k es).flatMap (fun s => s.weights.map (fun _ => s.id)) = ids len k es ∧ (∀ s ∈ segs len k es, s.weights ≠ [] ∧ k ≤ s.id) ∧
    ((segs len k es).map (·.id)).Nodup ∧ (segs len k es).length = es.length ∧
    (ids len k es).countP (fun x => decide (x ≠ 0)) = (es.map len).sum := by
  induction es generalizing k with
  | nil => exact ⟨rfl, by simp [segs], by simp [segs], rfl, rfl⟩
  | cons e es ih =>
    obtain ⟨h1, h2, h3, h4, h5⟩ := ih (fun e' he' => hl e' (List.mem_cons_of_mem _ he')) (k + 1) (by omega)
    have he := hl e (List.mem_cons_self ..)
    refine ⟨?_, ?_, ?_, ?_, ?_⟩
    · simp only [segs, List.flatMap_cons, h1, ids]
      congr 1
      simp
    · intro s hs
      simp only [segs, List.mem_cons] at hs
      rcases hs with rfl | hs
      · exact ⟨by simp [he], le_rfl⟩
      · exact ⟨(h2 s hs).1, by have := (h2 s hs).2; omega⟩
    · simp only [segs, List.map_cons, List.nodup_cons]
      refine ⟨fun hm => ?_, h3⟩
      obtain ⟨s, hs, hk'⟩ := List.mem_map.1 hm
      have := (h2 s hs).2
      omega
    · simp only [segs, List.length_cons, h4]
    · simp only [ids, List.countP_append, h5, List.map_cons, List.sum_cons]
      congr 1
      rw [List.countP_eq_length.2 (fun x hx => by rw [List.eq_of_mem_replicate hx]; simp; omega), List.length_replicate]

/-- Rows of segment ids hold the examples. -/
theorem holds_ids (N : Nat) (hN : 0 < N) (len : Example → Nat) (groups : List (List Example)) (hl : ∀ g ∈ groups, ∀ e ∈ g, len e ≠ 0)
    (hf : ∀ g ∈ groups, (g.map len).sum ≤ N) :
    let R := groups.map fun g => List.ofFn (pad N (ids len 1 g))
    BaseMetrics.Spec.Holds R groups.flatten.length ∧ (BaseMetrics.Spec.filled R : ℝ) = ((groups.flatten.map len).sum : ℕ) ∧
      (BaseMetrics.Spec.entries R : ℝ) = (groups.length * N : ℕ) := by
  intro R
  have hrow : ∀ g ∈ groups, List.ofFn (pad N (ids len 1 g)) =
      LossWeights.Spec.rowIds (segs len 1 g) (List.replicate (N - (g.map len).sum) 0) := by
    intro g hg
    rw [ofFn_pad _ _ (by rw [ids_length]; exact hf g hg), ids_length, LossWeights.Spec.rowIds, (segs_spec len g (hl g hg) 1 (by decide)).1]
    simp
  refine ⟨⟨groups.map fun g => ⟨segs len 1 g, List.replicate (N - (g.map len).sum) 0⟩, ?_, ?_, ?_, ?_⟩, ?_, ?_⟩
  · rw [List.map_map]
    exact List.map_congr_left hrow
  · intro r hr
    obtain ⟨g, hg, rfl⟩ := List.mem_map.1 hr
    dsimp only
    rw [← hrow g hg]
    intro h0
    have := congrArg List.length h0
    simp at this
    omega
  · intro r hr
    obtain ⟨g, hg, rfl⟩ := List.mem_map.1 hr
    obtain ⟨-, h2, h3, -⟩ := segs_spec len g (hl g hg) 1 (by decide)
    exact ⟨fun s hs => ⟨(h2 s hs).1, by have := (h2 s hs).2; omega⟩, h3⟩
  · clear hrow hf
    induction groups with
    | nil => rfl
    | cons g groups ih =>
      simp only [List.map_cons, List.flatMap_cons, List.flatten_cons, List.length_append]
      rw [(segs_spec len g (hl g (List.mem_cons_self ..)) 1 (by decide)).2.2.2.1, ih fun g' hg' => hl g' (List.mem_cons_of_mem _ hg')]
  · simp only [BaseMetrics.Spec.filled, R, List.map_map]
    congr 1
    rw [List.map_flatten, List.sum_flatten, List.map_map]
    refine congrArg List.sum (List.map_congr_left fun g hg => ?_)
    rw [Function.comp_apply, ofFn_pad _ _ (by rw [ids_length]; exact hf g hg), List.countP_append, (segs_spec len g (hl g hg) 1 (by decide)).2.2.2.2]
    rw [List.countP_eq_zero.2 (fun x hx => by rw [List.eq_of_mem_replicate hx]; simp)]
    rfl
  · simp [BaseMetrics.Spec.entries, R, Function.comp_def]

/-- The mask of the tokens of a padded row is its row of segment ids. -/
theorem mask_row (N : Nat) (l : List Int) (hl : ∀ t ∈ l, t > 0) (hN : l.length ≤ N) (len : Example → Nat) (e : Example) (he : len e = l.length) :
    (List.ofFn (pad N l)).map (fun t => if t ≠ 0 then (1 : ℤ) else 0) = List.ofFn (pad N (ids len 1 [e])) := by
  rw [ofFn_pad _ _ hN, ofFn_pad _ _ (by rw [ids_length]; simpa [he] using hN), ids_length]
  simp only [List.map_append, List.map_replicate, ids, List.append_nil, he, List.map_cons, List.map_nil, List.sum_cons, List.sum_nil, add_zero]
  congr 1
  rw [List.eq_replicate_iff]
  refine ⟨by simp, fun b hb => ?_⟩
  obtain ⟨y, hy, rfl⟩ := List.mem_map.1 hb
  rw [if_pos (hl y hy).ne']

/-- The name under which the decoder's (encoder's) feature is reported. -/
def decName (packed : Bool) : List Char := if packed then "decoder".toList else "decoder_target_tokens".toList
def encName (packed : Bool) : List Char := if packed then "encoder".toList else "encoder_input_tokens".toList

theorem features_eq {n m : Nat} (encoder : Bool) {packed : Bool} {groups : List (List Example)} (h : Made n m packed groups) (weighted : Bool)
    (htext : encoder = true → ∀ g ∈ groups, ∀ x ∈ g, x.HasText) (hne : groups.flatten ≠ []) (A : BaseMetrics.Args ℝ)
    (hA : A.segments = some (BaseMetrics.segmentIds (tokenFeatures encoder ⟨groups.map (packRow n m), packed, weighted⟩))) :
    0 < n ∧ (encoder = true → 0 < m) ∧
    BaseMetrics.Spec.features A =
      (if encoder then [(encName packed, groups.map fun g => List.ofFn (pad m (ids (fun e => e.enc.length) 1 g)))] else []) ++
      [(decName packed, groups.map fun g => List.ofFn (pad n (ids (fun e => e.targets.length) 1 g)))] := by
  obtain ⟨x, hx⟩ := List.exists_mem_of_ne_nil _ hne
  obtain ⟨g, hg, hxg⟩ := List.mem_flatten.1 hx
  obtain ⟨pre, post, hgp⟩ := List.append_of_mem hxg
  have hn : 0 < n := by
    have := (row_length hgp Example.targets).trans (h.fits g hg).1
    have := List.length_pos_iff.2 (h.wf g hg x hxg).ne
    omega
  have hm : encoder = true → 0 < m := by
    intro he
    have := (row_length hgp Example.enc).trans (h.fits g hg).2
    have := List.length_pos_iff.2 (htext he g hg x hxg).1
    omega
  refine ⟨hn, hm, ?_⟩
  have hkeep : ∀ (N : Nat) (F : List Example → Fin N → ℤ), 0 < N → ∃ r ∈ groups.map (fun g => List.ofFn (F g)), r ≠ [] := by
    intro N F hN
    refine ⟨_, List.mem_map_of_mem hg, fun h0 => ?_⟩
    have := congrArg List.length h0
    simp at this
    omega
  have hd : packed = false → ((groups.map (packRow n m)).map fun r => List.ofFn r.decTargets).map (fun r => r.map fun t => if t ≠ 0 then (1 : ℤ) else 0) =
      groups.map fun g => List.ofFn (pad n (ids (fun e => e.targets.length) 1 g)) := by
    intro hp
    simp only [List.map_map]
    refine List.map_congr_left fun g hg => ?_
    obtain ⟨e, rfl⟩ := h.single hp g hg
    have hw := h.wf _ hg e (List.mem_singleton.2 rfl)
    have hfit := (h.fits _ hg).1
    simp only [List.flatMap_cons, List.flatMap_nil, List.append_nil] at hfit
    simp only [Function.comp_apply, packRow, List.flatMap_cons, List.flatMap_nil, List.append_nil]
    exact mask_row n e.targets hw.pos hfit _ e rfl
  have he : packed = false → encoder = true → ((groups.map (packRow n m)).map fun r => List.ofFn r.encTokens).map (fun r => r.map fun t => if t ≠ 0 then (1 : ℤ) else 0) =
      groups.map fun g => List.ofFn (pad m (ids (fun e => e.enc.length) 1 g)) := by
    intro hp henc
    simp only [List.map_map]
    refine List.map_congr_left fun g hg => ?_
    obtain ⟨e, rfl⟩ := h.single hp g hg
    have hw := htext henc _ hg e (List.mem_singleton.2 rfl)
    have hfit := (h.fits _ hg).2
    simp only [List.flatMap_cons, List.flatMap_nil, List.append_nil] at hfit
    simp only [Function.comp_apply, packRow, List.flatMap_cons, List.flatMap_nil, List.append_nil]
    exact mask_row m e.enc hw.2 hfit _ e rfl
  have kd := hkeep n (fun g => pad n (ids (fun e => e.targets.length) 1 g)) hn
  unfold BaseMetrics.Spec.features
  rw [hA, segments_eq, Option.getD_some]
  cases packed <;> cases encoder
  · simp only [Bool.false_eq_true, if_false, hd rfl]
    simp only [List.nil_append, List.filterMap_cons, List.filterMap_nil, Option.map_some, List.filter_cons, List.filter_nil, decide_eq_true kd, if_true]
    rfl
  · have ke := hkeep m (fun g => pad m (ids (fun e => e.enc.length) 1 g)) (hm rfl)
    simp only [Bool.false_eq_true, if_false, if_true, hd rfl, he rfl rfl]
    simp only [List.cons_append, List.nil_append, List.filterMap_cons, List.filterMap_nil, Option.map_some, List.filter_cons, List.filter_nil, decide_eq_true kd, decide_eq_true ke, if_true]
    rfl
  · simp only [Bool.false_eq_true, if_false, if_true, List.map_map, Function.comp_def, packRow]
    simp only [List.nil_append, List.filterMap_cons, List.filterMap_nil, Option.map_some, List.filter_cons, List.filter_nil, decide_eq_true kd, if_true]
    rfl
  · have ke := hkeep m (fun g => pad m (ids (fun e => e.enc.length) 1 g)) (hm rfl)
    simp only [if_true, List.map_map, Function.comp_def, packRow]
    simp only [List.cons_append, List.nil_append, List.filterMap_cons, List.filterMap_nil, Option.map_some, List.filter_cons, List.filter_nil, decide_eq_true kd, decide_eq_true ke, if_true]
    rfl

/-! ### A period -/

theorem leaves_map {α β : Type} (f : α → β) (t : MTree α) : (t.map f).leaves = t.leaves.map f := by
  induction t with
  | leaf a => rfl
  | node l r ihl ihr => simp only [MTree.map, MTree.leaves, ihl, ihr, List.map_append]

theorem map_map {α β γ : Type} (f : α → β) (g : β → γ) (t : MTree α) : (t.map f).map g = t.map fun a => g (f a) := by
  induction t with
  | leaf a => rfl
  | node l r ihl ihr => simp only [MTree.map, ihl, ihr]

/-- A batch's pieces: how the groups are laid out, and what the metrics are computed from. -/
structure Pieces (encoder packed weighted : Bool) (n m : Nat) (lnf : LossWeights.LNF ℝ) (ref : Example → Nat → Vec V) (smoothing z : ℝ)
    (layout : List (List Example) → List (List Example)) (A : List (List Example) → BaseMetrics.Args ℝ) (t : MTree (List (List Example))) : Prop where
  made : ∀ g ∈ t.leaves, Made n m packed (layout g)
  same : ∀ g, (layout g).flatten = g.flatten
  text : encoder = true → ∀ g ∈ t.leaves, ∀ x ∈ g.flatten, x.HasText
  ne : ∀ g ∈ t.leaves, g.flatten ≠ []
  args : ∀ g ∈ t.leaves, Describes encoder packed weighted n m lnf ref smoothing z (layout g) (A g)

section
variable {encoder packed weighted : Bool} {n m : Nat} {lnf : LossWeights.LNF ℝ} {ref : Example → Nat → Vec V} {smoothing z : ℝ}
  {layout : List (List Example) → List (List Example)} {A : List (List Example) → BaseMetrics.Args ℝ} {t : MTree (List (List Example))}

theorem total_all (t : MTree (List (List Example))) (f : Example → ℝ) : (t.leaves.map fun g => (g.flatten.map f).sum).sum = ((all t).map f).sum := by
  unfold all
  induction t.leaves with
  | nil => rfl
  | cons g l ih => simp only [List.map_cons, List.sum_cons, ih, List.flatMap_cons, List.map_append, List.sum_append]

theorem total_all_nat (t : MTree (List (List Example))) (f : Example → ℕ) :
    (t.leaves.map fun g => (((g.flatten.map f).sum : ℕ) : ℝ)).sum = (((all t).map f).sum : ℕ) := by
  have := total_all t fun x => (f x : ℝ)
  have hc : ∀ l : List Example, ((l.map f).sum : ℕ) = (l.map fun x => (f x : ℝ)).sum := by
    intro l
    induction l with
    | nil => simp
    | cons x l ih => simp only [List.map_cons, List.sum_cons, Nat.cast_add, ih]
  rw [hc, ← this]
  exact congrArg List.sum (List.map_congr_left fun g _ => hc _)

theorem pieces_good (hV : 0 < V) (h : Pieces encoder packed weighted n m lnf ref smoothing z layout A t) : ∀ a ∈ (t.map A).leaves, BaseMetrics.Spec.Good a := by
  intro a ha
  rw [leaves_map] at ha
  obtain ⟨g, hg, rfl⟩ := List.mem_map.1 ha
  exact (h.args g hg).good hV

theorem pieces_features (h : Pieces encoder packed weighted n m lnf ref smoothing z layout A t) (g : List (List Example)) (hg : g ∈ t.leaves) :
    0 < n ∧ (encoder = true → 0 < m) ∧
    BaseMetrics.Spec.features (A g) =
      (if encoder then [(encName packed, (layout g).map fun g => List.ofFn (pad m (ids (fun e => e.enc.length) 1 g)))] else []) ++
      [(decName packed, (layout g).map fun g => List.ofFn (pad n (ids (fun e => e.targets.length) 1 g)))] :=
  features_eq encoder (h.made g hg) weighted
    (fun he g' hg' x hx => h.text he g hg x (by rw [← h.same g]; exact List.mem_flatten.2 ⟨g', hg', hx⟩)) (by rw [h.same g]; exact h.ne g hg) (A g)
    (h.args g hg).segments

theorem pieces_alike (h : Pieces encoder packed weighted n m lnf ref smoothing z layout A t) : BaseMetrics.Spec.Alike (t.map A) := by
  intro a ha b hb
  rw [leaves_map] at ha hb
  obtain ⟨g, hg, rfl⟩ := List.mem_map.1 ha
  obtain ⟨g', hg', rfl⟩ := List.mem_map.1 hb
  refine ⟨by rw [(h.args g hg).zLoss, (h.args g' hg').zLoss]; rfl, by rw [(h.args g hg).segments, (h.args g' hg').segments]; rfl, ?_⟩
  rw [(pieces_features h g hg).2.2, (pieces_features h g' hg').2.2]
  cases encoder <;> rfl

/-- The summary of a period, in terms of its examples. -/
theorem period (hV : 0 < V) (h : Pieces encoder packed weighted n m lnf ref smoothing z layout A t) (devices : Nat) (dur : ℝ) (steps : Nat) :
    let R := BaseMetrics.Spec.Reports (fun g => BaseMetrics.baseMetrics devices (A g)) t dur steps
    let loss := (t.leaves.map fun g => over (factorOf weighted g.flatten lnf)
      (g.flatten.map fun e => (List.zipWith (· * ·) ((terms smoothing z ref e).map Prod.fst) (weightOf weighted lnf e)).sum).sum).sum
    let zl := (t.leaves.map fun g => over (factorOf weighted g.flatten lnf)
      (g.flatten.map fun e => (List.zipWith (· * ·) ((terms smoothing z ref e).map Prod.snd) (weightOf weighted lnf e)).sum).sum).sum
    R "accuracy".toList ((((all t).map fun x => right weighted x (ref x)).sum : ℕ) / (((all t).map fun x => counted weighted x).sum : ℕ)) ∧
    R "loss".toList (loss / steps) ∧
    R "loss_per_nonpadding_target_token".toList (loss / ((all t).map fun x => (weightOf weighted lnf x).sum).sum) ∧
    R "z_loss".toList (zl / steps) ∧
    R "cross_ent_loss".toList ((loss - zl) / steps) ∧
    R "timing/seqs".toList ((t.leaves.map fun g => (layout g).length).sum : ℕ) ∧
    R ("effective_batch_size/".toList ++ decName packed) ((all t).length / steps) ∧
    R ("non_padding_fraction/".toList ++ decName packed)
      ((((all t).map fun x => x.targets.length).sum : ℕ) / ((t.leaves.map fun g => (layout g).length).sum * n : ℕ)) ∧
    (encoder = true → R ("effective_batch_size/".toList ++ encName packed) ((all t).length / steps) ∧
      R ("non_padding_fraction/".toList ++ encName packed)
        ((((all t).map fun x => x.enc.length).sum : ℕ) / ((t.leaves.map fun g => (layout g).length).sum * m : ℕ))) := by
  intro R loss zl
  have hR : ∀ k v, R k v ↔ BaseMetrics.Spec.Reports (BaseMetrics.baseMetrics devices) (t.map A) dur steps k v := by
    intro k v
    simp only [R, BaseMetrics.Spec.Reports, map_map]
  have htot : ∀ f : BaseMetrics.Args ℝ → ℝ, BaseMetrics.Spec.total (t.map A) f = (t.leaves.map fun g => f (A g)).sum := by
    intro f
    rw [BaseMetrics.Spec.total, leaves_map, List.map_map]
    rfl
  have hsum : ∀ f g : List (List Example) → ℝ, (∀ x ∈ t.leaves, f x = g x) → (t.leaves.map f).sum = (t.leaves.map g).sum :=
    fun f g hfg => congrArg List.sum (List.map_congr_left hfg)
  have hloss : BaseMetrics.Spec.total (t.map A) BaseMetrics.Args.loss = loss := by
    rw [htot]
    exact hsum _ _ fun g hg => by rw [(h.args g hg).loss, h.same g]
  obtain ⟨c1, c2, c3, -, -, -, -, c4, -⟩ := BaseMetrics.C77_report devices (t.map A) (pieces_good hV h) (pieces_alike h) dur steps
  have hz : ∀ a ∈ (t.map A).leaves, a.zLoss = some (a.zLoss.getD 0) := by
    intro a ha
    rw [leaves_map] at ha
    obtain ⟨g, hg, rfl⟩ := List.mem_map.1 ha
    rw [(h.args g hg).zLoss]; rfl
  have hzl : BaseMetrics.Spec.total (t.map A) (fun a => a.zLoss.getD 0) = zl := by
    rw [htot]
    exact hsum _ _ fun g hg => by rw [(h.args g hg).zLoss, h.same g]; rfl
  obtain ⟨c5, -, c6, -⟩ := BaseMetrics.C77_z devices (t.map A) (pieces_good hV h) (pieces_alike h) dur steps _ hz
  obtain ⟨c7, -⟩ := BaseMetrics.C77_features devices (t.map A) (pieces_good hV h) (pieces_alike h) dur steps (by
    intro a ha
    rw [leaves_map] at ha
    obtain ⟨g, hg, rfl⟩ := List.mem_map.1 ha
    rw [(h.args g hg).segments]; rfl)
  have hfeat : ∀ (name : List Char) (N : Nat) (len : Example → Nat), 0 < N → (∀ g ∈ t.leaves, ∀ x ∈ g.flatten, len x ≠ 0) →
      (∀ g ∈ t.leaves, ∀ r ∈ layout g, (r.map len).sum ≤ N) →
      (∀ g ∈ t.leaves, name ∈ (BaseMetrics.Spec.features (A g)).map Prod.fst ∧
        BaseMetrics.Spec.feature name (A g) = (layout g).map fun r => List.ofFn (pad N (ids len 1 r))) →
      R ("effective_batch_size/".toList ++ name) ((all t).length / steps) ∧
      R ("non_padding_fraction/".toList ++ name) ((((all t).map len).sum : ℕ) / ((t.leaves.map fun g => (layout g).length).sum * N : ℕ)) := by
    intro name N len hN hl hfit hf
    have hall : ∀ g ∈ t.leaves, _ := fun g hg => holds_ids N hN len (layout g) (fun r hr x hx => hl g hg x (by
      rw [← h.same g]; exact List.mem_flatten.2 ⟨r, hr, hx⟩)) (hfit g hg)
    obtain ⟨k1, k2⟩ := c7 name (by
      intro a ha
      rw [leaves_map] at ha
      obtain ⟨g, hg, rfl⟩ := List.mem_map.1 ha
      exact (hf g hg).1)
    rw [hR, hR]
    constructor
    · have := k2 (fun a => LossWeights.countPackedExamples (BaseMetrics.Spec.feature name a) |>.toNat) (by
        intro a ha
        rw [leaves_map] at ha
        obtain ⟨g, hg, rfl⟩ := List.mem_map.1 ha
        rw [(hf g hg).2]
        obtain ⟨R', hR1, hR2, hR3, hR4⟩ := (hall g hg).1
        have hcount := (LossWeights.C16_count R' hR2 hR3).1
        rw [← hR1, ← hR4] at hcount
        rw [hcount, Int.toNat_natCast]
        exact (hall g hg).1)
      rw [htot] at this
      have e1 : (t.leaves.map fun g => ((LossWeights.countPackedExamples (BaseMetrics.Spec.feature name (A g))).toNat : ℝ)).sum = ((all t).length : ℝ) := by
        rw [hsum _ (fun g => (((g.flatten.map fun _ => 1).sum : ℕ) : ℝ)) (fun g hg => by
          rw [(hf g hg).2]
          obtain ⟨R', hR1, hR2, hR3, hR4⟩ := (hall g hg).1
          have hcount := (LossWeights.C16_count R' hR2 hR3).1
          rw [← hR1, ← hR4] at hcount
          rw [hcount, Int.toNat_natCast, h.same g, List.map_const', List.sum_replicate, smul_eq_mul, mul_one]), total_all_nat]
        simp
      rw [e1] at this
      exact this
    · rw [htot, htot] at k1
      rw [hsum _ (fun g => (((g.flatten.map len).sum : ℕ) : ℝ)) (fun g hg => by rw [(hf g hg).2, (hall g hg).2.1, h.same g]), total_all_nat,
        hsum _ (fun g => (((layout g).length * N : ℕ) : ℝ)) (fun g hg => by rw [(hf g hg).2, (hall g hg).2.2])] at k1
      have e2 : (t.leaves.map fun g => (((layout g).length * N : ℕ) : ℝ)).sum = ((t.leaves.map fun g => (layout g).length).sum * N : ℕ) := by
        clear hsum hf hall k1 hfit hl
        induction t.leaves with
        | nil => simp
        | cons g l ih => simp only [List.map_cons, List.sum_cons, ih]; push_cast; ring
      rw [e2] at k1
      exact k1
  have hwf : ∀ g ∈ t.leaves, ∀ x ∈ g.flatten, x.WF := by
    intro g hg x hx
    rw [← h.same g] at hx
    obtain ⟨r, hr, hxr⟩ := List.mem_flatten.1 hx
    exact (h.made g hg).wf r hr x hxr
  have hn : 0 < n ∧ (encoder = true → 0 < m) := by
    obtain ⟨a, ha⟩ := BaseMetrics.leaves_ne t
    exact ⟨(pieces_features h a ha).1, (pieces_features h a ha).2.1⟩
  refine ⟨?_, ?_, ?_, ?_, ?_, ?_, ?_⟩
  · rw [hR]
    rw [htot, htot, hsum _ _ fun g hg => (h.args g hg).correct, hsum _ _ fun g hg => (h.args g hg).unmasked] at c1
    simp only [h.same] at c1
    rw [total_all_nat, total_all_nat] at c1
    exact c1
  · rw [hR, ← hloss]; exact c2
  · rw [hR, ← hloss]
    have e1 : (BaseMetrics.Spec.total (t.map A) fun a => (BaseMetrics.Spec.weights a).sum) = ((all t).map fun x => (weightOf weighted lnf x).sum).sum := by
      rw [htot, hsum _ _ fun g hg => (h.args g hg).weight]
      simp only [h.same]
      exact total_all t _
    rw [← e1]
    exact c3
  · rw [hR, ← hzl]; exact c5
  · rw [hR, ← hzl, ← hloss]; exact c6
  · rw [hR]
    rw [htot, hsum _ _ fun g hg => (h.args g hg).examples] at c4
    have e2 : (t.leaves.map fun g => (((layout g).length : ℕ) : ℝ)).sum = ((t.leaves.map fun g => (layout g).length).sum : ℕ) := by
      clear hsum
      induction t.leaves with
      | nil => simp
      | cons g l ih => simp only [List.map_cons, List.sum_cons, ih]; push_cast; ring
    rw [e2] at c4
    exact c4
  · have hd := hfeat (decName packed) n (fun x => x.targets.length) hn.1 (fun g hg x hx h0 => (hwf g hg x hx).ne (List.length_eq_zero_iff.1 h0))
      (fun g hg r hr => by rw [sum_lengths]; exact ((h.made g hg).fits r hr).1)
      (fun g hg => by
        have hf := (pieces_features h g hg).2.2
        simp only [BaseMetrics.Spec.feature, hf]
        exact ⟨List.mem_map.2 ⟨_, List.mem_append_right _ (List.mem_singleton.2 rfl), rfl⟩, by cases encoder <;> cases packed <;> rfl⟩)
    refine ⟨hd.1, hd.2, fun henc => ?_⟩
    exact hfeat (encName packed) m (fun x => x.enc.length) (hn.2 henc) (fun g hg x hx h0 => (h.text henc g hg x hx).1 (List.length_eq_zero_iff.1 h0))
      (fun g hg r hr => by rw [sum_lengths]; exact ((h.made g hg).fits r hr).2)
      (fun g hg => by
        have hf := (pieces_features h g hg).2.2
        simp only [BaseMetrics.Spec.feature, hf]
        subst henc
        exact ⟨List.mem_map.2 ⟨_, List.mem_append_left _ (List.mem_singleton.2 rfl), rfl⟩, by cases packed <;> rfl⟩)

end

theorem packed_pieces (encoder weighted : Bool) {n m : Nat} (lnf : LossWeights.LNF ℝ) (hs : PackingSafe weighted lnf) (ref : Example → Nat → Vec V) (smoothing z : ℝ)
    (logits : TrainRow n m → Option (Fin n → Vec V)) (t : MTree (List (List Example))) (hne : ∀ groups ∈ t.leaves, groups.flatten ≠ [])
    (hwf : ∀ groups ∈ t.leaves, ∀ g ∈ groups, ∀ x ∈ g, x.WF) (htext : encoder = true → ∀ groups ∈ t.leaves, ∀ g ∈ groups, ∀ x ∈ g, x.HasText)
    (hfit : ∀ groups ∈ t.leaves, ∀ g ∈ groups, Fits n m g) (ha : ∀ groups ∈ t.leaves, ∀ g ∈ groups, PackedLoss.Agree logits ref g) :
    ∃ A, (∀ g ∈ t.leaves, metricArgs encoder logits lnf smoothing z (packedBatch n m weighted g) = some (A g)) ∧
      Pieces encoder true weighted n m lnf ref smoothing z id A t := by
  have hm : ∀ g ∈ t.leaves, Made n m true g := fun g hg => made_packed (hwf g hg) (hfit g hg)
  have : ∀ g, ∃ A, g ∈ t.leaves → metricArgs encoder logits lnf smoothing z (packedBatch n m weighted g) = some A ∧
      Describes encoder true weighted n m lnf ref smoothing z g A := by
    intro g
    by_cases hg : g ∈ t.leaves
    · obtain ⟨A, h1, h2⟩ := describes encoder (hm g hg) weighted logits ref (ha g hg) lnf hs smoothing z
      exact ⟨A, fun _ => ⟨h1, h2⟩⟩
    · exact ⟨⟨[], [], none, 0, none, none⟩, fun h => absurd h hg⟩
  choose A hA using this
  refine ⟨A, fun g hg => (hA g hg).1, hm, fun g => rfl, fun he g hg x hx => ?_, hne, fun g hg => (hA g hg).2⟩
  obtain ⟨r, hr, hx⟩ := List.mem_flatten.1 hx
  exact htext he g hg r hr x hx

theorem padded_pieces (encoder weighted : Bool) {n m : Nat} (lnf : LossWeights.LNF ℝ) (hs : PackingSafe weighted lnf) (ref : Example → Nat → Vec V) (smoothing z : ℝ)
    (logits : TrainRow n m → Option (Fin n → Vec V)) (t : MTree (List (List Example))) (hne : ∀ groups ∈ t.leaves, groups.flatten ≠ [])
    (hwf : ∀ groups ∈ t.leaves, ∀ g ∈ groups, ∀ x ∈ g, x.WF) (htext : encoder = true → ∀ groups ∈ t.leaves, ∀ g ∈ groups, ∀ x ∈ g, x.HasText)
    (hfit : ∀ groups ∈ t.leaves, ∀ g ∈ groups, ∀ x ∈ g, Fits n m [x]) (ha : ∀ groups ∈ t.leaves, ∀ g ∈ groups, ∀ x ∈ g, PackedLoss.Agree logits ref [x]) :
    ∃ A, (∀ g ∈ t.leaves, metricArgs encoder logits lnf smoothing z (paddedBatch n m weighted g.flatten) = some (A g)) ∧
      Pieces encoder false weighted n m lnf ref smoothing z (fun g => g.flatten.map fun x => [x]) A t := by
  have hm : ∀ g ∈ t.leaves, Made n m false (g.flatten.map fun x => [x]) := fun g hg => made_padded (hwf g hg) (hfit g hg)
  have : ∀ g, ∃ A, g ∈ t.leaves → metricArgs encoder logits lnf smoothing z (paddedBatch n m weighted g.flatten) = some A ∧
      Describes encoder false weighted n m lnf ref smoothing z (g.flatten.map fun x => [x]) A := by
    intro g
    by_cases hg : g ∈ t.leaves
    · obtain ⟨A, h1, h2⟩ := describes encoder (hm g hg) weighted logits ref (fun r hr => by
        obtain ⟨x, hx, rfl⟩ := List.mem_map.1 hr
        obtain ⟨r, hr, hx⟩ := List.mem_flatten.1 hx
        exact ha g hg r hr x hx) lnf hs smoothing z
      rw [List.map_map] at h1
      exact ⟨A, fun _ => ⟨h1, h2⟩⟩
    · exact ⟨⟨[], [], none, 0, none, none⟩, fun h => absurd h hg⟩
  choose A hA using this
  refine ⟨A, fun g hg => (hA g hg).1, hm, fun g => flatten_singles _, fun he g hg x hx => ?_, hne, fun g hg => (hA g hg).2⟩
  obtain ⟨r, hr, hx⟩ := List.mem_flatten.1 hx
  exact htext he g hg r hr x hx

/-- What is common to all models: two families of pieces with the same logits for the examples. -/
theorem same_summary (hV : 0 < V) (encoder weighted : Bool) {n m n' m' : Nat} {lnf : LossWeights.LNF ℝ} {ref : Example → Nat → Vec V} {smoothing z : ℝ}
    {t t' : MTree (List (List Example))} (ht : t'.leaves = t.leaves) {args args' : List (List Example) → Option (BaseMetrics.Args ℝ)}
    {A A' : List (List Example) → BaseMetrics.Args ℝ} (h1 : ∀ g ∈ t.leaves, args g = some (A g)) (h1' : ∀ g ∈ t'.leaves, args' g = some (A' g))
    {layout layout' : List (List Example) → List (List Example)} {packed packed' : Bool}
    (h2 : Pieces encoder packed weighted n m lnf ref smoothing z layout A t) (h2' : Pieces encoder packed' weighted n' m' lnf ref smoothing z layout' A' t')
    (devices devices' : Nat) (dur dur' : ℝ) (steps : Nat) :
    ∀ k ∈ contentKeys, ∃ v, Summary args devices t dur steps k v ∧ Summary args' devices' t' dur' steps k v := by
  obtain ⟨p1, p2, p3, p4, p5, -⟩ := period hV h2 devices dur steps
  obtain ⟨q1, q2, q3, q4, q5, -⟩ := period hV h2' devices' dur' steps
  have hall : all t' = all t := by unfold all; rw [ht]
  rw [hall] at q1 q3
  rw [ht] at q2 q3 q4 q5
  intro k hk
  simp only [contentKeys, List.mem_cons, List.not_mem_nil, or_false] at hk
  rcases hk with rfl | rfl | rfl | rfl | rfl
  · exact ⟨_, ⟨A, h1, p1⟩, ⟨A', h1', q1⟩⟩
  · exact ⟨_, ⟨A, h1, p2⟩, ⟨A', h1', q2⟩⟩
  · exact ⟨_, ⟨A, h1, p3⟩, ⟨A', h1', q3⟩⟩
  · exact ⟨_, ⟨A, h1, p4⟩, ⟨A', h1', q4⟩⟩
  · exact ⟨_, ⟨A, h1, p5⟩, ⟨A', h1', q5⟩⟩

theorem rows_padded (t : MTree (List (List Example))) : (t.leaves.map fun g => (g.flatten.map fun x => [x]).length).sum = (all t).length := by
  unfold all
  rw [List.length_flatMap]
  simp only [List.length_map]

/-! ### Encoder-decoder models -/

section EncDec
variable {d h e f : Nat} {ex : ℝ → ℝ} {lg : ℕ → ℝ} {net : Transformer.Net d h e f V} {θ B : ℝ}

/-- **C120.** The summary of a period of training or evaluation reports the same accuracy, loss, loss per weight, z-loss and cross entropy for packed as for
padded batches with the same examples, for every number of devices and duration, and however the metrics of the pieces are merged. -/
theorem C120_same (hex : Underflows ex θ) (hθ : 0 < θ) (ht : Tame net θ B) (hV : 0 < V) {n m n' m' : Nat} (t t' : MTree (List (List Example)))
    (hleaves : t'.leaves = t.leaves) (hne : ∀ groups ∈ t.leaves, groups.flatten ≠ [])
    (hwf : ∀ groups ∈ t.leaves, ∀ g ∈ groups, ∀ x ∈ g, x.WF ∧ x.HasText) (hfit : ∀ groups ∈ t.leaves, ∀ g ∈ groups, Fits n m g)
    (hfit' : ∀ groups ∈ t.leaves, ∀ g ∈ groups, ∀ x ∈ g, Fits n' m' [x])
    (weighted : Bool) (lnf : LossWeights.LNF ℝ) (hs : PackingSafe weighted lnf) (smoothing z : ℝ) (devices devices' : Nat) (dur dur' : ℝ) (steps : Nat) :
    ∀ k ∈ contentKeys, ∃ v,
      Summary (fun groups => metricArgs true (encDecLogits ex lg net true) lnf smoothing z (packedBatch n m weighted groups)) devices t dur steps k v ∧
      Summary (fun groups => metricArgs true (encDecLogits ex lg net false) lnf smoothing z (paddedBatch n' m' weighted groups.flatten)) devices' t' dur' steps k v := by
  obtain ⟨A, h1, h2⟩ := packed_pieces true weighted lnf hs (encDecRef ex lg net) smoothing z (encDecLogits (n := n) (m := m) ex lg net true) t hne
    (fun G hG g hg x hx => (hwf G hG g hg x hx).1) (fun _ G hG g hg x hx => (hwf G hG g hg x hx).2) hfit
    (fun G hG g hg => encDec_packed hex hθ ht g (fun x hx => (hwf G hG g hg x hx).1) (fun x hx => (hwf G hG g hg x hx).2) (hfit G hG g hg))
  obtain ⟨A', h1', h2'⟩ := padded_pieces true weighted lnf hs (encDecRef ex lg net) smoothing z (encDecLogits (n := n') (m := m') ex lg net false) t'
    (hleaves ▸ hne) (hleaves ▸ fun G hG g hg x hx => (hwf G hG g hg x hx).1) (fun _ => hleaves ▸ fun G hG g hg x hx => (hwf G hG g hg x hx).2) (hleaves ▸ hfit')
    (hleaves ▸ fun G hG g hg x hx => encDec_padded hex hθ ht x (hwf G hG g hg x hx).1 (hwf G hG g hg x hx).2 (hfit' G hG g hg x hx))
  exact same_summary hV true weighted hleaves h1 h1' h2 h2' devices devices' dur dur' steps

/-- **C120**, in terms of the examples: the accuracy of packed batches is the part of the targets with weight that have the largest logit, with the logits each
example has on its own. -/
theorem C120_accuracy (hex : Underflows ex θ) (hθ : 0 < θ) (ht : Tame net θ B) (hV : 0 < V) {n m : Nat} (t : MTree (List (List Example)))
    (hne : ∀ groups ∈ t.leaves, groups.flatten ≠ []) (hwf : ∀ groups ∈ t.leaves, ∀ g ∈ groups, ∀ x ∈ g, x.WF ∧ x.HasText)
    (hfit : ∀ groups ∈ t.leaves, ∀ g ∈ groups, Fits n m g) (weighted : Bool) (lnf : LossWeights.LNF ℝ) (hs : PackingSafe weighted lnf) (smoothing z : ℝ)
    (Y : Example → Nat → Vec V) (hY : ∀ x ∈ all t, ∃ y, Transformer.apply ex lg net (aloneInput x) = some y ∧ ∀ i : Fin x.targets.length, Y x i = y i)
    (devices : Nat) (dur : ℝ) (steps : Nat) :
    Summary (fun groups => metricArgs true (encDecLogits ex lg net true) lnf smoothing z (packedBatch n m weighted groups)) devices t dur steps "accuracy".toList
      ((((all t).map fun x => right weighted x (Y x)).sum : ℕ) / (((all t).map fun x => counted weighted x).sum : ℕ)) := by
  obtain ⟨A, h1, h2⟩ := packed_pieces true weighted lnf hs (encDecRef ex lg net) smoothing z (encDecLogits (n := n) (m := m) ex lg net true) t hne
    (fun G hG g hg x hx => (hwf G hG g hg x hx).1) (fun _ G hG g hg x hx => (hwf G hG g hg x hx).2) hfit
    (fun G hG g hg => encDec_packed hex hθ ht g (fun x hx => (hwf G hG g hg x hx).1) (fun x hx => (hwf G hG g hg x hx).2) (hfit G hG g hg))
  obtain ⟨p1, -⟩ := period hV h2 devices dur steps
  have e1 : ((all t).map fun x => right weighted x (Y x)) = (all t).map fun x => right weighted x (encDecRef ex lg net x) := by
    refine List.map_congr_left fun x hx => ?_
    obtain ⟨y, hy, hy'⟩ := hY x hx
    unfold right
    refine List.countP_congr fun i hi => ?_
    have hi := List.mem_range.1 hi
    rw [show Y x i = encDecRef ex lg net x i from by simp only [encDecRef, dif_pos hi, hy, Option.getD_some]; exact hy' ⟨i, hi⟩]
  rw [e1]
  exact ⟨A, h1, p1⟩

/-- **C120**, the layout: for packed batches the effective batch size is the number of examples per step, where for padded batches it is that of the rows with
tokens, so that both agree; the fraction without padding is that of the examples' tokens among all positions; and `timing/seqs` counts rows, which are the
examples of padded batches only. -/
theorem C120_layout (hex : Underflows ex θ) (hθ : 0 < θ) (ht : Tame net θ B) (hV : 0 < V) {n m n' m' : Nat} (t : MTree (List (List Example)))
    (hne : ∀ groups ∈ t.leaves, groups.flatten ≠ []) (hwf : ∀ groups ∈ t.leaves, ∀ g ∈ groups, ∀ x ∈ g, x.WF ∧ x.HasText)
    (hfit : ∀ groups ∈ t.leaves, ∀ g ∈ groups, Fits n m g) (hfit' : ∀ groups ∈ t.leaves, ∀ g ∈ groups, ∀ x ∈ g, Fits n' m' [x])
    (weighted : Bool) (lnf : LossWeights.LNF ℝ) (hs : PackingSafe weighted lnf) (smoothing z : ℝ) (devices : Nat) (dur : ℝ) (steps : Nat) :
    let P := Summary (fun groups => metricArgs true (encDecLogits ex lg net true) lnf smoothing z (packedBatch n m weighted groups)) devices t dur steps
    let Q := Summary (fun groups => metricArgs true (encDecLogits ex lg net false) lnf smoothing z (paddedBatch n' m' weighted groups.flatten)) devices t dur steps
    (P "effective_batch_size/encoder".toList ((all t).length / steps) ∧ P "effective_batch_size/decoder".toList ((all t).length / steps) ∧
      P "non_padding_fraction/encoder".toList ((((all t).map fun x => x.enc.length).sum : ℕ) / (rows t * m : ℕ)) ∧
      P "non_padding_fraction/decoder".toList ((((all t).map fun x => x.targets.length).sum : ℕ) / (rows t * n : ℕ)) ∧ P "timing/seqs".toList (rows t : ℕ)) ∧
    (Q "effective_batch_size/encoder_input_tokens".toList ((all t).length / steps) ∧ Q "effective_batch_size/decoder_target_tokens".toList ((all t).length / steps) ∧
      Q "non_padding_fraction/encoder_input_tokens".toList ((((all t).map fun x => x.enc.length).sum : ℕ) / ((all t).length * m' : ℕ)) ∧
      Q "non_padding_fraction/decoder_target_tokens".toList ((((all t).map fun x => x.targets.length).sum : ℕ) / ((all t).length * n' : ℕ)) ∧
      Q "timing/seqs".toList ((all t).length : ℕ)) := by
  intro P Q
  obtain ⟨A, h1, h2⟩ := packed_pieces true weighted lnf hs (encDecRef ex lg net) smoothing z (encDecLogits (n := n) (m := m) ex lg net true) t hne
    (fun G hG g hg x hx => (hwf G hG g hg x hx).1) (fun _ G hG g hg x hx => (hwf G hG g hg x hx).2) hfit
    (fun G hG g hg => encDec_packed hex hθ ht g (fun x hx => (hwf G hG g hg x hx).1) (fun x hx => (hwf G hG g hg x hx).2) (hfit G hG g hg))
  obtain ⟨A', h1', h2'⟩ := padded_pieces true weighted lnf hs (encDecRef ex lg net) smoothing z (encDecLogits (n := n') (m := m') ex lg net false) t
    hne (fun G hG g hg x hx => (hwf G hG g hg x hx).1) (fun _ G hG g hg x hx => (hwf G hG g hg x hx).2) hfit'
    (fun G hG g hg x hx => encDec_padded hex hθ ht x (hwf G hG g hg x hx).1 (hwf G hG g hg x hx).2 (hfit' G hG g hg x hx))
  obtain ⟨-, -, -, -, -, p1, p2, p3, p4⟩ := period hV h2 devices dur steps
  obtain ⟨-, -, -, -, -, q1, q2, q3, q4⟩ := period hV h2' devices dur steps
  rw [rows_padded] at q1 q3 q4
  exact ⟨⟨⟨A, h1, (p4 rfl).1⟩, ⟨A, h1, p2⟩, ⟨A, h1, (p4 rfl).2⟩, ⟨A, h1, p3⟩, ⟨A, h1, p1⟩⟩,
    ⟨A', h1', (q4 rfl).1⟩, ⟨A', h1', q2⟩, ⟨A', h1', (q4 rfl).2⟩, ⟨A', h1', q3⟩, ⟨A', h1', q1⟩⟩

end EncDec

/-! ### Decoder-only models -/

section Lm
open Verif.DecoderOnly Verif.DecoderOnly.Spec
variable {d h e f : Nat} {ex : ℝ → ℝ} {lg : ℕ → ℝ} {net : LmNet d h e f V} {θ B : ℝ}

/-- **C120** for decoder-only models: the same metrics for packed and padded batches, and the effective batch size of packed batches is the number of examples
per step. -/
theorem C120_lm (hex : Underflows ex θ) (hθ : 0 < θ) (ht : TameLm net θ B) (hV : 0 < V) (bidirectional : Bool) {n m n' m' : Nat}
    (t t' : MTree (List (List Example))) (hleaves : t'.leaves = t.leaves) (hne : ∀ groups ∈ t.leaves, groups.flatten ≠ [])
    (hwf : ∀ groups ∈ t.leaves, ∀ g ∈ groups, ∀ x ∈ g, x.WF) (hfit : ∀ groups ∈ t.leaves, ∀ g ∈ groups, Fits n m g)
    (hfit' : ∀ groups ∈ t.leaves, ∀ g ∈ groups, ∀ x ∈ g, Fits n' m' [x])
    (weighted : Bool) (lnf : LossWeights.LNF ℝ) (hs : PackingSafe weighted lnf) (smoothing z : ℝ) (devices devices' : Nat) (dur dur' : ℝ) (steps : Nat) :
    let P := Summary (fun groups => metricArgs false (lmLogits ex lg net bidirectional true) lnf smoothing z (packedBatch n m weighted groups)) devices t dur steps
    let Q := Summary (fun groups => metricArgs false (lmLogits ex lg net bidirectional false) lnf smoothing z (paddedBatch n' m' weighted groups.flatten))
      devices' t' dur' steps
    (∀ k ∈ contentKeys, ∃ v, P k v ∧ Q k v) ∧
    P "effective_batch_size/decoder".toList ((all t).length / steps) ∧ Q "effective_batch_size/decoder_target_tokens".toList ((all t).length / steps) := by
  intro P Q
  obtain ⟨A, h1, h2⟩ := packed_pieces false weighted lnf hs (lmRef ex lg net bidirectional) smoothing z (lmLogits (n := n) (m := m) ex lg net bidirectional true) t hne
    hwf (fun h => by cases h) hfit (fun G hG g hg => lm_packed hex hθ ht bidirectional g (hwf G hG g hg) (hfit G hG g hg))
  obtain ⟨A', h1', h2'⟩ := padded_pieces false weighted lnf hs (lmRef ex lg net bidirectional) smoothing z
    (lmLogits (n := n') (m := m') ex lg net bidirectional false) t' (hleaves ▸ hne) (hleaves ▸ hwf) (fun h => by cases h) (hleaves ▸ hfit')
    (hleaves ▸ fun G hG g hg x hx => lm_padded hex hθ ht bidirectional x (hwf G hG g hg x hx) (hfit' G hG g hg x hx))
  obtain ⟨-, -, -, -, -, -, p2, -⟩ := period hV h2 devices dur steps
  obtain ⟨-, -, -, -, -, -, q2, -⟩ := period hV h2' devices' dur' steps
  have hall : all t' = all t := by unfold all; rw [hleaves]
  rw [hall] at q2
  exact ⟨same_summary hV false weighted hleaves h1 h1' h2 h2' devices devices' dur dur' steps, ⟨A, h1, p2⟩, ⟨A', h1', q2⟩⟩

end Lm

/-! The hypotheses are met: two microbatches, with three examples in two rows and two examples in one row. -/

def demoPieces : MTree (List (List Example)) :=
  .node (.leaf [[⟨[5, 6], [0, 3], [3, 1], [0, 0], [1, 1]⟩, ⟨[7], [0], [1], [0], [1]⟩], [⟨[8], [0, 2], [2, 1], [0, 0], [0, 1]⟩]])
    (.leaf [[⟨[4], [0], [1], [0], [1]⟩, ⟨[7, 9], [0], [2], [0], [1]⟩]])

theorem demo_wf : ∀ groups ∈ demoPieces.leaves, ∀ g ∈ groups, ∀ x ∈ g, x.WF ∧ x.HasText := by
  intro G hG g hg x hx
  simp only [demoPieces, MTree.leaves, List.cons_append, List.nil_append, List.mem_cons, List.not_mem_nil, or_false] at hG
  rcases hG with rfl | rfl <;> simp only [List.mem_cons, List.not_mem_nil, or_false] at hg
  · rcases hg with rfl | rfl <;> simp only [List.mem_cons, List.not_mem_nil, or_false] at hx
    · rcases hx with rfl | rfl <;> exact ⟨⟨by simp, by simp, rfl, rfl, rfl, by simp⟩, by simp [Example.HasText]⟩
    · subst hx
      exact ⟨⟨by simp, by simp, rfl, rfl, rfl, by simp⟩, by simp [Example.HasText]⟩
  · subst hg
    simp only [List.mem_cons, List.not_mem_nil, or_false] at hx
    rcases hx with rfl | rfl <;> exact ⟨⟨by simp, by simp, rfl, rfl, rfl, by simp⟩, by simp [Example.HasText]⟩

example : ∃ v, Summary (fun groups => metricArgs true (encDecLogits flushed (fun _ => 0) demoNet true) (.special .averagePerSequence) 0 0 (packedBatch 4 3 true groups)) 8
      demoPieces 2 1 "accuracy".toList v ∧
    Summary (fun groups => metricArgs true (encDecLogits flushed (fun _ => 0) demoNet false) (.special .averagePerSequence) 0 0 (paddedBatch 3 5 true groups.flatten)) 8
      demoPieces 3 1 "accuracy".toList v :=
  C120_same DecoderOnly.flushed_underflows (by norm_num) demoNet_tame (by norm_num) demoPieces demoPieces rfl (by simp [demoPieces, MTree.leaves]) demo_wf
    (by simp [demoPieces, MTree.leaves, Fits]) (by simp [demoPieces, MTree.leaves, Fits]) true _ (by simp [PackingSafe]) 0 0 8 8 2 3 1 _ (.head _)

/-- Five examples in three rows. -/
example : (all demoPieces).length = 5 ∧ rows demoPieces = 3 := ⟨rfl, rfl⟩

example : ∃ v, Summary (fun groups => metricArgs false (lmLogits flushed (fun _ => 0) DecoderOnly.demoLm true true) .none 0 0 (packedBatch 4 3 true groups)) 8
      demoPieces 2 1 "loss".toList v ∧
    Summary (fun groups => metricArgs false (lmLogits flushed (fun _ => 0) DecoderOnly.demoLm true false) .none 0 0 (paddedBatch 3 5 true groups.flatten)) 8
      demoPieces 3 1 "loss".toList v :=
  (C120_lm DecoderOnly.flushed_underflows (by norm_num) DecoderOnly.demoLm_tame (by norm_num) true demoPieces demoPieces rfl (by simp [demoPieces, MTree.leaves])
    (fun G hG g hg x hx => (demo_wf G hG g hg x hx).1)
    (by simp [demoPieces, MTree.leaves, Fits]) (by simp [demoPieces, MTree.leaves, Fits]) true _ (by simp [PackingSafe]) 0 0 8 8 2 3 1).1 _ (.tail _ (.head _))

end Verif.PackedMetrics
