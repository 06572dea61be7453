import Verif.Model.InteractiveEval
import Verif.Props.Interactive
/-
C106: evaluation with the interactive model.
-/
namespace Verif.InteractiveEval
open Verif.Interactive

namespace Spec

/-- The three forms of metric functions of the documentation. -/
inductive Kind where
  | predict
  | withAux
  | score
deriving DecidableEq

def Kind.names : Kind → List String
  | .predict => ["targets", "predictions"]
  | .withAux => ["targets", "predictions", "aux_values"]
  | .score => ["targets", "scores"]

/-- The parameters without default are those of the form. -/
def Is {P A S M : Type} (f : MetricFn P A S M) (k : Kind) : Prop := f.params.filterMap (fun p => if p.2 then none else some p.1) = k.names

/-- The batch with number `k`. -/
def batch (size : Nat) (l : List Elem) (k : Nat) : List Elem := (l.drop (k * size)).take size

/-- The arguments of a metric function. -/
def args {P A S : Type} (targets predictions : List (Value P)) (aux : List (String × List A)) (scores : List S) : Kind → List (Arg P A S)
  | .predict => [.values targets, .values predictions]
  | .withAux => [.values targets, .values predictions, .aux aux]
  | .score => [.values targets, .scores scores]

/-- A model that returns one result for each element of a batch, and the same auxiliary values for every batch. -/
structure Proper {A S : Type} (m : Model A S) (pk sk : List String) (pa sa : Nat → List Elem → String → List A) : Prop where
  size : 0 < m.batchSize
  pkeys : pk.Nodup
  skeys : sk.Nodup
  predict : ∀ k c, (m.predict k c).1.length = c.length
  score : ∀ k c, (m.score k c).1.length = c.length
  predictAux : ∀ k c, (m.predict k c).2 = pk.map fun key => (key, pa k c key)
  scoreAux : ∀ k c, (m.score k c).2 = sk.map fun key => (key, sa k c key)

/-- The text of the target of an element. -/
def HasTarget (e : Elem) (s : List Char) : Prop := e.lookup "targets_pretokenized" = some (.text s)

end Spec
open Spec

/-! ### Parts -/

theorem flatMap_range_get {Y : Type} (g : Nat → List Y) (size m q r : Nat) (hq : q < m) (hg : ∀ k < q, (g k).length = size) (hr : r < (g q).length) :
    ((List.range m).flatMap g)[q * size + r]? = (g q)[r]? := by
  obtain ⟨d, rfl⟩ : ∃ d, m = q + (d + 1) := ⟨m - q - 1, by omega⟩
  have hlen : ((List.range q).flatMap g).length = q * size := by
    clear hq hr
    induction q with
    | zero => simp
    | succ q ih =>
      rw [List.range_succ, List.flatMap_append, List.length_append, ih fun k hk => hg k (by omega)]
      simp only [List.flatMap_cons, List.flatMap_nil, List.append_nil, hg q (by omega)]
      rw [Nat.succ_mul]
  rw [List.range_add, List.flatMap_append, List.getElem?_append_right (by omega), hlen, Nat.add_sub_cancel_left, List.range_succ_eq_map]
  simp only [List.map_cons, List.flatMap_cons, Nat.add_zero]
  rw [List.getElem?_append_left hr]

theorem chunks_get {Y : Type} (g : Nat → List Elem → List Y) (size : Nat) (hs : 0 < size) (l : List Elem) (hg : ∀ k c, (g k c).length = c.length)
    (i : Nat) (hi : i < l.length) :
    ((chunks size l).zipIdx.flatMap fun p => g p.2 p.1)[i]? = (g (i / size) (batch size l (i / size)))[i % size]? := by
  have h1 : ((chunks size l).zipIdx.flatMap fun p => g p.2 p.1) = (List.range ((l.length + size - 1) / size)).flatMap fun k => g k (batch size l k) := by
    unfold chunks batch
    generalize (l.length + size - 1) / size = m
    have : (((List.range m).map fun k => (l.drop (k * size)).take size).zipIdx) = (List.range m).map fun k => ((l.drop (k * size)).take size, k) := by
      apply List.ext_getElem?
      intro j
      simp only [List.getElem?_zipIdx, List.getElem?_map, Option.map_map]
      cases hj : (List.range m)[j]? with
      | none => rfl
      | some v =>
        have := List.getElem?_eq_some_iff.1 hj
        obtain ⟨h, rfl⟩ := this
        simp
    rw [this, List.flatMap_map]
  have hq := Nat.div_add_mod i size
  have hr := Nat.mod_lt i hs
  have hle : ∀ k, k * size + size ≤ l.length → (batch size l k).length = size := by
    intro k hk
    unfold batch
    rw [List.length_take, List.length_drop]
    omega
  have hmul : i / size * size = size * (i / size) := Nat.mul_comm _ _
  rw [h1]
  conv_lhs => rw [← hq, ← hmul]
  apply flatMap_range_get
  · rw [Nat.lt_iff_add_one_le, Nat.le_div_iff_mul_le hs, Nat.succ_mul]
    omega
  · intro k hk
    rw [hg]
    apply hle
    have : (k + 1) * size ≤ i / size * size := Nat.mul_le_mul_right _ hk
    rw [Nat.succ_mul] at this
    omega
  · rw [hg]
    unfold batch
    rw [List.length_take, List.length_drop]
    omega

theorem posArgs_eq {P A S M : Type} (f : MetricFn P A S M) : posArgs f = f.params.filterMap (fun p => if p.2 then none else some p.1) := by
  unfold posArgs
  induction f.params with
  | nil => rfl
  | cons p ps ih =>
    obtain ⟨n, b⟩ := p
    cases b <;> simp [ih]

theorem parse_ok {P A S M : Type} : ∀ (fns : List (MetricFn P A S M)), (∀ f ∈ fns, ∃ k, Is f k) →
    ∃ p, parse fns = some p ∧ (p.predict ++ p.withAux ++ p.score).Perm fns ∧ (∀ f ∈ p.predict, Is f .predict) ∧ (∀ f ∈ p.withAux, Is f .withAux) ∧
      (∀ f ∈ p.score, Is f .score)
  | [], _ => ⟨⟨[], [], []⟩, rfl, .refl _, by simp, by simp, by simp⟩
  | f :: fns, h => by
    obtain ⟨p, h1, h2, h3, h4, h5⟩ := parse_ok fns fun f hf => h f (List.mem_cons_of_mem _ hf)
    obtain ⟨k, hk⟩ := h f (List.mem_cons_self ..)
    have hk' : posArgs f = k.names := by rw [posArgs_eq]; exact hk
    cases k with
    | predict =>
      refine ⟨⟨f :: p.predict, p.withAux, p.score⟩, by simp [parse, hk', Kind.names, h1], ?_, ?_, h4, h5⟩
      · exact h2.cons f
      · intro g hg
        rcases List.mem_cons.1 hg with rfl | hg
        · exact hk
        · exact h3 g hg
    | withAux =>
      refine ⟨⟨p.predict, f :: p.withAux, p.score⟩, by simp [parse, hk', Kind.names, h1], ?_, h3, ?_, h5⟩
      · refine List.Perm.trans ?_ (h2.cons f)
        simp only [List.append_assoc, List.cons_append]
        exact List.perm_middle
      · intro g hg
        rcases List.mem_cons.1 hg with rfl | hg
        · exact hk
        · exact h4 g hg
    | score =>
      refine ⟨⟨p.predict, p.withAux, f :: p.score⟩, by simp [parse, hk', Kind.names, h1], ?_, h3, h4, ?_⟩
      · refine List.Perm.trans ?_ (h2.cons f)
        exact List.perm_middle
      · intro g hg
        rcases List.mem_cons.1 hg with rfl | hg
        · exact hk
        · exact h5 g hg

theorem parse_none {P A S M : Type} : ∀ (fns : List (MetricFn P A S M)), (∃ f ∈ fns, ∀ k, ¬ Is f k) → parse fns = none
  | [], h => by simp at h
  | f :: fns, ⟨g, hg, hk⟩ => by
    unfold parse
    rcases List.mem_cons.1 hg with rfl | hg
    · have h1 := hk .predict
      have h2 := hk .withAux
      have h3 := hk .score
      unfold Is at h1 h2 h3
      rw [← posArgs_eq] at h1 h2 h3
      simp only [Kind.names] at h1 h2 h3
      rw [if_neg h3, if_neg h1, if_neg h2]
    · rw [parse_none fns ⟨g, hg, hk⟩]
      simp

theorem callAll_ok {P A S M : Type} (out : MetricFn P A S M → List (String × M)) (args : List (Arg P A S)) :
    ∀ fs : List (MetricFn P A S M), (∀ f ∈ fs, f.call args = some (out f)) → callAll args fs = some (fs.flatMap out)
  | [], _ => rfl
  | f :: fs, h => by
    rw [callAll, h f (List.mem_cons_self ..), callAll_ok out args fs fun g hg => h g (List.mem_cons_of_mem _ hg)]
    rfl

theorem mergeMetrics_eq {M : Type} : ∀ (l acc : List (String × M)), (acc.map (·.1)).Nodup →
    mergeMetrics acc l = if ((acc ++ l).map (·.1)).Nodup then .ok (acc ++ l) else .error .duplicate
  | [], acc, h => by simp [mergeMetrics, h]
  | (k, v) :: l, acc, h => by
    unfold mergeMetrics
    by_cases hk : k ∈ acc.map (·.1)
    · rw [if_pos hk, if_neg]
      rw [List.map_append, List.map_cons, List.nodup_append]
      exact fun hn => hn.2.2 k hk k (List.mem_cons_self ..) rfl
    · rw [if_neg hk, mergeMetrics_eq l (acc ++ [(k, v)])]
      · simp
      · rw [List.map_append, List.nodup_append]
        refine ⟨h, by simp, ?_⟩
        intro a ha b hb
        simp only [List.map_cons, List.map_nil, List.mem_singleton] at hb
        subst hb
        exact fun e => hk (e ▸ ha)

/-- The target of an element, as it is given to the metric functions. -/
def targetValue {P : Type} (post : Option (Post P)) (e : Elem) (s : List Char) : Value P :=
  match post with
  | some f => .other (f s e true)
  | none => .bytes s

theorem targetsOf_ok {P : Type} (post : Option (Post P)) : ∀ (es : List Elem), (∀ e ∈ es, ∃ s, HasTarget e s) →
    ∃ ts, targetsOf post es = some ts ∧ ts.length = es.length ∧
      ∀ (i : Nat) (e : Elem) (s : List Char), es[i]? = some e → HasTarget e s → ts[i]? = some (targetValue post e s)
  | [], _ => ⟨[], rfl, rfl, by simp⟩
  | e :: es, h => by
    obtain ⟨ts, h1, h2, h3⟩ := targetsOf_ok post es fun e he => h e (List.mem_cons_of_mem _ he)
    obtain ⟨s, hs⟩ := h e (List.mem_cons_self ..)
    have he : targetOf post e = some (targetValue post e s) := by
      unfold HasTarget at hs
      unfold targetOf targetValue
      rw [hs]
      cases post <;> rfl
    refine ⟨_, by rw [targetsOf, he, h1]; rfl, by simp [h2], ?_⟩
    intro i e' s' hi hs'
    cases i with
    | zero =>
      simp only [List.getElem?_cons_zero, Option.some.injEq] at hi
      subst hi
      unfold HasTarget at hs hs'
      rw [hs] at hs'
      cases hs'
      rfl
    | succ i => exact h3 i e' s' (by simpa using hi) hs'

/-! ### The theorems -/

/-- The values of a run. -/
structure Values (P A S : Type) where
  targets : List (Value P)
  predictions : List (Value P)
  aux : List (String × List A)
  scores : List S

/-- What the metric functions are to be given: for example `i` its target, the prediction for it and its score, each from its batch. -/
structure ValuesFor {P A S : Type} (m : Model A S) (pk : List String) (pa : Nat → List Elem → String → List A) (post : Option (Post P))
    (es : List Elem) (v : Values P A S) : Prop where
  targets : v.targets.length = es.length ∧ ∀ (i : Nat) (e : Elem) (s : List Char), es[i]? = some e → HasTarget e s → v.targets[i]? = some (targetValue post e s)
  predictions : v.predictions.length = es.length ∧ ∀ i < es.length, v.predictions[i]? =
    ((m.predict (i / m.batchSize) (batch m.batchSize es (i / m.batchSize))).1[i % m.batchSize]?).map .str
  aux : v.aux = pk.map fun key => (key, (chunks m.batchSize es).zipIdx.flatMap fun p => pa p.2 p.1 key)

theorem infer_get {Y A : Type} (infer : Nat → List Elem → List Y × List (String × List A)) (ks : List String) (hks : ks.Nodup)
    (f : Nat → List Elem → String → List A) (hlen : ∀ k c, (infer k c).1.length = c.length) (haux : ∀ k c, (infer k c).2 = ks.map fun key => (key, f k c key))
    (size : Nat) (hs : 0 < size) (es : List Elem) (hne : es ≠ []) :
    ∃ r aux, inferAll infer size es = some (r, aux) ∧ r.length = es.length ∧
      (∀ i < es.length, (r.map (·.2))[i]? = (infer (i / size) (batch size es (i / size))).1[i % size]?) ∧
      aux = ks.map fun key => (key, (chunks size es).zipIdx.flatMap fun p => f p.2 p.1 key) := by
  obtain ⟨r, aux, h1, h2, h3, h4⟩ := C71_infer infer ks hks f hlen haux size hs es hne
  refine ⟨r, aux, h1, ?_, fun i hi => ?_, h4⟩
  · rw [← h2, List.length_map]
  · rw [h3, chunks_get (fun k c => (infer k c).1) size hs es hlen i hi]

/-- **C106.**  With metric functions of the three forms, at least one of which uses predictions, process 0 returns the values of all of them
(an error if two have the same name).  Every metric function is called with the targets of all examples in order, and with the predictions or
scores for the same examples in the same order: those of the example in its batch, computed with the random key of the batch. -/
theorem C106_evaluate {P A S M : Type} (m : Model A S) {pk sk : List String} {pa sa : Nat → List Elem → String → List A} (hm : Proper m pk sk pa sa)
    (examples : List Example) (preps : List Prep) (fns : List (MetricFn P A S M)) (post : Option (Post P)) {ds : Dataset}
    (hds : getDataset examples preps m.lengths m.features = some ds) (hne : ds.elems ≠ []) (ht : ∀ e ∈ ds.elems, ∃ s, HasTarget e s)
    (hfns : ∀ f ∈ fns, ∃ k, Is f k) (hp : ∃ f ∈ fns, Is f .predict ∨ Is f .withAux) :
    ∃ v : Values P A S, ValuesFor m pk pa post ds.elems v ∧
      ((∃ f ∈ fns, Is f .score) → v.scores.length = ds.elems.length ∧ ∀ i < ds.elems.length, v.scores[i]? =
        (m.score (i / m.batchSize) (batch m.batchSize ds.elems (i / m.batchSize))).1[i % m.batchSize]?) ∧
      ∀ out : MetricFn P A S M → List (String × M),
        (∀ f ∈ fns, ∀ k, Is f k → f.call (args v.targets v.predictions v.aux v.scores k) = some (out f)) →
        (((fns.flatMap out).map (·.1)).Nodup →
          ∃ all, (evaluate m 0 examples preps fns post).2 = .ok all ∧ all.Perm (fns.flatMap out)) ∧
        (¬ ((fns.flatMap out).map (·.1)).Nodup → (evaluate m 0 examples preps fns post).2 = .error .duplicate) := by
  obtain ⟨p, h1, h2, h3, h4, h5⟩ := parse_ok fns hfns
  obtain ⟨ts, h6, h7, h8⟩ := targetsOf_ok post ds.elems ht
  obtain ⟨r, aux, h9, h10, h11, h12⟩ := infer_get m.predict pk hm.pkeys pa hm.predict hm.predictAux m.batchSize hm.size ds.elems hne
  obtain ⟨r', aux', h9', h10', h11', -⟩ := infer_get m.score sk hm.skeys sa hm.score hm.scoreAux m.batchSize hm.size ds.elems hne
  have hneed : p.withAux ≠ [] ∨ p.predict ≠ [] := by
    obtain ⟨f, hf, hk⟩ := hp
    have hm := h2.mem_iff.2 hf
    simp only [List.mem_append] at hm
    rcases hm with (hm | hm) | hm
    · exact .inr (List.ne_nil_of_mem hm)
    · exact .inl (List.ne_nil_of_mem hm)
    · have := h5 f hm
      unfold Is at hk this
      rw [this] at hk
      simp [Kind.names] at hk
  refine ⟨⟨ts, r.map fun x => .str x.2, aux, if p.score = [] then [] else r'.map fun x => x.2⟩, ⟨⟨h7, h8⟩, ⟨by simp [h10], fun i hi => ?_⟩, h12⟩, ?_, ?_⟩
  · have := h11 i hi
    simp only [List.getElem?_map] at this ⊢
    rw [← this]
    simp [Option.map_map]
    rfl
  · rintro ⟨f, hf, hk⟩
    have hs : p.score ≠ [] := by
      have hm := h2.mem_iff.2 hf
      simp only [List.mem_append] at hm
      rcases hm with (hm | hm) | hm
      · have := h3 f hm
        unfold Is at hk this
        rw [this] at hk
        simp [Kind.names] at hk
      · have := h4 f hm
        unfold Is at hk this
        rw [this] at hk
        simp [Kind.names] at hk
      · exact List.ne_nil_of_mem hm
    simp only [if_neg hs]
    exact ⟨by simp [h10'], h11'⟩
  · intro out hout
    have hmem : ∀ f, f ∈ p.predict ∨ f ∈ p.withAux ∨ f ∈ p.score → f ∈ fns := by
      intro f hf
      apply h2.mem_iff.1
      simp only [List.mem_append]
      tauto
    have hall : (evaluate m 0 examples preps fns post).2 = mergeMetrics [] ((p.predict ++ p.withAux ++ p.score).flatMap out) := by
      have c1 := callAll_ok out _ p.predict fun f hf => hout f (hmem f (.inl hf)) .predict (h3 f hf)
      have c2 := callAll_ok out _ p.withAux fun f hf => hout f (hmem f (.inr (.inl hf))) .withAux (h4 f hf)
      have c3 := callAll_ok out _ p.score fun f hf => hout f (hmem f (.inr (.inr hf))) .score (h5 f hf)
      simp only [args] at c1 c2 c3
      have hev : (evaluate m 0 examples preps fns post).2 =
          computeMetrics ts (r.map fun x => .str x.2) aux (if p.score = [] then [] else r'.map fun x => x.2) p := by
        have hrep : ∀ c : Except Err (List (String × M)), (Run.bind ([], c) fun m => ([Event.barrier], .ok m)).2 = c := by
          intro c; cases c <;> rfl
        simp only [evaluate, h1, hds, h6, ofOption, Run.bind, predictions, hneed, if_true, h9]
        by_cases hs : p.score = []
        · simp only [scoresOf, hs, ne_eq, not_true_eq_false, if_false, if_true, reportMetrics]
          exact hrep _
        · simp only [scoresOf, hs, ne_eq, not_false_eq_true, if_true, h9', ofOption, Run.bind, reportMetrics, if_false, not_true_eq_false]
          exact hrep _
      rw [hev]
      unfold computeMetrics
      rw [c1, c2]
      by_cases hs : p.score = []
      · simp only [hs, if_true, List.append_nil, List.flatMap_append]
      · have hl : ts.length = (if p.score = [] then [] else r'.map fun x => x.2).length := by simp [hs, h7, h10']
        rw [c3]
        simp only [if_neg hs] at hl ⊢
        simp only [hl, ne_eq, not_true_eq_false, if_false, List.flatMap_append]
    have hperm : ((p.predict ++ p.withAux ++ p.score).flatMap out).Perm (fns.flatMap out) := h2.flatMap_right out
    rw [hall, mergeMetrics_eq _ [] (by simp), List.nil_append]
    have hiff : (((p.predict ++ p.withAux ++ p.score).flatMap out).map (·.1)).Nodup ↔ ((fns.flatMap out).map (·.1)).Nodup :=
      (hperm.map _).nodup_iff
    constructor
    · intro hn
      exact ⟨_, by rw [if_pos (hiff.2 hn)], hperm⟩
    · intro hn
      rw [if_neg (fun h => hn (hiff.1 h))]

/-- **C106, finding.**  With metric functions of scores only (or none at all) evaluation always fails, on every process, after the scores have
been computed: `aux_values` is never assigned. -/
theorem C106_scores_only {P A S M : Type} (m : Model A S) {pk sk : List String} {pa sa : Nat → List Elem → String → List A} (hm : Proper m pk sk pa sa)
    (proc : Nat) (examples : List Example) (preps : List Prep) (fns : List (MetricFn P A S M)) (post : Option (Post P)) {ds : Dataset}
    (hds : getDataset examples preps m.lengths m.features = some ds) (hne : ds.elems ≠ []) (ht : ∀ e ∈ ds.elems, ∃ s, HasTarget e s)
    (hfns : ∀ f ∈ fns, Is f .score) :
    evaluate m proc examples preps fns post = (if fns = [] then [] else [.score], .error .unbound) := by
  obtain ⟨p, h1, h2, h3, h4, h5⟩ := parse_ok fns fun f hf => ⟨_, hfns f hf⟩
  obtain ⟨ts, h6, -, -⟩ := targetsOf_ok post ds.elems ht
  obtain ⟨r', aux', h9', -, -, -⟩ := infer_get m.score sk hm.skeys sa hm.score hm.scoreAux m.batchSize hm.size ds.elems hne
  have hsc : ∀ f ∈ fns, ¬ Is f .predict ∧ ¬ Is f .withAux := by
    intro f hf
    have := hfns f hf
    unfold Is at this ⊢
    rw [this]
    simp [Kind.names]
  have hp : p.predict = [] := List.eq_nil_iff_forall_not_mem.2 fun f hf => (hsc f (h2.mem_iff.1 (by simp [hf]))).1 (h3 f hf)
  have ha : p.withAux = [] := List.eq_nil_iff_forall_not_mem.2 fun f hf => (hsc f (h2.mem_iff.1 (by simp [hf]))).2 (h4 f hf)
  have hs : p.score = [] ↔ fns = [] := by
    rw [hp, ha, List.nil_append, List.nil_append] at h2
    constructor
    · intro h
      rw [h] at h2
      exact h2.nil_eq.symm
    · intro h
      rw [h] at h2
      exact h2.eq_nil
  simp only [evaluate, h1, hds, h6, ofOption, Run.bind, predictions, hp, ha, ne_eq, not_true_eq_false, or_self, if_false, scoresOf, hs]
  by_cases h : fns = []
  · simp [h]
  · simp [h, h9', ofOption, Run.bind]

/-- **C106.**  Without a postprocessor the targets are bytes and the predictions are strings; so no target equals its prediction, whatever
the model predicts. -/
theorem C106_bytes {P A S : Type} (m : Model A S) {pk sk : List String} {pa sa : Nat → List Elem → String → List A} (hm : Proper m pk sk pa sa)
    (es : List Elem) (ht : ∀ e ∈ es, ∃ s, HasTarget e s) (v : Values P A S) (hv : ValuesFor m pk pa none es v) (i : Nat) (hi : i < es.length) :
    (∃ s, v.targets[i]? = some (.bytes s)) ∧ (∃ s, v.predictions[i]? = some (.str s)) ∧ v.targets[i]? ≠ v.predictions[i]? := by
  obtain ⟨s, hs⟩ := ht _ (List.getElem_mem hi)
  have h1 := hv.targets.2 i _ s (List.getElem?_eq_getElem hi) hs
  have h2 := hv.predictions.2 i hi
  have h3 : ∃ s, v.predictions[i]? = some (.str s) := by
    have hl : i < v.predictions.length := by rw [hv.predictions.1]; exact hi
    rw [List.getElem?_eq_getElem hl] at h2 ⊢
    cases hc : (m.predict (i / m.batchSize) (batch m.batchSize es (i / m.batchSize))).1[i % m.batchSize]? with
    | none => rw [hc] at h2; simp at h2
    | some s => rw [hc] at h2; exact ⟨s, h2⟩
  refine ⟨⟨s, h1⟩, h3, ?_⟩
  obtain ⟨s', h3⟩ := h3
  rw [h1, h3]
  simp [targetValue]

/-- **C106, finding.**  The postprocessor is applied to the targets only: the predictions given to the metric functions are the same with
every postprocessor. -/
theorem C106_postprocessor {P A S : Type} (m : Model A S) {pk : List String} {pa : Nat → List Elem → String → List A} (post post' : Option (Post P))
    (es : List Elem) (v v' : Values P A S) (hv : ValuesFor m pk pa post es v) (hv' : ValuesFor m pk pa post' es v') : v.predictions = v'.predictions := by
  apply List.ext_getElem?
  intro i
  by_cases hi : i < es.length
  · rw [hv.predictions.2 i hi, hv'.predictions.2 i hi]
  · rw [List.getElem?_eq_none (by rw [hv.predictions.1]; omega), List.getElem?_eq_none (by rw [hv'.predictions.1]; omega)]

/-- **C106.**  Metrics of scores are only computed if there are as many scores as targets. -/
theorem C106_lengths {P A S M : Type} (targets predictions : List (Value P)) (aux : List (String × List A)) (scores : List S) (p : Parsed P A S M)
    (hp : p.score ≠ []) {all : List (String × M)} (h : computeMetrics targets predictions aux scores p = .ok all) : targets.length = scores.length := by
  by_contra hne
  unfold computeMetrics at h
  split at h
  · rw [if_neg hp, if_pos hne] at h; cases h
  · cases h

example : computeMetrics (P := Unit) (A := Unit) (M := Nat) [.bytes "a".toList] [.str "b".toList] [] [(3 : Nat)]
    ⟨[], [], [⟨[("targets", false), ("scores", false)], fun _ => some [("sum", 3)]⟩]⟩ = .ok [("sum", 3)] := by decide

/-- **C106.**  A metric function of another form is refused before anything is computed. -/
theorem C106_signature {P A S M : Type} (m : Model A S) (proc : Nat) (examples : List Example) (preps : List Prep) (fns : List (MetricFn P A S M))
    (post : Option (Post P)) (h : ∃ f ∈ fns, ∀ k, ¬ Is f k) : evaluate m proc examples preps fns post = ([], .error .signature) := by
  simp only [evaluate, parse_none fns h, ofOption, Run.bind]

theorem Run.bind_ok {α β : Type} {r : Run α} {f : α → Run β} {b : β} (h : (r.bind f).2 = .ok b) :
    ∃ a, r.2 = .ok a ∧ (f a).2 = .ok b ∧ (r.bind f).1 = r.1 ++ (f a).1 := by
  obtain ⟨ev, res⟩ := r
  cases res with
  | error e => simp [Run.bind] at h
  | ok a => exact ⟨a, rfl, h, rfl⟩

/-- **C106, finding.**  If process 0 finishes, it waits at the end for all processes; the other processes return nothing, and never arrive there:
they do the same without the last barrier. -/
theorem C106_hosts {P A S M : Type} (m : Model A S) (proc : Nat) (hproc : proc ≠ 0) (examples : List Example) (preps : List Prep)
    (fns : List (MetricFn P A S M)) (post : Option (Post P)) {all : List (String × M)} (h : (evaluate m 0 examples preps fns post).2 = .ok all) :
    (evaluate m proc examples preps fns post).2 = .ok [] ∧
      (evaluate m 0 examples preps fns post).1 = (evaluate m proc examples preps fns post).1 ++ [.barrier] := by
  unfold evaluate at h ⊢
  obtain ⟨p, h1, h2, e1⟩ := Run.bind_ok h
  obtain ⟨ds, h3, h4, e2⟩ := Run.bind_ok h2
  obtain ⟨ts, h5, h6, e3⟩ := Run.bind_ok h4
  obtain ⟨pp, h7, h8, e4⟩ := Run.bind_ok h6
  obtain ⟨sc, h9, h10, e5⟩ := Run.bind_ok h8
  obtain ⟨aux, h11, h12, e6⟩ := Run.bind_ok h10
  have hr : (reportMetrics 0 ts pp.1 aux sc p).1 = [.barrier] := by
    unfold reportMetrics at h12 ⊢
    rw [if_neg (by simp)] at h12 ⊢
    obtain ⟨a, -, -, e⟩ := Run.bind_ok h12
    rw [e]; rfl
  have step : ∀ {α β : Type} {r : Run α} {a : α} (f : α → Run β), r.2 = .ok a → r.bind f = (r.1 ++ (f a).1, (f a).2) := by
    intro α β r a f hr
    unfold Run.bind
    rw [hr]
  rw [e1, e2, e3, e4, e5, e6, hr]
  rw [step _ h1, step _ h3, step _ h5, step _ h7, step _ h9, step _ h11]
  simp [reportMetrics, hproc]

/-! ### The dataset and training -/

/-- A preprocessor that maps the elements one by one. -/
def Elementwise (lengths : Lengths) (features : Features) (p : Prep) (g : Elem → Elem) : Prop :=
  ∀ d, ∃ spec, p.run (if "sequence_length" ∈ p.params then some lengths else none) (if "output_features" ∈ p.params then some features else none) d =
    some ⟨spec, d.elems.map g⟩

theorem preprocess_map (lengths : Lengths) (features : Features) {preps : List Prep} {gs : List (Elem → Elem)}
    (h : List.Forall₂ (fun (p : Prep) (g : Elem → Elem) => Elementwise lengths features p g) preps gs) :
    ∀ d : Dataset, ∃ spec, preprocess lengths features preps d = some ⟨spec, d.elems.map fun e => gs.foldl (fun e g => g e) e⟩ := by
  induction h with
  | nil => intro d; exact ⟨d.spec, by simp [preprocess]⟩
  | cons h1 _ ih =>
    intro d
    obtain ⟨s, hs⟩ := h1 d
    obtain ⟨s', hs'⟩ := ih ⟨s, d.elems.map _⟩
    exact ⟨s', by rw [preprocess, hs, Option.bind_some, hs']; simp⟩

/-- **C106.**  With preprocessors that map the examples one by one, the dataset has one element for each example, in order (a plain text is an
example with an empty target), to which the preprocessors are applied in turn, and no output feature is longer than its length. -/
theorem C106_dataset (lengths : Lengths) (features : Features) {preps : List Prep} {gs : List (Elem → Elem)}
    (h : List.Forall₂ (fun (p : Prep) (g : Elem → Elem) => Elementwise lengths features p g) preps gs) (examples : List Example) {ds : Dataset}
    (hds : getDataset examples preps lengths features = some ds) :
    ds.elems = examples.map (fun x => (gs.foldl (fun e g => g e) (exampleDict x)).map (trimFeat lengths features)) ∧
    (∀ e ∈ ds.elems, ∀ k t n, (k, Feat.tokens t) ∈ e → k ∈ features.map (·.1) → lengths.lookup k = some (some n) → t.length ≤ n) ∧
    (∀ s, exampleDict (.text s) = exampleDict (.pair s [])) := by
  obtain ⟨spec, hsp⟩ := preprocess_map lengths features h (sourceDataset examples)
  unfold getDataset at hds
  rw [hsp, Option.bind_some] at hds
  split_ifs at hds
  cases hds
  refine ⟨?_, ?_, fun _ => rfl⟩
  · simp [sourceDataset]
  · intro e he k t n hk hf hl
    simp only [List.mem_map] at he
    obtain ⟨e', -, rfl⟩ := he
    obtain ⟨⟨k', f⟩, -, hkf⟩ := List.mem_map.1 hk
    cases f with
    | text s => simp [trimFeat] at hkf
    | tokens u =>
      unfold trimFeat at hkf
      cases hlu : lengths.lookup k' with
      | none =>
        simp only [hlu] at hkf
        cases hkf
        rw [hlu] at hl
        cases hl
      | some o =>
        cases o with
        | none =>
          simp only [hlu] at hkf
          cases hkf
          rw [hlu] at hl
          cases hl
        | some n' =>
          simp only [hlu] at hkf
          split_ifs at hkf with hin
          · cases hkf
            rw [hlu] at hl
            cases hl
            simp
          · cases hkf
            exact absurd hf hin

/-- **C106.**  A dataset in which an output feature has another type or rank, or in which a required one is missing, is refused. -/
theorem C106_invalid (lengths : Lengths) (features : Features) (preps : List Prep) (examples : List Example) {d : Dataset}
    (hd : preprocess lengths features preps (sourceDataset examples) = some d) (k : String) (f : Feature) (hf : (k, f) ∈ features)
    (hbad : (d.spec.lookup k = none ∧ f.required = true) ∨ (∃ s, d.spec.lookup k = some s ∧ (s.dtype ≠ f.dtype ∨ s.rank ≠ f.rank))) :
    getDataset examples preps lengths features = none := by
  unfold getDataset
  rw [hd, Option.bind_some, if_neg]
  intro hall
  have := List.all_eq_true.1 hall _ hf
  unfold validFeature at this
  rcases hbad with ⟨h1, h2⟩ | ⟨s, h1, h2⟩
  · simp [h1, h2] at this
  · simp only [h1, Bool.and_eq_true, beq_iff_eq] at this
    rcases h2 with h2 | h2
    · exact h2 this.1
    · exact h2 this.2

/-- **C106.**  A training step takes at least `batch_size` examples and, with preprocessors that map the examples one by one, trains on the
first `batch_size` of them; the others are left out without notice. -/
theorem C106_train_batch {A S : Type} (m : Model A S) {preps : List Prep} {gs : List (Elem → Elem)}
    (h : List.Forall₂ (fun (p : Prep) (g : Elem → Elem) => Elementwise m.lengths m.features p g) preps gs) (examples : List Example) :
    (examples.length < m.batchSize → trainBatch m examples preps = none) ∧
    (m.batchSize ≤ examples.length → ∀ ds, getDataset examples preps m.lengths m.features = some ds →
      trainBatch m examples preps = some (some ((examples.take m.batchSize).map fun x =>
        (gs.foldl (fun e g => g e) (exampleDict x)).map (trimFeat m.lengths m.features)))) := by
  constructor
  · intro hl
    unfold trainBatch
    rw [if_pos hl]
  · intro hl ds hds
    have he := (C106_dataset m.lengths m.features h examples hds).1
    have hlen : ds.elems.length = examples.length := by rw [he, List.length_map]
    unfold trainBatch
    rw [if_neg (by omega), hds, Option.map_some, if_neg (by omega), he, List.map_take]

/-! ### A case -/

/-- Tokenisation with copies of the texts, as `seqio.preprocessors.tokenize`: every character is a token. -/
def demoTokenize : Prep where
  params := ["dataset", "output_features"]
  run := fun _ f d => f.map fun _ =>
    ⟨[("inputs", ⟨.int32, 1⟩), ("targets", ⟨.int32, 1⟩), ("targets_pretokenized", ⟨.string, 0⟩)],
      d.elems.map fun e => e.flatMap fun p => match p.2 with
        | .text s => [(p.1, .tokens (s.map fun c => (c.toNat : Int))), (p.1 ++ "_pretokenized", .text s)]
        | .tokens t => [(p.1, .tokens t)]⟩

/-- A model that predicts the text of the target. -/
def demoModel : Model Nat Nat where
  batchSize := 2
  lengths := [("inputs", some 2), ("targets", some 3)]
  features := [("inputs", ⟨.int32, 1, true⟩), ("targets", ⟨.int32, 1, true⟩)]
  predict := fun _ c => (c.map fun e => match e.lookup "targets_pretokenized" with | some (.text s) => s | _ => [], [])
  score := fun k c => (c.map fun _ => k, [])

/-- Accuracy: the number of predictions that equal their targets. -/
def demoAccuracy : MetricFn Nat Nat Nat Nat where
  params := [("targets", false), ("predictions", false), ("tolerance", true)]
  call := fun a => match a with
    | [.values t, .values p] => some [("correct", ((t.zip p).filter fun x => x.1 = x.2).length), ("total", t.length)]
    | _ => none

def demoScores : MetricFn Nat Nat Nat Nat where
  params := [("targets", false), ("scores", false)]
  call := fun a => match a with
    | [.values _, .scores s] => some [("score", s.sum)]
    | _ => none

def demoExamples : List Example := [.pair ['a', 'b', 'c'] ['x'], .text ['q'], .pair ['e'] ['y', 'z']]

theorem demo_proper : Proper demoModel [] [] (fun _ _ _ => []) (fun _ _ _ => []) :=
  ⟨by decide, by simp, by simp, by simp [demoModel], by simp [demoModel], fun _ _ => rfl, fun _ _ => rfl⟩

example : Is demoAccuracy .predict ∧ Is demoScores .score := ⟨rfl, rfl⟩

/-- All three predictions are right, and none is counted. -/
example : evaluate demoModel 0 demoExamples [demoTokenize] [demoAccuracy, demoScores] none =
    ([.predict, .score, .barrier], .ok [("correct", 0), ("total", 3), ("score", 1)]) := by decide +kernel
example : evaluate demoModel 1 demoExamples [demoTokenize] [demoAccuracy, demoScores] none = ([.predict, .score], .ok []) := by decide +kernel
example : evaluate demoModel 0 demoExamples [demoTokenize] [demoScores] none = ([.score], .error .unbound) := by decide +kernel
example : evaluate demoModel 0 demoExamples [demoTokenize] [demoAccuracy, demoAccuracy] none = ([.predict], .error .duplicate) := by decide +kernel
example : Elementwise demoModel.lengths demoModel.features demoTokenize fun e => e.flatMap fun p => match p.2 with
    | .text s => [(p.1, .tokens (s.map fun c => (c.toNat : Int))), (p.1 ++ "_pretokenized", .text s)]
    | .tokens t => [(p.1, .tokens t)] := fun _ => ⟨_, rfl⟩
example : (trainBatch demoModel demoExamples [demoTokenize]).isSome ∧ trainBatch demoModel (demoExamples.take 1) [demoTokenize] = none := by decide +kernel

end Verif.InteractiveEval
