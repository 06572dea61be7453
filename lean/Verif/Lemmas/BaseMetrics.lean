import Verif.Spec.BaseMetrics
import Verif.Props.Metrics
namespace Verif.BaseMetrics
open Verif Verif.Metrics Verif.Metrics.Spec Verif.BaseMetrics.Spec

variable {K : Type} [Field K]

inductive MSort | sum | avgStep | time | timeRate | stepsPerTime | average | last | bad
deriving DecidableEq

def sortOf : Metric K → MSort
  | .sum _ => .sum
  | .avgStep _ _ => .avgStep
  | .time none => .time
  | .timeRate _ none => .timeRate
  | .stepsPerTime _ none => .stepsPerTime
  | .average _ _ => .average
  | .last _ => .last
  | _ => .bad

def shape (d : Dict K) : List (Str × MSort) := d.map fun e => (e.1, sortOf e.2)

theorem merge_sort (a b : Metric K) (h : sortOf a = sortOf b) (hb : sortOf a ≠ .bad) : ∃ r, merge a b = .ok r ∧ sortOf r = sortOf a := by
  cases a with
  | sum x => cases b <;> first | exact ⟨_, rfl, rfl⟩ | (simp only [sortOf] at h; cases h) | (rename_i d; cases d <;> simp [sortOf] at h)
  | avgStep x s => cases b <;> first | exact ⟨_, rfl, rfl⟩ | (simp only [sortOf] at h; cases h) | (rename_i d; cases d <;> simp [sortOf] at h)
  | average x s => cases b <;> first | exact ⟨_, rfl, rfl⟩ | (simp only [sortOf] at h; cases h) | (rename_i d; cases d <;> simp [sortOf] at h)
  | last x => cases b <;> first | exact ⟨_, rfl, rfl⟩ | (simp only [sortOf] at h; cases h) | (rename_i d; cases d <;> simp [sortOf] at h)
  | time d =>
    cases d with
    | none => exact ⟨_, rfl, rfl⟩
    | some d => exact absurd rfl hb
  | timeRate x d =>
    cases d with
    | some d => exact absurd rfl hb
    | none => cases b <;> first | (simp only [sortOf] at h; cases h) | (rename_i d; cases d <;> first | exact ⟨_, rfl, rfl⟩ | simp [sortOf] at h)
  | stepsPerTime x d =>
    cases d with
    | some d => exact absurd rfl hb
    | none => cases b <;> first | (simp only [sortOf] at h; cases h) | (rename_i d; cases d <;> first | exact ⟨_, rfl, rfl⟩ | simp [sortOf] at h)

theorem mergeDict_shape (a b : Dict K) (h : shape a = shape b) (hb : ∀ e ∈ shape a, e.2 ≠ .bad) :
    ∃ r, mergeDict a b = .ok r ∧ shape r = shape a ∧
      ∀ k x y, PyDict.get a k = some x → PyDict.get b k = some y → ∃ z, PyDict.get r k = some z ∧ merge x y = .ok z := by
  induction a generalizing b with
  | nil =>
    cases b with
    | nil => exact ⟨[], rfl, rfl, fun k x y hx => by cases hx⟩
    | cons e b => cases h
  | cons e a ih =>
    cases b with
    | nil => cases h
    | cons e' b =>
      obtain ⟨k, m⟩ := e
      obtain ⟨k', m'⟩ := e'
      simp only [shape, List.map_cons, List.cons.injEq, Prod.mk.injEq] at h
      obtain ⟨⟨rfl, h1⟩, h2⟩ := h
      obtain ⟨x, hx, hxs⟩ := merge_sort m m' h1 (hb (k, sortOf m) (by simp [shape]))
      obtain ⟨r, hr, hrs, hrg⟩ := ih b h2 (fun e he => hb e (by simp only [shape, List.map_cons]; exact List.mem_cons_of_mem _ he))
      refine ⟨(k, x) :: r, by simp only [mergeDict, hx, hr, if_true], ?_, ?_⟩
      · simp only [shape, List.map_cons, hxs] at hrs ⊢
        rw [hrs]
      · intro k2 y z hy hz
        simp only [PyDict.get] at hy hz ⊢
        split_ifs at hy hz ⊢ with hk
        · cases hy; cases hz; exact ⟨x, rfl, hx⟩
        · exact hrg k2 y z hy hz

/-- Merging dicts of one shape: key by key. -/
theorem tree_get {β : Type} (f : β → Dict K) (t : MTree β) (S : List (Str × MSort)) (hS : ∀ e ∈ S, e.2 ≠ .bad) (h : ∀ a ∈ t.leaves, shape (f a) = S) :
    ∃ r, (t.map f).eval mergeDict = .ok r ∧ shape r = S ∧
      ∀ k (g : β → Metric K), (∀ a ∈ t.leaves, PyDict.get (f a) k = some (g a)) → ∃ m, PyDict.get r k = some m ∧ (t.map g).eval merge = .ok m := by
  induction t with
  | leaf a => exact ⟨f a, rfl, h a (by simp [MTree.leaves]), fun k g hg => ⟨g a, hg a (by simp [MTree.leaves]), rfl⟩⟩
  | node l r ihl ihr =>
    obtain ⟨x, hx, sx, gx⟩ := ihl (fun a ha => h a (by simp [MTree.leaves, ha]))
    obtain ⟨y, hy, sy, gy⟩ := ihr (fun a ha => h a (by simp [MTree.leaves, ha]))
    obtain ⟨z, hz, sz, gz⟩ := mergeDict_shape x y (by rw [sx, sy]) (by rw [sx]; exact hS)
    refine ⟨z, by simp only [MTree.map, MTree.eval, hx, hy]; exact hz, by rw [sz, sx], fun k g hg => ?_⟩
    obtain ⟨u, hu, eu⟩ := gx k g (fun a ha => hg a (by simp [MTree.leaves, ha]))
    obtain ⟨v, hv, ev⟩ := gy k g (fun a ha => hg a (by simp [MTree.leaves, ha]))
    obtain ⟨w, hw, ew⟩ := gz k u v hu hv
    exact ⟨w, hw, by simp only [MTree.map, MTree.eval, eu, ev]; exact ew⟩

theorem get_summarize (d : Dict K) (dur : K) (n : Nat) (k : Str) (m : Metric K) (h : PyDict.get d k = some m) :
    PyDict.get (summarizeDict dur n d) k = some (summarize dur n m) := by
  induction d with
  | nil => cases h
  | cons e d ih =>
    obtain ⟨k', m'⟩ := e
    simp only [PyDict.get] at h
    simp only [summarizeDict, List.map_cons, PyDict.get]
    split_ifs at h ⊢ with hk
    · cases h; rfl
    · exact ih h

theorem reports_kind {β : Type} (f : β → Dict K) (t : MTree β) (S : List (Str × MSort)) (hS : ∀ e ∈ S, e.2 ≠ .bad)
    (h : ∀ a ∈ t.leaves, shape (f a) = S) (dur : K) (n : Nat) (k : Str) (κ : Kind) (g : β → Metric K)
    (hg : ∀ a ∈ t.leaves, PyDict.get (f a) k = some (g a)) (hκ : ∀ a, IsKind κ (g a)) :
    Reports f t dur n k (reported κ dur n (t.leaves.map g)) := by
  obtain ⟨r, hr, -, hget⟩ := tree_get f t S hS h
  obtain ⟨m, hm, hev⟩ := hget k g hg
  obtain ⟨m', hev', hsum⟩ := C32_summary κ (t.map g) (by rw [leaves_map]; intro m hm; obtain ⟨a, -, rfl⟩ := List.mem_map.1 hm; exact hκ a) dur n
  rw [hev] at hev'
  cases hev'
  refine ⟨r, hr, ?_⟩
  rw [get_summarize r dur n k m hm, hsum, leaves_map]

theorem reports_time {β : Type} (f : β → Dict K) (t : MTree β) (S : List (Str × MSort)) (hS : ∀ e ∈ S, e.2 ≠ .bad)
    (h : ∀ a ∈ t.leaves, shape (f a) = S) (dur : K) (n : Nat) (k : Str) (hg : ∀ a ∈ t.leaves, PyDict.get (f a) k = some (.time none)) :
    Reports f t dur n k dur := by
  obtain ⟨r, hr, -, hget⟩ := tree_get f t S hS h
  obtain ⟨m, hm, hev⟩ := hget k (fun _ => .time none) hg
  have hmt : m = .time none := by
    have : ∀ t : MTree β, (t.map (fun _ => (Metric.time none : Metric K))).eval merge = .ok (.time none) := by
      intro t
      induction t with
      | leaf a => rfl
      | node l r ihl ihr => simp only [MTree.map, MTree.eval, ihl, ihr]; rfl
    rw [this] at hev
    cases hev
    rfl
  refine ⟨r, hr, ?_⟩
  rw [get_summarize r dur n k m hm, hmt]
  rfl

/-! The dict of one piece. -/

theorem shape_set (d : Dict K) (k : Str) (m : Metric K) : shape (PyDict.set d k m) = PyDict.set (shape d) k (sortOf m) := by
  induction d with
  | nil => rfl
  | cons e d ih =>
    obtain ⟨k', m'⟩ := e
    simp only [shape, PyDict.set, List.map_cons] at ih ⊢
    split_ifs with h
    · rfl
    · rw [List.map_cons, ih]

theorem shape_update (d e : Dict K) : shape (PyDict.update d e) = PyDict.update (shape d) (shape e) := by
  induction e generalizing d with
  | nil => rfl
  | cons x e ih =>
    simp only [PyDict.update, shape, List.map_cons, List.foldl_cons] at ih ⊢
    have := ih (PyDict.set d x.1 x.2)
    rw [this]
    exact congrArg (fun s => List.foldl _ s _) (shape_set d x.1 x.2)

theorem get_update_of_not_mem (d e : Dict K) (k : Str) (h : k ∉ PyDict.keys e) : PyDict.get (PyDict.update d e) k = PyDict.get d k := by
  induction e generalizing d with
  | nil => rfl
  | cons x e ih =>
    simp only [PyDict.keys, List.map_cons, List.mem_cons, not_or] at h
    simp only [PyDict.update, List.foldl_cons] at ih ⊢
    rw [ih _ h.2, PyDict.get_set, if_neg (fun e => h.1 e.symm)]

theorem get_update_of_mem (d e : Dict K) (he : PyDict.WF e) (k : Str) (m : Metric K) (h : (k, m) ∈ e) : PyDict.get (PyDict.update d e) k = some m := by
  induction e generalizing d with
  | nil => cases h
  | cons x e ih =>
    simp only [PyDict.WF, PyDict.keys, List.map_cons, List.nodup_cons] at he
    rcases List.mem_cons.1 h with h | h
    · subst h
      show PyDict.get (PyDict.update (PyDict.set d k m) e) k = _
      rw [get_update_of_not_mem _ _ _ he.1, PyDict.get_set_self]
    · exact ih _ he.2 h

variable [LinearOrder K]

def ebs (f : Str) : Str := "effective_batch_size/".toList ++ f
def npf (f : Str) : Str := "non_padding_fraction/".toList ++ f

theorem npf_inj {f g : Str} (h : npf f = npf g) : f = g := List.append_cancel_left h
theorem ebs_inj {f g : Str} (h : ebs f = ebs g) : f = g := List.append_cancel_left h
theorem ebs_ne_npf (f g : Str) : ebs f ≠ npf g := fun h =>
  absurd (show some 'e' = some 'n' from congrArg List.head? h) (by decide)

omit [LinearOrder K] in
theorem segLoop_shape (l l' : List (Str × List (List ℤ))) (d d' : Dict K) (T N T' N' : Nat) (hl : l.map Prod.fst = l'.map Prod.fst)
    (hd : shape d = shape d') : shape (segLoop l d T N) = shape (segLoop l' d' T' N') := by
  induction l generalizing l' d d' T N T' N' with
  | nil =>
    cases l' with
    | nil => simp only [segLoop, shape_set, hd]; rfl
    | cons e l' => cases hl
  | cons e l ih =>
    cases l' with
    | nil => cases hl
    | cons e' l' =>
      obtain ⟨f, rows⟩ := e
      obtain ⟨f', rows'⟩ := e'
      simp only [List.map_cons, List.cons.injEq] at hl
      obtain ⟨rfl, hl⟩ := hl
      simp only [segLoop]
      exact ih l' _ _ _ _ _ _ hl (by simp only [shape_set, hd]; rfl)

omit [LinearOrder K] in
theorem set_good (d : Dict K) (k : Str) (m : Metric K) (hd : ∀ e ∈ shape d, e.2 ≠ .bad) (hm : sortOf m ≠ .bad) :
    ∀ e ∈ shape (PyDict.set d k m), e.2 ≠ .bad := by
  intro e he
  rw [shape_set] at he
  generalize shape d = s at hd he
  induction s with
  | nil => simp only [PyDict.set, List.mem_singleton] at he; rw [he]; exact hm
  | cons x s ih =>
    obtain ⟨a, b⟩ := x
    simp only [PyDict.set] at he
    split_ifs at he with hk
    · rcases List.mem_cons.1 he with h | h
      · rw [h]; exact hm
      · exact hd e (List.mem_cons_of_mem _ h)
    · rcases List.mem_cons.1 he with h | h
      · exact hd e (by rw [h]; exact List.mem_cons_self)
      · exact ih (fun e he => hd e (List.mem_cons_of_mem _ he)) h

omit [LinearOrder K] in
theorem segLoop_good (l : List (Str × List (List ℤ))) (d : Dict K) (T N : Nat) (hd : ∀ e ∈ shape d, e.2 ≠ .bad) :
    ∀ e ∈ shape (segLoop l d T N), e.2 ≠ .bad := by
  induction l generalizing d T N with
  | nil => exact set_good d _ _ hd (by simp [sortOf])
  | cons e l ih =>
    obtain ⟨f, rows⟩ := e
    simp only [segLoop]
    exact ih _ _ _ (set_good _ _ _ (set_good _ _ _ hd (by simp [sortOf])) (by simp [sortOf]))

omit [LinearOrder K] in
theorem segLoop_other (l : List (Str × List (List ℤ))) (d : Dict K) (T N : Nat) (k : Str) (h1 : k ≠ npf "overall".toList)
    (h2 : ∀ e ∈ l, k ≠ ebs e.1 ∧ k ≠ npf e.1) : PyDict.get (segLoop l d T N) k = PyDict.get d k := by
  induction l generalizing d T N with
  | nil => simp only [segLoop]; rw [PyDict.get_set, if_neg (fun e => h1 e.symm)]
  | cons e l ih =>
    obtain ⟨f, rows⟩ := e
    obtain ⟨h3, h4⟩ := h2 (f, rows) List.mem_cons_self
    simp only [segLoop]
    rw [ih _ _ _ (fun e he => h2 e (List.mem_cons_of_mem _ he)), PyDict.get_set, if_neg (fun e => h4 e.symm), PyDict.get_set,
      if_neg (fun e => h3 e.symm)]

omit [LinearOrder K] in
theorem segLoop_feature (l : List (Str × List (List ℤ))) (d : Dict K) (T N : Nat) (f : Str) (rows : List (List ℤ)) (hm : (f, rows) ∈ l)
    (hn : (l.map Prod.fst).Nodup) (ho : f ≠ "overall".toList) :
    PyDict.get (segLoop l d T N) (ebs f) = some (.avgStep ((LossWeights.countPackedExamples rows : ℤ) : K) 1) ∧
    PyDict.get (segLoop l d T N) (npf f) = some (.average (nonzero rows : Nat) (size rows : Nat)) := by
  induction l generalizing d T N with
  | nil => cases hm
  | cons e l ih =>
    obtain ⟨f', rows'⟩ := e
    rw [List.map_cons, List.nodup_cons] at hn
    simp only [segLoop]
    rcases List.mem_cons.1 hm with h | h
    · cases h
      have hne : ∀ e ∈ l, f ≠ e.1 := fun e he h => hn.1 (List.mem_map.2 ⟨e, he, h.symm⟩)
      constructor
      · rw [segLoop_other _ _ _ _ _ (ebs_ne_npf _ _) (fun e he => ⟨fun h => hne e he (ebs_inj h), ebs_ne_npf _ _⟩), PyDict.get_set,
          if_neg (show ¬ "non_padding_fraction/".toList ++ f = ebs f from fun h => ebs_ne_npf _ _ h.symm), PyDict.get_set]
        exact if_pos rfl
      · rw [segLoop_other _ _ _ _ _ (fun h => ho (npf_inj h)) (fun e he => ⟨fun h => ebs_ne_npf _ _ h.symm, fun h => hne e he (npf_inj h)⟩),
          PyDict.get_set]
        exact if_pos rfl
    · exact ih _ _ _ h hn.2

omit [LinearOrder K] in
theorem segLoop_overall (l : List (Str × List (List ℤ))) (d : Dict K) (T N : Nat) :
    PyDict.get (segLoop l d T N) (npf "overall".toList) =
      some (.average ((N + (l.map fun e => nonzero e.2).sum : Nat) : K) ((T + (l.map fun e => size e.2).sum : Nat) : K)) := by
  induction l generalizing d T N with
  | nil => simp only [segLoop]; rw [show npf "overall".toList = "non_padding_fraction/overall".toList from rfl, PyDict.get_set_self]; rfl
  | cons e l ih =>
    obtain ⟨f', rows'⟩ := e
    simp only [segLoop, List.map_cons, List.sum_cons]
    rw [ih, Nat.add_assoc, Nat.add_assoc]

end Verif.BaseMetrics
