import Verif.Common
/-
Python dictionaries as association lists in insertion order.  Shared by the
models; the operations are those of the Python language itself.
-/
namespace Verif.PyDict

variable {κ β : Type} [DecidableEq κ]

/-- `d.get(k)`. -/
def get : List (κ × β) → κ → Option β
  | [], _ => none
  | (k', v) :: d, k => if k' = k then some v else get d k

/-- `d[k] = v`: overwrite in place, or append. -/
def set : List (κ × β) → κ → β → List (κ × β)
  | [], k, v => [(k, v)]
  | (k', v') :: d, k, v => if k' = k then (k', v) :: d else (k', v') :: set d k v

/-- `d.pop(k, None)` (or `del d[k]` for a present key). -/
def pop (d : List (κ × β)) (k : κ) : List (κ × β) := d.filter (fun e => e.1 ≠ k)

/-- `d.keys()`. -/
def keys (d : List (κ × β)) : List κ := d.map Prod.fst

/-- `k in d`. -/
def has (d : List (κ × β)) (k : κ) : Bool := (get d k).isSome

/-- The invariant of every Python dictionary: no key occurs twice. -/
def WF (d : List (κ × β)) : Prop := (keys d).Nodup

/-- `d.update(e)`. -/
def update (d e : List (κ × β)) : List (κ × β) := e.foldl (fun d kv => set d kv.1 kv.2) d

theorem get_set (d : List (κ × β)) (k k' : κ) (v : β) :
    get (set d k v) k' = if k = k' then some v else get d k' := by
  induction d with
  | nil => simp [set, get]
  | cons e d ih =>
    obtain ⟨a, b⟩ := e
    unfold set
    split_ifs with h1 h2 h2
    · subst h1; simp [get, h2]
    · subst h1; simp [get, h2]
    · subst h2
      have : ¬ a = k := h1
      simp only [get, this, if_false, ih, if_true]
    · simp only [get, ih, h2, if_false]

theorem get_set_self (d : List (κ × β)) (k : κ) (v : β) : get (set d k v) k = some v := by
  simp [get_set]

theorem get_eq_none_iff (d : List (κ × β)) (k : κ) : get d k = none ↔ k ∉ keys d := by
  induction d with
  | nil => simp [get, keys]
  | cons e d ih =>
    obtain ⟨a, b⟩ := e
    simp only [get, keys, List.map_cons, List.mem_cons, not_or]
    split_ifs with h
    · simp [h]
    · rw [ih]; simp only [keys]
      constructor
      · intro h'; exact ⟨fun h2 => h h2.symm, h'⟩
      · intro h'; exact h'.2

theorem get_isSome_iff (d : List (κ × β)) (k : κ) : (get d k).isSome ↔ k ∈ keys d := by
  rw [← not_iff_not, ← get_eq_none_iff]; simp

theorem mem_of_get (d : List (κ × β)) (k : κ) (v : β) (h : get d k = some v) : (k, v) ∈ d := by
  induction d with
  | nil => cases h
  | cons e d ih =>
    obtain ⟨a, b⟩ := e
    simp only [get] at h
    split_ifs at h with h1
    · subst h1; cases h; simp
    · exact List.mem_cons_of_mem _ (ih h)

theorem get_of_mem (d : List (κ × β)) (hd : WF d) (k : κ) (v : β) (h : (k, v) ∈ d) : get d k = some v := by
  induction d with
  | nil => cases h
  | cons e d ih =>
    obtain ⟨a, b⟩ := e
    simp only [WF, keys, List.map_cons, List.nodup_cons] at hd
    rcases List.mem_cons.1 h with h | h
    · cases h; simp [get]
    · have : a ≠ k := by
        rintro rfl; exact hd.1 (List.mem_map.2 ⟨_, h, rfl⟩)
      simp only [get, this, if_false]
      exact ih hd.2 h

theorem get_iff_mem (d : List (κ × β)) (hd : WF d) (k : κ) (v : β) : get d k = some v ↔ (k, v) ∈ d :=
  ⟨mem_of_get d k v, get_of_mem d hd k v⟩

theorem keys_set (d : List (κ × β)) (k : κ) (v : β) :
    keys (set d k v) = if k ∈ keys d then keys d else keys d ++ [k] := by
  induction d with
  | nil => simp [set, keys]
  | cons e d ih =>
    obtain ⟨a, b⟩ := e
    unfold set
    by_cases h : a = k
    · simp [h, keys]
    · have h' : ¬ k = a := fun h2 => h h2.symm
      simp only [keys] at ih
      simp only [h, if_false, keys, List.map_cons, ih, List.mem_cons, h', false_or]
      split_ifs <;> simp_all

theorem wf_set (d : List (κ × β)) (hd : WF d) (k : κ) (v : β) : WF (set d k v) := by
  unfold WF
  rw [keys_set]
  split_ifs with h
  · exact hd
  · rw [List.nodup_append]
    refine ⟨hd, by simp, ?_⟩
    intro a ha b hb
    simp only [List.mem_singleton] at hb
    subst hb
    rintro rfl
    exact h ha

theorem set_append_of_not_mem (d : List (κ × β)) (k : κ) (v : β) (h : k ∉ keys d) :
    set d k v = d ++ [(k, v)] := by
  induction d with
  | nil => rfl
  | cons e d ih =>
    obtain ⟨a, b⟩ := e
    simp only [keys, List.map_cons, List.mem_cons, not_or] at h
    have : ¬ a = k := fun h2 => h.1 h2.symm
    simp only [set, this, if_false, List.cons_append]
    rw [ih h.2]

theorem get_pop (d : List (κ × β)) (k k' : κ) : get (pop d k) k' = if k = k' then none else get d k' := by
  induction d with
  | nil => simp [pop, get]
  | cons e d ih =>
    obtain ⟨a, b⟩ := e
    unfold pop at ih ⊢
    rw [List.filter_cons]
    by_cases h1 : a = k
    · subst h1
      simp only [ne_eq, not_true_eq_false, decide_false, Bool.false_eq_true, if_false, ih, get]
      split_ifs <;> rfl
    · simp only [ne_eq, h1, not_false_eq_true, decide_true, if_true, get, ih]
      split_ifs with h2 h3 h3
      · exact absurd (h2.trans h3.symm) h1
      · rfl
      · rfl
      · rfl

theorem wf_pop (d : List (κ × β)) (hd : WF d) (k : κ) : WF (pop d k) := by
  unfold WF keys pop at *
  exact hd.sublist (List.filter_sublist.map _)

theorem get_append (d e : List (κ × β)) (k : κ) : get (d ++ e) k = (get d k).or (get e k) := by
  induction d with
  | nil => simp [get]
  | cons x d ih =>
    obtain ⟨a, b⟩ := x
    simp only [List.cons_append, get]
    split_ifs
    · simp
    · exact ih

theorem wf_update (d e : List (κ × β)) (hd : WF d) : WF (update d e) := by
  unfold update
  induction e generalizing d with
  | nil => exact hd
  | cons x e ih => exact ih _ (wf_set d hd _ _)

theorem get_update (d e : List (κ × β)) (he : WF e) (k : κ) :
    get (update d e) k = (get e k).or (get d k) := by
  unfold update
  induction e generalizing d with
  | nil => simp [get]
  | cons x e ih =>
    obtain ⟨a, b⟩ := x
    simp only [WF, keys, List.map_cons, List.nodup_cons] at he
    simp only [List.foldl_cons]
    rw [ih _ he.2, get_set]
    simp only [get]
    split_ifs with h
    · subst h
      have : get e a = none := by rw [get_eq_none_iff]; exact he.1
      simp [this]
    · rfl

end Verif.PyDict
