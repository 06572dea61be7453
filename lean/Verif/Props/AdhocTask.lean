import Verif.Model.AdhocTask
import Mathlib.Data.List.SplitOn
/-
Property theorems for tasks registered on the fly (C135).
-/
namespace Verif.AdhocTask

variable {F X P : Type}

theorem lookup_append_none {l m : List (Text × Task F X P)} {n : Text} (h : (l.lookup n).isSome = false) : (l ++ m).lookup n = m.lookup n := by
  rw [List.lookup_append]
  cases e : l.lookup n with
  | none => rfl
  | some t => rw [e] at h; cases h

theorem hashed_inj {p p' : List Text} {i i' : Text} {t t' : Option Text} (hp : ∀ x ∈ p, ':' ∉ x) (hp' : ∀ x ∈ p', ':' ∉ x) (hi : ':' ∉ i) (hi' : ':' ∉ i')
    (ht : ∀ x, t = some x → ':' ∉ x) (ht' : ∀ x, t' = some x → ':' ∉ x) (h : hashed p i t = hashed p' i' t') :
    p = p' ∧ i = i' ∧ t.getD [] = t'.getD [] := by
  have clean : ∀ {p : List Text} {i : Text} {t : Option Text}, (∀ x ∈ p, ':' ∉ x) → ':' ∉ i → (∀ x, t = some x → ':' ∉ x) →
      ∀ x ∈ p ++ [i, t.getD []], ':' ∉ x := by
    intro p i t hp hi ht x hx
    simp only [List.mem_append, List.mem_cons, List.not_mem_nil, or_false] at hx
    rcases hx with hx | rfl | rfl
    · exact hp x hx
    · exact hi
    · cases t with
      | none => simp
      | some y => exact ht y rfl
  have e : p ++ [i, t.getD []] = p' ++ [i', t'.getD []] := by
    rw [← List.splitOn_intercalate ':' (clean hp hi ht) (by simp), ← List.splitOn_intercalate ':' (clean hp' hi' ht') (by simp)]
    exact congrArg _ h
  have := List.append_inj' e rfl
  simp only [List.cons.injEq, and_true] at this
  exact ⟨this.1, this.2.1, this.2.2⟩

/-- What is read from a record: the text of the input feature as `inputs`, that of the target feature, or the empty text without one, as `targets`. -/
def exampleOf (inputsKey : Text) (targetsKey : Option Text) (rec : List (Text × Text)) : Option (List (Text × Text)) :=
  match rec.lookup inputsKey with
  | none => none
  | some i =>
    match targetsKey with
    | none => some [("inputs".toList, i), ("targets".toList, [])]
    | some k => (rec.lookup k).map fun t => [("inputs".toList, i), ("targets".toList, t)]

theorem step_eq {inputsKey : Text} {targetsKey : Option Text} (hi : inputsKey ≠ []) (ht : targetsKey ≠ some []) (rec : List (Text × Text)) :
    (match parse (description inputsKey targetsKey) rec with
      | .error e => Except.error e
      | .ok ex => rekey [("inputs".toList, some inputsKey), ("targets".toList, targetsKey)] ex) =
    (exampleOf inputsKey targetsKey rec).elim (Except.error .parse) Except.ok := by
  obtain ⟨c, cs, rfl⟩ := List.exists_cons_of_ne_nil hi
  unfold exampleOf description
  cases e1 : rec.lookup (c :: cs) with
  | none =>
    simp only [parse, List.mapM_cons, e1]
    rfl
  | some i =>
    cases targetsKey with
    | none =>
      simp only [parse, truthy, List.mapM_cons, List.mapM_nil, e1]
      simp only [rekey, List.mapM_cons, List.mapM_nil, bind, Except.bind, pure, Except.pure, List.lookup, beq_self_eq_true, Bool.false_eq_true, if_false, Option.elim_some]
    | some k =>
      cases k with
      | nil => exact absurd rfl ht
      | cons d ds =>
        by_cases hk : d :: ds = c :: cs
        · obtain ⟨rfl, rfl⟩ := List.cons.inj hk
          simp [parse, rekey, truthy, e1, List.lookup, bind, Except.bind, pure, Except.pure]
        · have hk' : (d :: ds == c :: cs) = false := by simpa using hk
          have hd : (if truthy (some (d :: ds)) then (some (d :: ds)).toList.filter (· ≠ c :: cs) else []) = [d :: ds] := by
            simp only [truthy, if_true, Option.toList_some, List.filter_cons, List.filter_nil]
            rw [if_pos (decide_eq_true hk)]
          rw [hd]
          cases e2 : rec.lookup (d :: ds) with
          | none =>
            simp only [parse, List.mapM_cons, e1, e2]
            rfl
          | some t =>
            simp only [parse, rekey, List.mapM_cons, List.mapM_nil, e1, e2, bind, Except.bind, pure, Except.pure, List.lookup, beq_self_eq_true, hk',
              Option.map_some, Option.elim_some]

theorem mapM_option {α β : Type} {f : α → Except Err β} {g : α → Option β} {e : Err}
    (h : ∀ a, f a = (g a).elim (Except.error e) Except.ok) : ∀ l : List α,
    (∀ out, l.mapM f = .ok out ↔ l.map g = out.map some) ∧ ((∃ a ∈ l, g a = none) → l.mapM f = .error e)
  | [] => by
    refine ⟨fun out => ?_, ?_⟩
    · cases out <;> simp [pure, Except.pure]
    · rintro ⟨a, ha, _⟩; cases ha
  | a :: l => by
    obtain ⟨i1, i2⟩ := mapM_option h l
    cases hg : g a with
    | none =>
      have hf : (a :: l).mapM f = .error e := by
        rw [List.mapM_cons, h a, hg]; rfl
      refine ⟨fun out => ?_, fun _ => hf⟩
      rw [hf, List.map_cons, hg]
      cases out <;> simp
    | some x =>
      have hf : (a :: l).mapM f = (l.mapM f).map (x :: ·) := by
        rw [List.mapM_cons, h a, hg]
        cases l.mapM f <;> rfl
      rw [hf]
      refine ⟨fun out => ?_, ?_⟩
      · rw [List.map_cons, hg]
        cases out with
        | nil => cases l.mapM f <;> simp [Except.map]
        | cons y ys =>
          rw [List.map_cons, List.cons.injEq, Option.some.injEq, ← i1 ys]
          cases l.mapM f <;> simp [Except.map]
      · rintro ⟨b, hb, hn⟩
        rcases List.mem_cons.mp hb with rfl | hb
        · rw [hg] at hn; cases hn
        · rw [i2 ⟨b, hb, hn⟩]; rfl

theorem create_ok {glob : List Text → List Text} {md5 : Text → Text} {valid : Text → Bool} {r r' : Registry F X P} {paths : List Text}
    {fileType inputsKey name : Text} {targetsKey : Option Text} {features : F} {taskId : Option Text} :
    createTask glob md5 valid r paths fileType inputsKey targetsKey features taskId = .ok (name, r') ↔
      glob paths ≠ [] ∧ fileType = "tfrecord".toList ∧ name = taskName md5 paths inputsKey targetsKey taskId ∧ valid name = true ∧
      r.tasks.lookup name = none ∧ r' = { r with tasks := r.tasks ++ [(name, fileTask paths inputsKey targetsKey features)] } := by
  unfold createTask Registry.add
  split_ifs with h1 h2 h3 h4
  · simp [h1]
  · simp only [reduceCtorEq, false_iff]
    rintro ⟨_, hf, _⟩
    exact h2 hf
  · simp only [reduceCtorEq, false_iff]
    rintro ⟨_, _, rfl, hv, _⟩
    rw [h3] at hv; cases hv
  · simp only [reduceCtorEq, false_iff]
    rintro ⟨_, _, rfl, _, hl, _⟩
    rw [hl] at h4; cases h4
  · simp only [Except.ok.injEq, Prod.mk.injEq]
    constructor
    · rintro ⟨rfl, rfl⟩
      refine ⟨h1, not_not.mp h2, rfl, by simpa using h3, ?_, rfl⟩
      exact Option.not_isSome_iff_eq_none.mp h4
    · rintro ⟨_, _, rfl, _, _, rfl⟩
      exact ⟨rfl, rfl⟩

/-- C135 (files): a call that returns a name has added exactly one task of this name to the registry, which had none, and reading this task gives one example for each record
of the files, in their order, with the texts of the two features; if some record lacks one of them, reading fails. -/
theorem C135_examples (glob : List Text → List Text) (md5 : Text → Text) (valid : Text → Bool) (r r' : Registry F X P) (paths : List Text)
    (fileType inputsKey name : Text) (targetsKey : Option Text) (features : F) (taskId : Option Text) (hi : inputsKey ≠ []) (ht : targetsKey ≠ some [])
    (h : createTask glob md5 valid r paths fileType inputsKey targetsKey features taskId = .ok (name, r')) :
    r.tasks.lookup name = none ∧ r'.mixtures = r.mixtures ∧ (∀ n, n ≠ name → r'.tasks.lookup n = r.tasks.lookup n) ∧
    (∀ id, taskId = some id → name = "infer_".toList ++ id) ∧
    ∃ task, r'.tasks.lookup name = some task ∧ ∀ records : List Text → List (List (Text × Text)),
      (∀ out, task.examples records = .ok out ↔ (records paths).map (exampleOf inputsKey targetsKey) = out.map some) ∧
      ((∃ rec ∈ records paths, exampleOf inputsKey targetsKey rec = none) → task.examples records = .error .parse) := by
  obtain ⟨_, _, hn, _, h4, rfl⟩ := create_ok.mp h
  refine ⟨h4, rfl, ?_, ?_, fileTask paths inputsKey targetsKey features, ?_, ?_⟩
  · intro n hne
    show (r.tasks ++ [(name, _)]).lookup n = _
    have hb : (n == name) = false := by simpa using hne
    rw [List.lookup_append]
    simp [List.lookup, hb]
  · rintro id rfl
    rw [hn]; rfl
  · rw [lookup_append_none (by rw [h4]; rfl)]
    simp [List.lookup]
  · intro records
    exact mapM_option (step_eq hi ht) (records paths)

/-- C135 (success): a call succeeds exactly if some file matches, the type is `tfrecord`, and the name is valid and new.  Without matching files it raises a ValueError,
with another type a KeyError. -/
theorem C135_succeeds (glob : List Text → List Text) (md5 : Text → Text) (valid : Text → Bool) (r : Registry F X P) (paths : List Text)
    (fileType inputsKey : Text) (targetsKey : Option Text) (features : F) (taskId : Option Text) :
    ((∃ out, createTask glob md5 valid r paths fileType inputsKey targetsKey features taskId = .ok out) ↔
      glob paths ≠ [] ∧ fileType = "tfrecord".toList ∧ valid (taskName md5 paths inputsKey targetsKey taskId) = true ∧
      r.tasks.lookup (taskName md5 paths inputsKey targetsKey taskId) = none) ∧
    (glob paths = [] → createTask glob md5 valid r paths fileType inputsKey targetsKey features taskId = .error .value) ∧
    (glob paths ≠ [] → fileType ≠ "tfrecord".toList → createTask glob md5 valid r paths fileType inputsKey targetsKey features taskId = .error .key) := by
  refine ⟨⟨?_, ?_⟩, ?_, ?_⟩
  · rintro ⟨⟨n, r'⟩, h⟩
    obtain ⟨h1, h2, rfl, h3, h4, _⟩ := create_ok.mp h
    exact ⟨h1, h2, h3, h4⟩
  · rintro ⟨h1, h2, h3, h4⟩
    exact ⟨(_, _), create_ok.mpr ⟨h1, h2, rfl, h3, h4, rfl⟩⟩
  · intro h
    rw [createTask, if_pos h]
  · intro h h'
    rw [createTask, if_neg h, if_pos h']

/-- C135 (names): two calls without `task_id` for different paths or keys, none of which has a colon, hash different texts.  If the digests differ and are new, both
calls succeed, and each name then stands for its own task. -/
theorem C135_names (glob : List Text → List Text) (md5 : Text → Text) (valid : Text → Bool) (hv : ∀ s, valid ("infer_".toList ++ (md5 s).take 10) = true)
    (r : Registry F X P) {p p' : List Text} {i i' : Text} {t t' : Option Text} (f f' : F) (hg : glob p ≠ []) (hg' : glob p' ≠ [])
    (hp : ∀ x ∈ p, ':' ∉ x) (hp' : ∀ x ∈ p', ':' ∉ x) (hi : ':' ∉ i) (hi' : ':' ∉ i') (ht : ∀ x, t = some x → x ≠ [] ∧ ':' ∉ x) (ht' : ∀ x, t' = some x → x ≠ [] ∧ ':' ∉ x)
    (hne : ¬ (p = p' ∧ i = i' ∧ t = t')) :
    hashed p i t ≠ hashed p' i' t' ∧
    ((md5 (hashed p i t)).take 10 ≠ (md5 (hashed p' i' t')).take 10 →
    (∀ s ∈ [hashed p i t, hashed p' i' t'], r.tasks.lookup ("infer_".toList ++ (md5 s).take 10) = none) →
    ∃ name name' r1 r2, createTask glob md5 valid r p "tfrecord".toList i t f none = .ok (name, r1) ∧
      createTask glob md5 valid r1 p' "tfrecord".toList i' t' f' none = .ok (name', r2) ∧ name ≠ name' ∧
      r2.tasks.lookup name = some (fileTask p i t f) ∧ r2.tasks.lookup name' = some (fileTask p' i' t' f')) := by
  have hh : hashed p i t ≠ hashed p' i' t' := by
    intro e
    obtain ⟨a, b, c⟩ := hashed_inj hp hp' hi hi' (fun x hx => (ht x hx).2) (fun x hx => (ht' x hx).2) e
    refine hne ⟨a, b, ?_⟩
    cases t with
    | none =>
      cases t' with
      | none => rfl
      | some y => exact absurd c.symm (ht' y rfl).1
    | some x =>
      cases t' with
      | none => exact absurd c (ht x rfl).1
      | some y => exact congrArg some c
  refine ⟨hh, fun hm hnew => ?_⟩
  have n1 : r.tasks.lookup (taskName md5 p i t none) = none := hnew _ List.mem_cons_self
  have n2 : r.tasks.lookup (taskName md5 p' i' t' none) = none := hnew _ (List.mem_cons_of_mem _ List.mem_cons_self)
  have hd : taskName md5 p i t none ≠ taskName md5 p' i' t' none := fun e => hm (List.append_cancel_left e)
  have hb : (taskName md5 p' i' t' none == taskName md5 p i t none) = false := by simpa using hd.symm
  have l1 : ({ r with tasks := r.tasks ++ [(taskName md5 p i t none, fileTask p i t f)] } : Registry F X P).tasks.lookup (taskName md5 p' i' t' none) = none := by
    show (r.tasks ++ _).lookup _ = none
    rw [lookup_append_none (congrArg Option.isSome n2)]
    simp [List.lookup, hb]
  refine ⟨_, _, _, _, create_ok.mpr ⟨hg, rfl, rfl, hv _, n1, rfl⟩, create_ok.mpr ⟨hg', rfl, rfl, hv _, l1, rfl⟩, hd, ?_, ?_⟩
  · show ((r.tasks ++ _) ++ _).lookup _ = _
    rw [List.append_assoc, lookup_append_none (congrArg Option.isSome n1)]
    simp [List.lookup]
  · show ((r.tasks ++ _) ++ _).lookup _ = _
    rw [lookup_append_none (congrArg Option.isSome l1)]
    simp [List.lookup]

/-- C135 (same again): after a call without `task_id`, every call without it for the same paths and keys fails with a ValueError, also with other features, as does one
without target key after one with an empty one; with a `task_id` that is new and valid it succeeds. -/
theorem C135_again (glob : List Text → List Text) (md5 : Text → Text) (valid : Text → Bool) (r r' : Registry F X P) (p : List Text) (i name : Text)
    (t t' : Option Text) (f f' : F) (h : createTask glob md5 valid r p "tfrecord".toList i t f none = .ok (name, r')) (ht : t'.getD [] = t.getD []) :
    createTask glob md5 valid r' p "tfrecord".toList i t' f' none = .error .value ∧
    ∀ id, valid ("infer_".toList ++ id) = true → r'.tasks.lookup ("infer_".toList ++ id) = none →
      ∃ r'', createTask glob md5 valid r' p "tfrecord".toList i t' f' (some id) = .ok ("infer_".toList ++ id, r'') := by
  obtain ⟨hg, _, hn, hv, hl, rfl⟩ := create_ok.mp h
  have e : taskName md5 p i t' none = name := by rw [hn, taskName, taskName, hashed, hashed, ht]
  refine ⟨?_, fun id hvi hli => ⟨_, create_ok.mpr ⟨hg, rfl, rfl, hvi, hli, rfl⟩⟩⟩
  unfold createTask Registry.add
  rw [if_neg hg, if_neg (by simp), e, hv, if_neg (by simp), if_pos]
  show ((r.tasks ++ _).lookup name).isSome = true
  rw [lookup_append_none (by rw [hl]; rfl)]
  simp [List.lookup]

/-- C135 (colons): the names are not unique in general.  Whatever the hash, the file `a:b` and the two files `a` and `b` get the same name, and the second call fails. -/
theorem C135_colon (glob : List Text → List Text) (md5 : Text → Text) (valid : Text → Bool) (r r' : Registry F X P) (i name : Text) (t : Option Text) (f f' : F)
    (h : createTask glob md5 valid r ["a:b".toList] "tfrecord".toList i t f none = .ok (name, r')) (hg : glob ["a".toList, "b".toList] ≠ []) :
    createTask glob md5 valid r' ["a".toList, "b".toList] "tfrecord".toList i t f' none = .error .value := by
  obtain ⟨_, _, hn, hv, hl, rfl⟩ := create_ok.mp h
  have e : taskName md5 ["a".toList, "b".toList] i t none = name := by
    rw [hn]
    simp [taskName, hashed, List.intercalate, List.intersperse]
  unfold createTask Registry.add
  rw [if_neg hg, if_neg (by simp), e, hv, if_neg (by simp), if_pos]
  show ((r.tasks ++ _).lookup name).isSome = true
  rw [lookup_append_none (by rw [hl]; rfl)]
  simp [List.lookup]

/-- C135 (interactive): with a valid new name that no mixture has, the task of the given examples is registered and returned; a name in use is refused.  With
`add_to_registry=False` no task is made: without a task or mixture of this name the call fails, otherwise that one is returned, whatever the examples are. -/
theorem C135_interactive (valid : Text → Bool) (r : Registry F X P) (name : Text) (x : X) (p : P) (f : F) :
    (valid name = true → r.tasks.lookup name = none → r.mixtures.lookup name = none →
      ∃ r', fromExamples valid r name x p f true = .ok (.given x p f, r') ∧ r'.tasks.lookup name = some (.given x p f) ∧
        ∀ n, n ≠ name → r'.tasks.lookup n = r.tasks.lookup n) ∧
    (r.tasks.lookup name ≠ none → fromExamples valid r name x p f true = .error .value) ∧
    (r.tasks.lookup name = none → r.mixtures.lookup name = none → fromExamples valid r name x p f false = .error .value) ∧
    (∀ t, r.mixtures.lookup name = none → r.tasks.lookup name = some t → fromExamples valid r name x p f false = .ok (t, r)) ∧
    (∀ m, r.mixtures.lookup name = some m → fromExamples valid r name x p f false = .ok (m, r)) := by
  refine ⟨?_, ?_, ?_, ?_, ?_⟩
  · intro hv h1 h2
    have hl : (r.tasks ++ [(name, Task.given x p f)]).lookup name = some (.given x p f) := by
      rw [lookup_append_none (by rw [h1]; rfl)]
      simp [List.lookup]
    refine ⟨{ r with tasks := r.tasks ++ [(name, .given x p f)] }, ?_, hl, ?_⟩
    · simp only [fromExamples, Registry.add, if_true, hv, h1, Bool.true_eq_false, if_false, Option.isSome_none, Bool.false_eq_true, Registry.get, h2, hl]
    · intro n hne
      have hb : (n == name) = false := by simpa using hne
      rw [List.lookup_append]
      simp [List.lookup, hb]
  · intro h
    obtain ⟨t, ht⟩ := Option.ne_none_iff_exists'.mp h
    cases hv : valid name <;> simp [fromExamples, Registry.add, hv, ht]
  · intro h1 h2
    simp [fromExamples, Registry.get, h1, h2]
  · intro t h1 h2
    simp [fromExamples, Registry.get, h1, h2]
  · intro m h
    simp [fromExamples, Registry.get, h]

/-! Concrete cases. -/

def exReg : Registry Nat (List Text) Unit := ⟨[], [("known".toList, .given [] () 0)]⟩
def exRecords (_ : List Text) : List (List (Text × Text)) :=
  [[("q".toList, "one".toList), ("a".toList, "1".toList)], [("a".toList, "2".toList), ("q".toList, "two".toList)]]

example : ∃ r', createTask id id (fun _ => true) exReg ["x".toList] "tfrecord".toList "q".toList (some "a".toList) 5 none = .ok ("infer_x:q:a".toList, r') ∧
    ((r'.tasks.lookup "infer_x:q:a".toList).map fun t => t.examples exRecords) =
      some (.ok [[("inputs".toList, "one".toList), ("targets".toList, "1".toList)], [("inputs".toList, "two".toList), ("targets".toList, "2".toList)]]) :=
  ⟨_, create_ok.mpr ⟨by decide, rfl, by decide, rfl, by decide, rfl⟩, rfl⟩
example : ∃ r', createTask id id (fun _ => true) exReg ["a:b".toList] "tfrecord".toList "q".toList none 5 none = .ok ("infer_a:b:q:".toList, r') :=
  ⟨_, create_ok.mpr ⟨by decide, rfl, by decide, rfl, by decide, rfl⟩⟩
example : exampleOf "q".toList (some "b".toList) [("q".toList, "one".toList)] = none := by decide
example : createTask id id (fun _ => true) exReg [] "tfrecord".toList "q".toList none 5 none = .error .value ∧
    createTask id id (fun _ => true) exReg ["x".toList] "sstable".toList "q".toList none 5 none = .error .key := ⟨rfl, rfl⟩
example : ':' ∉ "data/x.tfrecord".toList ∧ exReg.tasks.lookup "new".toList = none ∧ exReg.tasks.lookup "known".toList ≠ none := by
  refine ⟨by decide, by decide, ?_⟩
  simp [exReg, List.lookup]

end Verif.AdhocTask
