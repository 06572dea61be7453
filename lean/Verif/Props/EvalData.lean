import Verif.Spec.EvalData
/-
C82: the evaluation data dealt out to the hosts, and the data of training.
-/
namespace Verif.EvalData
open Spec

variable {N S Ex D : Type} [DecidableEq N] [DecidableEq S]

/-! ### Datasets -/

theorem collect_some (l : List (Option Ex)) (h : ∀ x ∈ l, x.isSome) :
    ∃ r, collect l = some r ∧ r.length = l.length ∧ ∀ j < l.length, r[j]? = l.getD j none := by
  induction l with
  | nil => exact ⟨[], rfl, rfl, by simp⟩
  | cons a l ih =>
    obtain ⟨r, h1, h2, h3⟩ := ih (fun x hx => h x (List.mem_cons_of_mem _ hx))
    cases a with
    | none => have := h none (by simp); simp at this
    | some x =>
      refine ⟨x :: r, by simp [collect, h1], by simp [h2], ?_⟩
      intro j hj
      cases j with
      | zero => simp
      | succ j => simpa using h3 j (by simpa using hj)

theorem collect_none (l : List (Option Ex)) (h : none ∈ l) : collect l = none := by
  induction l with
  | nil => simp at h
  | cons a l ih =>
    cases a with
    | none => rfl
    | some x => simp only [collect, ih (by simpa using h), Option.map_none]

theorem takeDs_full {α : Type} (s : Ds α) (h : ∀ i, (s i).isSome) (k i : Nat) :
    (takeDs s i k).length = k ∧ ∀ t < k, (takeDs s i k)[t]? = s (i + t) := by
  induction k generalizing i with
  | zero => simp [takeDs]
  | succ k ih =>
    obtain ⟨x, hx⟩ := Option.isSome_iff_exists.1 (h i)
    obtain ⟨h1, h2⟩ := ih (i + 1)
    simp only [takeDs, hx]
    refine ⟨by simp [h1], ?_⟩
    intro t ht
    cases t with
    | zero => simp [hx]
    | succ t =>
      simp only [List.getElem?_cons_succ]
      rw [h2 t (by omega)]
      congr 1; omega

theorem nth_some (ds : List Ex) (h : ds ≠ []) (i : Nat) : (nth ds i).isSome := by
  have : i % ds.length < ds.length := Nat.mod_lt _ (List.length_pos_iff.2 h)
  simp [nth, this]

theorem deal_dealt (n id B steps : Nat) (hd : B % n = 0) (ds : List Ex) (hne : ds ≠ []) :
    Dealt ds B n id steps (takeDs (batchDs (B / n) (shardDs n id (repeatDs ds))) 0 steps) := by
  have hcol : ∀ t, ∃ r, batchDs (B / n) (shardDs n id (repeatDs ds)) t = some r ∧ r.length = B / n ∧
      ∀ j < B / n, r[j]? = nth ds (t * B + j * n + id) := by
    intro t
    obtain ⟨r, h1, h2, h3⟩ := collect_some ((List.range (B / n)).map fun j => shardDs n id (repeatDs ds) (t * (B / n) + j))
      (by
        intro x hx
        simp only [List.mem_map] at hx
        obtain ⟨j, -, rfl⟩ := hx
        exact nth_some ds hne _)
    refine ⟨r, h1, by simpa using h2, ?_⟩
    intro j hj
    rw [h3 j (by simpa using hj)]
    have e : B / n * n = B := Nat.div_mul_cancel (Nat.dvd_of_mod_eq_zero hd)
    have e2 : (t * (B / n) + j) * n + id = t * B + j * n + id := by
      rw [Nat.add_mul, Nat.mul_assoc, e]
    simp [shardDs, repeatDs, nth, hj, e2]
  obtain ⟨h1, h2⟩ := takeDs_full (batchDs (B / n) (shardDs n id (repeatDs ds)))
    (fun t => by obtain ⟨r, h, -⟩ := hcol t; simp [h]) steps 0
  refine ⟨h1, ?_⟩
  intro t b hb
  have ht : t < steps := by
    by_contra hc
    rw [List.getElem?_eq_none (by omega)] at hb
    cases hb
  rw [h2 t ht, Nat.zero_add] at hb
  obtain ⟨r, hr, h3, h4⟩ := hcol t
  rw [hr] at hb
  cases hb
  exact ⟨h3, h4⟩

theorem deal_empty (n id B steps : Nat) (hb : B / n ≠ 0) :
    takeDs (batchDs (B / n) (shardDs n id (repeatDs ([] : List Ex)))) 0 steps = [] := by
  cases steps with
  | zero => rfl
  | succ k =>
    have : batchDs (B / n) (shardDs n id (repeatDs ([] : List Ex))) 0 = none := by
      refine collect_none _ ?_
      rw [List.mem_map]
      exact ⟨0, List.mem_range.2 (Nat.pos_of_ne_zero hb), by simp [shardDs, repeatDs]⟩
    simp [takeDs, this]

/-! ### The loop -/

/-- The dict that `evalLoop` fills when every call succeeds. -/
def fillLoop {V : Type} (f : Nat → N → V) : Nat → List N → List (N × V) → List (N × V)
  | _, [], d => d
  | k, name :: rest, d => fillLoop f (k + 1) rest (PyDict.set d name (f k name))

theorem fillLoop_get (names : List N) (k : Nat) (name : N) :
    (name ∉ names ∧ ∀ (V : Type) (f : Nat → N → V) d, PyDict.get (fillLoop f k names d) name = PyDict.get d name) ∨
    (name ∈ names ∧ ∃ k', ∀ (V : Type) (f : Nat → N → V) d, PyDict.get (fillLoop f k names d) name = some (f k' name)) := by
  induction names generalizing k with
  | nil => left; exact ⟨by simp, fun V f d => rfl⟩
  | cons a rest ih =>
    rcases ih (k + 1) with ⟨h1, h2⟩ | ⟨h1, k', h2⟩
    · by_cases ha : a = name
      · right
        refine ⟨by simp [ha], k, fun V f d => ?_⟩
        rw [fillLoop, h2, ha, PyDict.get_set_self]
      · left
        refine ⟨by simp [h1, Ne.symm ha], fun V f d => ?_⟩
        rw [fillLoop, h2, PyDict.get_set, if_neg ha]
    · right
      exact ⟨List.mem_cons_of_mem _ h1, k', fun V f d => by rw [fillLoop, h2]⟩

theorem fillLoop_keys {V : Type} (f : Nat → N → V) (names : List N) (k : Nat) (d : List (N × V)) (name : N) :
    name ∈ PyDict.keys (fillLoop f k names d) ↔ name ∈ names ∨ name ∈ PyDict.keys d := by
  have hk : ∀ e : List (N × V), name ∈ PyDict.keys e ↔ PyDict.get e name ≠ none := by
    intro e
    have := PyDict.get_eq_none_iff e name
    tauto
  rcases fillLoop_get names k name with ⟨h1, h2⟩ | ⟨h1, k', h2⟩
  · rw [hk, hk, h2]; simp [h1]
  · rw [hk, h2]; simp [h1]

/-- The examples behind call `k`. -/
def dataAt (load : Request N S → List (List Ex)) (cfg : Cfg N S) (clock : Nat → Nat → Int) (steps k : Nat) (name : N) : List Ex :=
  examples load cfg steps name (seedOf cfg.seeds (clock k) 0)

/-- The conditions under which one dataset can be loaded and dealt out. -/
def Loads (cfg : Cfg N S) (me id n : Nat) : Prop :=
  (∀ f, cfg.seeds = some f → f me = f 0) ∧ id < n ∧ cfg.batchSize / n ≠ 0

omit [DecidableEq N] [DecidableEq S] in
theorem evalDataset_ok (load : Request N S → List (List Ex)) (cfg : Cfg N S) (clock : Nat → Nat → Int) (me id n steps k : Nat)
    (name : N) (h : Loads cfg me id n) :
    evalDataset load cfg (clock k) me id n steps name =
      .ok (takeDs (batchDs (cfg.batchSize / n) (shardDs n id (repeatDs (dataAt load cfg clock steps k name)))) 0 steps) := by
  obtain ⟨h1, h2, h3⟩ := h
  have hs : seedOf cfg.seeds (clock k) me = seedOf cfg.seeds (clock k) 0 := by
    cases hc : cfg.seeds with
    | none => rfl
    | some f => exact h1 f hc
  simp only [evalDataset, getDataset, getDatasetInner, hs, dealOut]
  simp [h3, Nat.not_le.2 h2, dataAt, examples, unbatch]

omit [DecidableEq N] [DecidableEq S] in
theorem evalDataset_error (load : Request N S → List (List Ex)) (cfg : Cfg N S) (clock : Nat → Int) (me id n steps : Nat)
    (name : N) (h : ¬ Loads cfg me id n) : ∃ e, evalDataset load cfg clock me id n steps name = .error e := by
  by_cases hs : seedOf cfg.seeds clock me = seedOf cfg.seeds clock 0
  · have hs' : ∀ f, cfg.seeds = some f → f me = f 0 := by
      intro f hf
      rw [hf] at hs
      exact hs
    simp only [evalDataset, getDataset, getDatasetInner, hs, dealOut]
    by_cases h2 : n ≤ id
    · exact ⟨.shardIndex, by simp [h2]⟩
    · by_cases h3 : cfg.batchSize / n = 0
      · exact ⟨.emptyBatch, by simp [h2, h3]⟩
      · exact absurd ⟨hs', by omega, h3⟩ h
  · exact ⟨.seed, by simp [evalDataset, getDataset, getDatasetInner, hs, Nat.mod_one]⟩

omit [DecidableEq S] in
theorem evalLoop_ok (load : Request N S → List (List Ex)) (cfg : Cfg N S) (clock : Nat → Nat → Int) (me id n steps : Nat)
    (h : Loads cfg me id n) (names : List N) (k : Nat) (d : List (N × List (List Ex))) :
    evalLoop load cfg clock me id n steps k names d = .ok (fillLoop (fun k name =>
      takeDs (batchDs (cfg.batchSize / n) (shardDs n id (repeatDs (dataAt load cfg clock steps k name)))) 0 steps) k names d) := by
  induction names generalizing k d with
  | nil => rfl
  | cons a rest ih => simp only [evalLoop, evalDataset_ok load cfg clock me id n steps k a h, ih, fillLoop]

omit [DecidableEq S] in
theorem evalLoop_error (load : Request N S → List (List Ex)) (cfg : Cfg N S) (clock : Nat → Nat → Int) (me id n steps : Nat)
    (h : ¬ Loads cfg me id n) (names : List N) (hn : names ≠ []) (k : Nat) (d : List (N × List (List Ex))) :
    ∃ e, evalLoop load cfg clock me id n steps k names d = .error e := by
  cases names with
  | nil => exact absurd rfl hn
  | cons a rest =>
    obtain ⟨e, he⟩ := evalDataset_error load cfg (clock k) me id n steps a h
    exact ⟨e, by simp only [evalLoop, he]⟩

omit [DecidableEq N] in
theorem mem_loadedNames (cfg : Cfg N S) (name : N) : name ∈ loadedNames cfg.split cfg.provider ↔ Wanted cfg name := by
  unfold Wanted
  cases cfg.provider with
  | task t =>
    simp only [loadedNames]
    split_ifs with h
    · simp [h, eq_comm]
    · simp [h]
  | mixture m tasks =>
    simp only [loadedNames, List.mem_append, List.mem_map, List.mem_filter, List.mem_singleton, decide_eq_true_eq]
    constructor
    · rintro (⟨t, ⟨h1, h2⟩, h3⟩ | h)
      · exact .inr ⟨t, h1, h3, h2⟩
      · exact .inl h.symm
    · rintro (h | ⟨t, h1, h2, h3⟩)
      · exact .inr h.symm
      · exact .inl ⟨t, ⟨h1, h3⟩, h2⟩

/-! ### C82 -/

/-- **C82** When evaluation datasets can be loaded: exactly if the number of shards divides the batch size and, unless nothing is to be
loaded, the batch is not empty, the shard exists and the configured seed is that of host 0.  There is then a dataset for exactly the
subtasks that have the split, and for a mixture. -/
theorem C82_defined (load : Request N S → List (List Ex)) (cfg : Cfg N S) (clock : Nat → Nat → Int) (me id n steps : Nat) :
    ((∃ r, trainingEvalDatasets load cfg clock me id n steps false = .ok r) ↔
      n ≠ 0 ∧ n ∣ cfg.batchSize ∧ ((∃ name, Wanted cfg name) →
        cfg.batchSize ≠ 0 ∧ id < n ∧ ∀ f, cfg.seeds = some f → f me = f 0)) ∧
    ∀ r, trainingEvalDatasets load cfg clock me id n steps false = .ok r →
      ∀ name, name ∈ PyDict.keys r ↔ Wanted cfg name := by
  have hdiv : n ≠ 0 → n ∣ cfg.batchSize → (cfg.batchSize / n ≠ 0 ↔ cfg.batchSize ≠ 0) := by
    intro hn hd
    obtain ⟨c, hc⟩ := hd
    rw [hc, Nat.mul_div_cancel_left _ (Nat.pos_of_ne_zero hn)]
    simp [hn]
  by_cases hn : n = 0
  · refine ⟨by simp [trainingEvalDatasets, hn], by simp [trainingEvalDatasets, hn]⟩
  by_cases hd : n ∣ cfg.batchSize
  swap
  · have : cfg.batchSize % n ≠ 0 := fun h => hd (Nat.dvd_of_mod_eq_zero h)
    refine ⟨by simp [trainingEvalDatasets, hn, hd, this], by simp [trainingEvalDatasets, hn, this]⟩
  have hm := Nat.mod_eq_zero_of_dvd hd
  have hrun : trainingEvalDatasets load cfg clock me id n steps false =
      evalLoop load cfg clock me id n steps 0 (loadedNames cfg.split cfg.provider) [] := by
    simp [trainingEvalDatasets, hn, hm]
  rw [hrun]
  by_cases hl : Loads cfg me id n
  · rw [evalLoop_ok load cfg clock me id n steps hl]
    refine ⟨⟨fun _ => ⟨hn, hd, fun _ => ⟨(hdiv hn hd).1 hl.2.2, hl.2.1, hl.1⟩⟩, fun _ => ⟨_, rfl⟩⟩, ?_⟩
    intro r hr name
    cases hr
    rw [fillLoop_keys, mem_loadedNames]
    simp [PyDict.keys]
  · by_cases hnames : loadedNames cfg.split cfg.provider = []
    · have hno : ∀ name, ¬ Wanted cfg name := by
        intro name hw
        rw [← mem_loadedNames, hnames] at hw
        simp at hw
      rw [hnames]
      refine ⟨⟨fun _ => ⟨hn, hd, fun ⟨name, hw⟩ => absurd hw (hno name)⟩, fun _ => ⟨[], rfl⟩⟩, ?_⟩
      intro r hr name
      cases hr
      simp [PyDict.keys, hno]
    · obtain ⟨e, he⟩ := evalLoop_error load cfg clock me id n steps hl _ hnames 0 []
      rw [he]
      refine ⟨⟨fun ⟨r, hr⟩ => (by cases hr), fun ⟨_, _, h⟩ => ?_⟩, fun r hr => (by cases hr)⟩
      obtain ⟨x, hx⟩ := List.exists_mem_of_ne_nil _ hnames
      obtain ⟨h1, h2, h3⟩ := h ⟨x, (mem_loadedNames cfg x).1 hx⟩
      exact absurd ⟨h3, h2, (hdiv hn hd).2 h1⟩ hl

/-- **C82** All hosts deal from the same examples, whatever their clocks say: there is one seed (the configured one, or the time of host
0) such that every host that gets datasets gets from each of them the rows of its shard; an empty dataset gives no batches. -/
theorem C82_hosts (load : Request N S → List (List Ex)) (cfg : Cfg N S) (clock : Nat → Nat → Int) (shardOf : Nat → Nat) (n steps : Nat)
    (name : N) (hw : Wanted cfg name) :
    ∃ seed : Int, ∀ (me : Nat) (r : List (N × List (List Ex))),
      trainingEvalDatasets load cfg clock me (shardOf me) n steps false = .ok r →
      ∃ bs, PyDict.get r name = some bs ∧
        (examples load cfg steps name seed = [] → bs = []) ∧
        (examples load cfg steps name seed ≠ [] → Dealt (examples load cfg steps name seed) cfg.batchSize n (shardOf me) steps bs) := by
  have hmem := (mem_loadedNames cfg name).2 hw
  rcases fillLoop_get (loadedNames cfg.split cfg.provider) 0 name with ⟨h1, -⟩ | ⟨-, k', hk⟩
  · exact absurd hmem h1
  refine ⟨seedOf cfg.seeds (clock k') 0, ?_⟩
  intro me r hr
  obtain ⟨hn, hd, hl⟩ := ((C82_defined load cfg clock me (shardOf me) n steps).1).1 ⟨r, hr⟩
  have hm := Nat.mod_eq_zero_of_dvd hd
  by_cases hload : Loads cfg me (shardOf me) n
  · simp only [trainingEvalDatasets, hn, hm] at hr
    rw [if_neg (by simp), if_neg (by simp), if_neg (by simp), evalLoop_ok load cfg clock me (shardOf me) n steps hload] at hr
    cases hr
    refine ⟨_, hk _ _ _, ?_, ?_⟩
    · intro he
      have : dataAt load cfg clock steps k' name = [] := he
      rw [this]
      exact deal_empty n (shardOf me) cfg.batchSize steps hload.2.2
    · intro hne
      exact deal_dealt n (shardOf me) cfg.batchSize steps hm _ hne
  · obtain ⟨h1, h2, h3⟩ := hl ⟨name, hw⟩
    exfalso
    apply hload
    refine ⟨h3, h2, ?_⟩
    obtain ⟨c, hc⟩ := hd
    rw [hc, Nat.mul_div_cancel_left _ (Nat.pos_of_ne_zero hn)]
    rintro rfl
    exact h1 (by simpa using hc)

theorem range_deal (n b : Nat) :
    ((List.range n).flatMap fun s => (List.range b).map fun j => j * n + s).Perm (List.range (b * n)) := by
  refine (List.perm_ext_iff_of_nodup ?_ List.nodup_range).2 ?_
  · rw [List.nodup_flatMap]
    refine ⟨?_, ?_⟩
    · intro s hs
      have hs' : s < n := by simpa using hs
      refine List.Nodup.map_on ?_ List.nodup_range
      intro x _ y _ hxy
      have : x * n = y * n := by omega
      exact Nat.eq_of_mul_eq_mul_right (by omega) this
    · have : (List.range n).Pairwise (· < ·) := List.pairwise_lt_range
      refine List.Pairwise.imp_of_mem ?_ this
      intro s s' hs hs' hlt
      have h1 : s < n := by simpa using hs
      have h2 : s' < n := by simpa using hs'
      intro x hx hx'
      simp only [List.mem_map] at hx hx'
      obtain ⟨j, -, e⟩ := hx
      obtain ⟨j', -, e'⟩ := hx'
      have a : x % n = s := by rw [← e, Nat.mul_comm, Nat.mul_add_mod, Nat.mod_eq_of_lt h1]
      have b : x % n = s' := by rw [← e', Nat.mul_comm, Nat.mul_add_mod, Nat.mod_eq_of_lt h2]
      omega
  · intro x
    simp only [List.mem_flatMap, List.mem_map, List.mem_range]
    constructor
    · rintro ⟨s, hs, j, hj, rfl⟩
      calc j * n + s < j * n + n := by omega
        _ = (j + 1) * n := by ring
        _ ≤ b * n := Nat.mul_le_mul_right _ hj
    · intro hx
      have hn : 0 < n := by
        rcases Nat.eq_zero_or_pos n with h | h
        · subst h; simp at hx
        · exact h
      refine ⟨x % n, Nat.mod_lt _ hn, x / n, (Nat.div_lt_iff_lt_mul hn).2 hx, ?_⟩
      rw [Nat.mul_comm]; exact Nat.div_add_mod x n

theorem dealt_row (ds : List Ex) (B n id steps : Nat) (bs : List (List Ex)) (h : Dealt ds B n id steps bs) (t : Nat) (ht : t < steps) :
    (bs.getD t []).map some = (List.range (B / n)).map fun j => nth ds (t * B + j * n + id) := by
  have hlt : t < bs.length := by rw [h.1]; exact ht
  obtain ⟨h1, h2⟩ := h.2 t bs[t] (by simp [hlt])
  have : bs.getD t [] = bs[t] := by simp [hlt]
  rw [this]
  refine List.ext_getElem? ?_
  intro j
  by_cases hj : j < B / n
  · have := h2 j hj
    have hjl : j < bs[t].length := by omega
    rw [List.getElem?_map, List.getElem?_map, List.getElem?_range hj]
    rw [List.getElem?_eq_getElem hjl] at this ⊢
    simp only [Option.map_some]
    rw [this]
  · rw [List.getElem?_eq_none (by simp; omega), List.getElem?_eq_none (by simp; omega)]

/-- **C82** In every step the shards together hold one batch: the next `B` examples of the dataset, none twice and none left out (if it
has fewer than `steps * B` examples, it starts again from its beginning). -/
theorem C82_cover (ds : List Ex) (B n steps : Nat) (hn : n ∣ B) (bs : Nat → List (List Ex))
    (h : ∀ id < n, Dealt ds B n id steps (bs id)) (t : Nat) (ht : t < steps) :
    (((List.range n).flatMap fun id => (bs id).getD t []).map some).Perm ((List.range B).map fun i => nth ds (t * B + i)) := by
  have e1 : ((List.range n).flatMap fun id => (bs id).getD t []).map some =
      ((List.range n).flatMap fun id => (List.range (B / n)).map fun j => j * n + id).map fun i => nth ds (t * B + i) := by
    rw [List.map_flatMap, List.map_flatMap]
    refine List.flatMap_congr ?_
    intro id hid
    rw [dealt_row ds B n id steps (bs id) (h id (by simpa using hid)) t ht, List.map_map]
    refine List.map_congr_left ?_
    intro j _
    simp [Nat.add_assoc]
  rw [e1]
  have := (range_deal n (B / n)).map (fun i => nth ds (t * B + i))
  rwa [Nat.div_mul_cancel hn] at this

/-- **C82** A dataset with enough examples is evaluated once: over all steps and shards exactly its first `steps * B` examples, each as
often as the dataset has it. -/
theorem C82_once (ds : List Ex) (B n steps : Nat) (hn : n ∣ B) (bs : Nat → List (List Ex))
    (h : ∀ id < n, Dealt ds B n id steps (bs id)) (hlen : steps * B ≤ ds.length) :
    ((List.range steps).flatMap fun t => (List.range n).flatMap fun id => (bs id).getD t []).Perm (ds.take (steps * B)) := by
  have hinj : ∀ a b : List Ex, (a.map some).Perm (b.map some) → a.Perm b := by
    intro a b hab
    have := hab.filterMap id
    simpa [List.filterMap_map] using this
  apply hinj
  have key : ∀ k, k ≤ steps →
      (((List.range k).flatMap fun t => (List.range n).flatMap fun id => (bs id).getD t []).map some).Perm
        ((List.range (k * B)).map fun i => nth ds i) := by
    intro k
    induction k with
    | zero => intro _; simp
    | succ k ih =>
      intro hk
      rw [List.range_succ, List.flatMap_append, List.map_append, Nat.succ_mul, List.range_add, List.map_append]
      refine (ih (by omega)).append ?_
      have := C82_cover ds B n steps hn bs h k (by omega)
      simpa [List.map_map, Function.comp_def] using this
  refine (key steps le_rfl).trans ?_
  have : (List.range (steps * B)).map (fun i => nth ds i) = (ds.take (steps * B)).map some := by
    refine List.ext_getElem? ?_
    intro i
    by_cases hi : i < steps * B
    · have hil : i < ds.length := by omega
      rw [List.getElem?_map, List.getElem?_map, List.getElem?_range hi, List.getElem?_take, if_pos hi]
      simp [nth, Nat.mod_eq_of_lt hil, hil]
    · rw [List.getElem?_eq_none (by simp; omega), List.getElem?_eq_none (by simp; omega)]
  rw [this]

/-- **C82** The data of training: loading succeeds exactly if the number of shards divides the batch size, the seed is that of host 0
and continuing from a checkpoint is not asked for.  Every host then loads its own shard with the same seed, whatever the clocks say,
and the batches of the shards add up to the batch size. -/
theorem C82_train (task : N) (split : S) (B : Nat) (seeds : Option (Nat → Int)) (clock : Nat → Int) (shardOf : Nat → Nat) (n : Nat)
    (epochs : Option Nat) :
    (∀ me continueFrom, (∃ q, getDataset id task split B seeds clock me (shardOf me) n epochs continueFrom = .ok q) ↔
      continueFrom = false ∧ n ≠ 0 ∧ n ∣ B ∧ ∀ f, seeds = some f → f me = f 0) ∧
    ∃ seed : Int, ∀ me q, getDataset id task split B seeds clock me (shardOf me) n epochs false = .ok q →
      q.task = task ∧ q.split = split ∧ q.epochs = epochs ∧ q.seed = seed ∧ q.shard = shardOf me ∧ q.numShards = n ∧
        q.batch * n = B := by
  have hseed : ∀ me, seedOf seeds clock me = seedOf seeds clock 0 ↔ ∀ f, seeds = some f → f me = f 0 := by
    intro me
    cases seeds with
    | none => simp [seedOf]
    | some f => simp [seedOf]
  refine ⟨?_, seedOf seeds clock 0, ?_⟩
  · intro me c
    rw [← hseed]
    simp only [getDataset, getDatasetInner]
    by_cases hc : c = true
    · simp [hc]
    by_cases hn : n = 0
    · simp [hc, hn]
    by_cases hd : B % n = 0
    · by_cases hs : seedOf seeds clock me = seedOf seeds clock 0
      · simp [hc, hn, hd, hs, Nat.dvd_of_mod_eq_zero hd]
      · simp [hc, hn, hd, hs]
    · have : ¬ n ∣ B := fun h => hd (Nat.mod_eq_zero_of_dvd h)
      simp [hc, hn, hd, this]
  · intro me q hq
    simp only [getDataset, getDatasetInner] at hq
    rw [if_neg (by simp)] at hq
    by_cases h2 : n = 0
    · rw [if_pos h2] at hq; cases hq
    by_cases h3 : B % n = 0
    swap
    · rw [if_neg h2, if_pos h3] at hq; cases hq
    by_cases h4 : seedOf seeds clock me = seedOf seeds clock 0
    swap
    · rw [if_neg h2, if_neg (by simpa using h3), if_pos h4] at hq; cases hq
    rw [if_neg h2, if_neg (by simpa using h3), if_neg (by simpa using h4)] at hq
    cases hq
    exact ⟨rfl, rfl, rfl, h4, rfl, rfl, Nat.div_mul_cancel (Nat.dvd_of_mod_eq_zero h3)⟩

/-- **C82** `deterministic=True` cannot be used: the function it needs is not defined. -/
theorem C82_deterministic (load : Request N S → List (List Ex)) (cfg : Cfg N S) (clock : Nat → Nat → Int) (me id n steps : Nat) :
    trainingEvalDatasets load cfg clock me id n steps true = .error .name := rfl

/-! ### Non-vacuity -/

/-- Three examples per epoch, two hosts with different clocks, a mixture of two tasks of which one has the split. -/
def exLoad : Request Nat Nat → List (List Nat) := fun q =>
  (List.range (q.epochs.getD 0)).flatMap fun _ => [[10 * q.task + 1], [10 * q.task + 2], [10 * q.task + 3]]
def exCfg : Cfg Nat Nat := { provider := .mixture 7 [⟨1, [0, 5]⟩, ⟨2, [0]⟩], split := 5, batchSize := 4, seeds := none }

example : trainingEvalDatasets exLoad exCfg (fun k h => k + 3 * h) 0 0 2 2 false =
      .ok [(1, [[11, 13], [12, 11]]), (7, [[71, 73], [72, 71]])] ∧
    trainingEvalDatasets exLoad exCfg (fun k h => k + 3 * h) 1 1 2 2 false =
      .ok [(1, [[12, 11], [13, 12]]), (7, [[72, 71], [73, 72]])] := ⟨rfl, rfl⟩
example : Wanted exCfg 1 ∧ Wanted exCfg 7 ∧ ¬ Wanted exCfg 2 := by simp [Wanted, exCfg]
example : trainingEvalDatasets exLoad { exCfg with seeds := some fun h => h } (fun _ _ => 0) 1 1 2 2 false = .error .seed := rfl
example : trainingEvalDatasets exLoad { exCfg with batchSize := 3 } (fun _ _ => 0) 1 1 2 2 false = .error .batchSize := rfl
/-- The hypotheses of `C82_cover` and `C82_once`. -/
example : ∀ id < 2, Dealt [1, 2, 3, 4, 5] 2 2 id 2 ([[[1], [3]], [[2], [4]]].getD id []) := by
  intro id hid
  have : id = 0 ∨ id = 1 := by omega
  rcases this with rfl | rfl
  · refine ⟨rfl, ?_⟩
    rintro (_ | _ | t) b hb
    · cases hb; exact ⟨rfl, fun j hj => by obtain rfl : j = 0 := (by omega); rfl⟩
    · cases hb; exact ⟨rfl, fun j hj => by obtain rfl : j = 0 := (by omega); rfl⟩
    · simp at hb
  · refine ⟨rfl, ?_⟩
    rintro (_ | _ | t) b hb
    · cases hb; exact ⟨rfl, fun j hj => by obtain rfl : j = 0 := (by omega); rfl⟩
    · cases hb; exact ⟨rfl, fun j hj => by obtain rfl : j = 0 := (by omega); rfl⟩
    · simp at hb
example : ∃ q, getDataset id 3 4 8 none (fun h => h + 100) 5 1 2 none false = .ok q ∧ q.seed = 100 ∧ q.batch = 4 :=
  ⟨_, rfl, rfl, rfl⟩

/-! ### AirIO tasks -/

theorem evalSteps_length {α : Type} (ds : List α) : evalSteps ds = ds.length := by
  have : ∀ (l : List α) n, l.foldl (fun n _ => n + 1) n = n + l.length := by
    intro l
    induction l with
    | nil => intro n; rfl
    | cons a l ih => intro n; rw [List.foldl_cons, ih, List.length_cons]; omega
  exact (this ds 0).trans (Nat.zero_add _)

/-- **C82** (steps of the evaluation).  For a seqio task or mixture an evaluation during training takes the same number of steps on all hosts: `eval_steps`, or
none if the data set has no example. -/
theorem C82_steps {Ex : Type} (load : Request N S → List (List Ex)) (cfg : Cfg N S) (clock : Nat → Nat → Int) (shardOf : Nat → Nat) (n steps : Nat)
    (name : N) (hw : Wanted cfg name) :
    ∃ (seed : Int) (k : Nat), k = (if (examples load cfg steps name seed).isEmpty then 0 else steps) ∧ ∀ (me : Nat) (r : List (N × List (List Ex))),
      trainingEvalDatasets load cfg clock me (shardOf me) n steps false = .ok r → ∃ bs, PyDict.get r name = some bs ∧ evalSteps bs = k := by
  obtain ⟨seed, h⟩ := C82_hosts load cfg clock shardOf n steps name hw
  refine ⟨seed, _, rfl, fun me r hr => ?_⟩
  obtain ⟨bs, h1, h2, h3⟩ := h me r hr
  refine ⟨bs, h1, ?_⟩
  rw [evalSteps_length]
  split_ifs with he
  · rw [h2 (List.isEmpty_iff.1 he)]; rfl
  · exact (h3 fun h => he (List.isEmpty_iff.2 h)).1

/-- **C82** (AirIO).  For an AirIO task or mixture all hosts get the same data set, whatever their shard and the number of shards are: that of batches of one
example, as a single shard, for `eval_steps * batch_size` epochs; a batch size that is no multiple of the number of shards is no error.  Deterministic
evaluation fails here too. -/
theorem C82_airio {D : Type} (load : Request N S → D) (name : N) (cfg : Cfg N S) (clock : Nat → Int) (me id n steps : Nat)
    (hs : ∀ f, cfg.seeds = some f → f me = f 0) :
    airioEvalDatasets load name cfg clock me id n steps false = .ok [(name, load ⟨name, cfg.split, 1, seedOf cfg.seeds clock 0, 0, 1,
      some (steps * cfg.batchSize)⟩)] ∧
    airioEvalDatasets load name cfg clock me id n steps true = .error .name := by
  refine ⟨?_, rfl⟩
  have e : seedOf cfg.seeds clock me = seedOf cfg.seeds clock 0 := by
    unfold seedOf
    cases h : cfg.seeds with
    | none => rfl
    | some f => exact hs f h
  simp [airioEvalDatasets, getDataset, getDatasetInner, e]

/-- **C82** (AirIO, steps).  So if a loader that is asked for `k` epochs returns `k` times the examples of one epoch, an evaluation takes
`eval_steps * batch_size * size` steps with one example each, instead of `eval_steps` steps: equal only if there is one example and the batch size is one. -/
theorem C82_airio_steps {Ex : Type} (load : Request N S → List (List Ex)) (name : N) (cfg : Cfg N S) (clock : Nat → Int) (me id n steps : Nat)
    (hs : ∀ f, cfg.seeds = some f → f me = f 0) (size : Nat) (hsize : ∀ seed k, (load ⟨name, cfg.split, 1, seed, 0, 1, some k⟩).length = k * size) :
    ∃ ds, airioEvalDatasets load name cfg clock me id n steps false = .ok [(name, ds)] ∧ evalSteps ds = steps * (cfg.batchSize * size) ∧
      (0 < steps → (evalSteps ds = steps ↔ cfg.batchSize = 1 ∧ size = 1)) := by
  have e : evalSteps (load ⟨name, cfg.split, 1, seedOf cfg.seeds clock 0, 0, 1, some (steps * cfg.batchSize)⟩) = steps * (cfg.batchSize * size) := by
    rw [evalSteps_length, hsize, Nat.mul_assoc]
  refine ⟨_, (C82_airio load name cfg clock me id n steps hs).1, e, fun hp => ?_⟩
  rw [e]
  constructor
  · intro h
    have : cfg.batchSize * size = 1 := Nat.eq_of_mul_eq_mul_left hp (h.trans (Nat.mul_one _).symm)
    exact ⟨Nat.eq_one_of_mul_eq_one_right this, Nat.eq_one_of_mul_eq_one_left this⟩
  · rintro ⟨h1, h2⟩
    rw [h1, h2, Nat.mul_one]

example : ∃ r, trainingEvalDatasets (fun q : Request Nat Nat => List.replicate (q.epochs.getD 0 * 10) [q.task]) ⟨.task ⟨5, [0]⟩, 0, 8, none⟩ (fun _ _ => 17)
    3 3 4 2 false = .ok r ∧ ∃ bs, PyDict.get r 5 = some bs ∧ evalSteps bs = 2 := by
  obtain ⟨r, hr⟩ := (C82_defined (fun q : Request Nat Nat => List.replicate (q.epochs.getD 0 * 10) [q.task]) ⟨.task ⟨5, [0]⟩, 0, 8, none⟩ (fun _ _ => 17)
    3 3 4 2).1.2 ⟨by decide, ⟨2, rfl⟩, fun _ => ⟨by decide, by decide, by intro f h; cases h⟩⟩
  obtain ⟨seed, k, hk, h⟩ := C82_steps (fun q : Request Nat Nat => List.replicate (q.epochs.getD 0 * 10) [q.task]) ⟨.task ⟨5, [0]⟩, 0, 8, none⟩ (fun _ _ => 17)
    id 4 2 5 ⟨rfl, by decide⟩
  obtain ⟨bs, h1, h2⟩ := h 3 r hr
  refine ⟨r, hr, bs, h1, h2.trans ?_⟩
  rw [hk, if_neg]
  simp [examples]

/-- Eight examples per batch, ten examples, two steps: 160 steps of the evaluation, on each of four hosts. -/
example : ∃ ds, airioEvalDatasets (fun q : Request Nat Nat => List.replicate (q.epochs.getD 0 * 10) [q.task]) 5
    ⟨.task ⟨5, [0]⟩, 0, 8, none⟩ (fun _ => 17) 3 3 4 2 false = .ok [(5, ds)] ∧ evalSteps ds = 160 := by
  obtain ⟨ds, h1, h2, -⟩ := C82_airio_steps (fun q : Request Nat Nat => List.replicate (q.epochs.getD 0 * 10) [q.task]) 5
    ⟨.task ⟨5, [0]⟩, 0, 8, none⟩ (fun _ => 17) 3 3 4 2 (by intro f h; cases h) 10 (by intro seed k; simp)
  exact ⟨ds, h1, h2⟩

end Verif.EvalData
