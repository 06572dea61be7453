import Verif.Lemmas.ConvertTf
import Verif.Props.InitImport
/-
C122: a T5 (Mesh TensorFlow) checkpoint restored directly, and converted first and restored later.
-/
namespace Verif.ConvertTf
open Verif.StateDict Verif.StateDict.Spec Verif.SaveRestore
open Verif.SaveRestore.Spec (Like Every Good conv SameKind Moved)
open Verif.TsPath (Str)

variable {A T : Type} [DecidableEq T]

/-- A train state to restore into: distinct keys without slash and dot, no empty dict, an array (or its shape) at every leaf. -/
structure Template (s0 : Dict (Option A)) : Prop where
  clean : SaveRestore.Spec.Clean s0
  noEmpty : NoEmpty (fun _ => false) s0
  arrays : Every (fun _ x => x.isSome = true) [] s0

/-! ### The imported dict -/

theorem applyLoop_wf {V : Type} (rules : List (Importer.Rule V)) : ∀ (d new : List (Importer.Key × V)) (un : List Importer.Key) (r : List (Importer.Key × V) × List Importer.Key),
    PyDict.WF new → Importer.applyLoop rules d (new, un) = .ok r → PyDict.WF r.1 := by
  intro d
  induction d with
  | nil => intro new un r h e; cases e; exact h
  | cons kv d ih =>
    obtain ⟨k, v⟩ := kv
    intro new un r h e
    cases hf : Importer.firstMatch rules k with
    | none => simp only [Importer.applyLoop, hf] at e; exact ih _ _ _ h e
    | some f =>
      cases hv : f v with
      | error x => simp only [Importer.applyLoop, hf, hv] at e; cases e
      | ok y =>
        obtain ⟨k', v'⟩ := y
        cases k' with
        | none => simp only [Importer.applyLoop, hf, hv] at e; exact ih _ _ _ h e
        | some k' => simp only [Importer.applyLoop, hf, hv] at e; exact ih _ _ _ (PyDict.wf_set _ h _ _) e

theorem correctRel_wf {V : Type} (d : List (Importer.Key × V)) (h : PyDict.WF d) : PyDict.WF (Importer.correctRel d) := by
  have key : ∀ (l acc : List (Importer.Key × V)), PyDict.WF acc → PyDict.WF (l.foldl (fun acc kv => PyDict.set acc (Importer.dropLayer kv.1) kv.2) acc) := by
    intro l
    induction l with
    | nil => intro acc h; exact h
    | cons e l ih => intro acc h; exact ih _ (PyDict.wf_set _ h _ _)
  unfold Importer.correctRel
  dsimp only
  split_ifs
  · exact key d [] (by simp [PyDict.WF, PyDict.keys])
  · exact h

theorem restoreT5_spec {V : Type} (rules : List (Importer.Rule V)) (ph : V) (shape : V → List Nat) (shapes : List (Importer.Key × List Nat)) (strict : Bool)
    (ckpt r : List (Importer.Key × V)) (h : Importer.restoreT5 rules ph shape shapes strict ckpt = .ok r) :
    PyDict.WF r ∧ ∀ e ∈ r, PyDict.get shapes e.1 = some (shape e.2) := by
  unfold Importer.restoreT5 at h
  cases ha : Importer.apply rules ckpt with
  | error x => rw [ha] at h; cases h
  | ok d =>
    rw [ha] at h
    dsimp only at h
    have hd : PyDict.WF d := by
      unfold Importer.apply at ha
      cases hl : Importer.applyLoop rules ckpt ([], []) with
      | error x => rw [hl] at ha; cases ha
      | ok y =>
        obtain ⟨new, un⟩ := y
        rw [hl] at ha
        dsimp only at ha
        have := applyLoop_wf rules ckpt [] [] (new, un) (by simp [PyDict.WF, PyDict.keys]) hl
        split_ifs at ha
        cases ha
        exact this
    have hw : PyDict.WF (Importer.correctRel (Importer.addMissing ph d)) := correctRel_wf _ (PyDict.wf_update _ _ hd)
    obtain ⟨c1, c2⟩ := Importer.C49_state_dict shape shapes (Importer.correctRel (Importer.addMissing ph d)) r
    cases strict with
    | true =>
      obtain ⟨rfl, h2⟩ := c1.1 h
      exact ⟨hw, h2⟩
    | false =>
      obtain ⟨rfl, h2⟩ := c2.1 h
      refine ⟨?_, fun e he => ?_⟩
      · unfold PyDict.WF PyDict.keys at *
        exact hw.sublist (List.filter_sublist.map _)
      · obtain ⟨h3, h4⟩ := List.mem_filter.1 he
        exact h2 e h3 h4

theorem mem_of_get {κ β : Type} [DecidableEq κ] (d : List (κ × β)) (k : κ) (v : β) (h : PyDict.get d k = some v) : (k, v) ∈ d := by
  induction d with
  | nil => cases h
  | cons e d ih =>
    obtain ⟨a, b⟩ := e
    unfold PyDict.get at h
    split_ifs at h with hk
    · cases h; subst hk; exact List.mem_cons_self
    · exact List.mem_cons_of_mem _ (ih h)

theorem leaf_of_every {α : Type} (P : List Key → α → Prop) (d : Dict α) (pre : List Key) (h : Every P pre d) : ∀ e ∈ leaves pre d, P e.1 e.2 := by
  have := every_mapL P (fun _ x => x) pre d
  have hid : ∀ (d : Dict α) (pre : List Key), mapL (fun _ x => x) pre d = d := by
    intro d
    induction d with
    | nil => intro pre; rfl
    | leaf k a r ih => intro pre; simp only [mapL, ih]
    | sub k d r ihd ih => intro pre; simp only [mapL, ih, ihd]
  rw [hid] at this
  exact this h

theorem mapL_self {α : Type} (d : Dict α) (pre : List Key) : mapL (fun _ x => x) pre d = d := by
  induction d generalizing pre with
  | nil => rfl
  | leaf k a r ih => simp only [mapL, ih]
  | sub k d r ihd ih => simp only [mapL, ih, ihd]

theorem mapL_congr {α β : Type} (g g' : List Key → α → β) (d : Dict α) (pre : List Key) (h : ∀ e ∈ leaves pre d, g e.1 e.2 = g' e.1 e.2) : mapL g pre d = mapL g' pre d := by
  induction d generalizing pre with
  | nil => rfl
  | leaf k a r ih =>
    have h1 := h (pre ++ [k], a) List.mem_cons_self
    dsimp only at h1
    simp only [mapL, h1, ih pre fun e he => h e (List.mem_cons_of_mem _ he)]
  | sub k d r ihd ih =>
    simp only [mapL, ihd _ fun e he => h e (List.mem_append_left _ he), ih pre fun e he => h e (List.mem_append_right _ he)]

/-- The imported dict as a tree: its leaves are the entries. -/
theorem importTree_spec (O : Ops A T) (s0 : Dict (Option A)) (hs : SaveRestore.Spec.Clean s0) (rules : List (Importer.Rule A)) (ph : A) (strict : Bool)
    (ckpt r : List (Importer.Key × A)) (hr : Importer.restoreT5 rules ph O.shape (flatShapes O [] s0) strict ckpt = .ok r) :
    PyDict.WF r ∧ (∀ e ∈ r, ∃ y, leafAt nl s0 e.1 = some (.arr (some y)) ∧ O.shape y = O.shape e.2) ∧
    ∃ u, importTree O s0 rules ph strict ckpt = .ok u ∧ Distinct nl u ∧ NoEmpty nl u ∧
      ∀ p w, leafAt nl u p = some w ↔ ∃ a, (p, a) ∈ r ∧ w = .arr (some a) := by
  obtain ⟨h1, h2⟩ := restoreT5_spec rules ph O.shape _ strict ckpt r hr
  have hleaf : ∀ e ∈ r, ∃ y, leafAt nl s0 e.1 = some (.arr (some y)) ∧ O.shape y = O.shape e.2 := by
    intro e he
    obtain ⟨y, hy, hy2⟩ := (mem_flatShapes O s0 [] e.1 _).1 (mem_of_get _ _ _ (h2 e he))
    exact ⟨y, (mem_leaves s0 hs _ _).1 hy, hy2⟩
  refine ⟨h1, hleaf, ?_⟩
  have hpf : PrefixFree (r.map fun e => (e.1, Val.arr (some e.2))) := by
    unfold PrefixFree
    rw [List.pairwise_map]
    have hnd : r.Pairwise fun e e' => e.1 ≠ e'.1 := by
      unfold PyDict.WF PyDict.keys List.Nodup at h1
      rwa [List.pairwise_map] at h1
    refine hnd.imp_of_mem ?_
    intro e e' he he' hne
    obtain ⟨y, hy, -⟩ := hleaf e he
    obtain ⟨y', hy', -⟩ := hleaf e' he'
    exact ⟨fun hc => hne (leafAt_prefix nl _ _ _ _ _ hy hy' hc), fun hc => hne (leafAt_prefix nl _ _ _ _ _ hy' hy hc).symm⟩
  obtain ⟨u, hu, hl⟩ := unflattenPaths_spec nl (fun _ => False) (fun d h => nomatch h) (r.map fun e => (e.1, Val.arr (some e.2))) .nil
    (by
      intro e he
      obtain ⟨e', he', rfl⟩ := List.mem_map.1 he
      obtain ⟨y, hy, -⟩ := hleaf e' he'
      intro hc
      dsimp only at hc
      rw [hc] at hy
      cases hy)
    (fun _ _ _ _ h => h)
    (by
      intro e he
      obtain ⟨e', he', rfl⟩ := List.mem_map.1 he
      trivial)
    hpf trivial
    (by
      intro q w hq
      cases q with
      | nil => cases hq
      | cons k q => cases q <;> simp [leafAt, Dict.get] at hq)
  have hu' : unflattenPaths .nil ((r.map fun e => (e.1, some e.2)).map fun e => (e.1, Val.arr e.2)) = some u := by
    rw [List.map_map]; exact hu
  obtain ⟨g1, g2⟩ := unflatten_good _ .nil u trivial trivial hu'
  refine ⟨u, by simp only [importTree, hr, hu], g1, g2, fun p w => ?_⟩
  rw [hl]
  constructor
  · rintro (h | h)
    · cases p with
      | nil => cases h
      | cons k q => cases q <;> simp [leafAt, Dict.get] at h
    · obtain ⟨e, he, h⟩ := List.mem_map.1 h
      simp only [Prod.mk.injEq] at h
      exact ⟨e.2, by rw [← h.1]; exact he, h.2.symm⟩
  · rintro ⟨a, ha, rfl⟩
    exact Or.inr (List.mem_map.2 ⟨(p, a), ha, rfl⟩)

theorem castTo_conv (O : Ops A T) (hO : Good O) (t : T) (a : A) : castTo O (some t) a = conv O (some t) a := by
  unfold castTo conv
  dsimp only
  split_ifs with h
  · rw [← h, hO.same]
  · rfl

/-- What the target cast makes of a leaf. -/
theorem cast_leaf (O : Ops A T) (hO : Good O) (rest : Option T) (p : List Key) (a : A) :
    (if isTarget p && rest.isSome then (some a).map (castTo O rest) else some a) = some (if p.head? = some "target".toList then conv O rest a else a) := by
  unfold isTarget
  cases rest with
  | none => by_cases h : p.head? = some "target".toList <;> simp [h, conv]
  | some t =>
    by_cases h : p.head? = some "target".toList
    · simp only [h, decide_true, Option.isSome_some, Bool.and_self, if_true, Option.map_some, castTo_conv O hO]
    · simp only [h, decide_false, Bool.false_and, Bool.false_eq_true, if_false]

theorem mem_keys_leaf (s0 : Dict (Option A)) (p : List Key) (v : Val (Option A)) (k : Key) (q : List Key) (hp : p = k :: q) (h : leafAt nl s0 p = some v) : k ∈ s0.keys := by
  subst hp
  exact mem_keys_of_leafAt s0 k q (by rw [h]; rfl)

/-- The tree of the imported values, after a function on paths and values. -/
theorem restored (O : Ops A T) (s0 : Dict (Option A)) (ht : Template s0) (r : List (Importer.Key × A)) (hwf : PyDict.WF r)
    (hcov : Every (fun p _ => p ∈ r.map Prod.fst) [] s0) (f : List Key → A → A) (u : Dict (Option A))
    (hu : ∀ p w, leafAt nl u p = some w ↔ ∃ a, (p, a) ∈ r ∧ w = .arr (some (f p a))) :
    restoreDict s0 u = some (mapL (fun p _ => (PyDict.get r p).map (f p)) [] s0) := by
  refine restoreDict_ok s0 ht.noEmpty (distinct_of_clean s0 ht.clean) _ [] u ?_
  intro k _ q hq
  obtain ⟨v, hv⟩ := Option.isSome_iff_exists.1 hq
  obtain ⟨x, rfl⟩ := leafAt_arr s0 _ v hv
  have hm := (mem_leaves s0 ht.clean _ _).2 hv
  obtain ⟨e, he, hee⟩ := List.mem_map.1 (leaf_of_every _ s0 [] hcov _ hm)
  dsimp only at hee
  refine (hu _ _).2 ⟨e.2, by rw [← hee]; exact he, ?_⟩
  rw [List.nil_append, PyDict.get_of_mem r hwf (k :: q) e.2 (by rw [← hee]; exact he)]
  rfl

theorem leaves_get (s0 : Dict (Option A)) (r : List (Importer.Key × A)) (hwf : PyDict.WF r) (hcov : Every (fun p _ => p ∈ r.map Prod.fst) [] s0) :
    ∀ e ∈ leaves [] s0, ∃ a, (e.1, a) ∈ r ∧ PyDict.get r e.1 = some a := by
  intro e he
  obtain ⟨e', he', hee⟩ := List.mem_map.1 (leaf_of_every _ s0 [] hcov _ he)
  have : (e.1, e'.2) ∈ r := by rw [← hee]; exact he'
  exact ⟨e'.2, this, PyDict.get_of_mem r hwf _ _ this⟩

/-- The direct restore, with its result. -/
theorem restoreTf_eq (O : Ops A T) (hO : Good O) (rest : Option T) (D : Str) (ax : List Key → Bool) (s0 : Dict (Option A)) (ht : Template s0)
    (rules : List (Importer.Rule A)) (ph : A) (strict : Bool) (ckpt r : List (Importer.Key × A))
    (hr : Importer.restoreT5 rules ph O.shape (flatShapes O [] s0) strict ckpt = .ok r) (hcov : Every (fun p _ => p ∈ r.map Prod.fst) [] s0)
    (hrest : rest ≠ none → "target".toList ∈ s0.keys) :
    restoreTf O rest (parameterInfos O D ax s0) s0 rules ph strict ckpt =
      .ok (mapL (fun p _ => (PyDict.get r p).map fun a => if p.head? = some "target".toList then conv O rest a else a) [] s0) := by
  obtain ⟨hwf, hleaf, u, hu, hud, hue, hul⟩ := importTree_spec O s0 ht.clean rules ph strict ckpt r hr
  have hd0 := distinct_of_clean s0 ht.clean
  -- the leaves of the tree and of the template are at the same paths
  have hsame : ∀ p, (leafAt nl u p).isSome = (leafAt nl s0 p).isSome := by
    intro p
    rw [Bool.eq_iff_iff]
    constructor
    · intro h
      obtain ⟨w, hw⟩ := Option.isSome_iff_exists.1 h
      obtain ⟨a, ha, -⟩ := (hul p w).1 hw
      obtain ⟨y, hy, -⟩ := hleaf _ ha
      dsimp only at hy
      rw [hy]; rfl
    · intro h
      obtain ⟨w, hw⟩ := Option.isSome_iff_exists.1 h
      obtain ⟨x, rfl⟩ := leafAt_arr s0 _ w hw
      obtain ⟨a, ha, -⟩ := leaves_get s0 r hwf hcov _ ((mem_leaves s0 ht.clean _ _).2 hw)
      rw [(hul p _).2 ⟨a, ha, rfl⟩]; rfl
  have hkeys : ∀ k ∈ s0.keys, k ∈ u.keys := by
    intro k hk
    obtain ⟨q, v, hv⟩ := exists_leaf s0 (by rintro rfl; cases hk) ht.noEmpty hd0 k hk
    exact mem_keys_of_leafAt u k q (by rw [hsame, hv]; rfl)
  have hcl : ∀ p w, leafAt nl (castTarget O rest u) p = some w ↔
      ∃ a, (p, a) ∈ r ∧ w = .arr (some (if p.head? = some "target".toList then conv O rest a else a)) := by
    intro p w
    unfold castTarget
    rw [leafAt_mapL]
    constructor
    · intro h
      cases hl : leafAt nl u p with
      | none => rw [hl] at h; cases h
      | some v =>
        obtain ⟨a, ha, rfl⟩ := (hul p v).1 hl
        rw [hl] at h
        dsimp only at h
        refine ⟨a, ha, ?_⟩
        rw [List.nil_append, cast_leaf O hO] at h
        exact (Option.some.inj h).symm
    · rintro ⟨a, ha, rfl⟩
      rw [(hul p _).2 ⟨a, ha, rfl⟩]
      dsimp only
      rw [List.nil_append, cast_leaf O hO]
  have hinfo : ∀ p, (leafAt nl (parameterInfos O D ax s0) p).isSome = (leafAt nl s0 p).isSome := by
    intro p
    unfold parameterInfos
    rw [leafAt_mapL]
    cases hl : leafAt nl s0 p with
    | none => rfl
    | some v =>
      obtain ⟨x, rfl⟩ := leafAt_arr s0 _ v hl
      rfl
  have hck : (castTarget O rest u).keys = u.keys := keys_mapL _ _ _
  have hik : (parameterInfos O D ax s0).keys = s0.keys := keys_mapL _ _ _
  have hcsame : ∀ p, (leafAt nl (castTarget O rest u) p).isSome = (leafAt nl s0 p).isSome := by
    intro p
    rw [← hsame]
    unfold castTarget
    rw [leafAt_mapL]
    cases hl : leafAt nl u p with
    | none => rfl
    | some v =>
      obtain ⟨x, rfl⟩ := leafAt_arr u _ v hl
      rfl
  have hz := zipT_id (castTarget O rest u) (distinct_mapL _ _ _ hud) (noEmpty_mapL _ _ _ hue)
    (fun p v h => by
      obtain ⟨a, -, rfl⟩ := (hcl p v).1 h
      exact ⟨_, rfl⟩) [] (parameterInfos O D ax s0) (distinct_mapL _ _ _ hd0) (noEmpty_mapL _ _ _ ht.noEmpty)
    (fun k _ q => by rw [hcsame, hinfo])
  have hR := restored O s0 ht r hwf hcov (fun p a => if p.head? = some "target".toList then conv O rest a else a) _ hcl
  have c1 : (rest.isSome && !u.keys.contains "target".toList) = false := by
    cases rest with
    | none => rfl
    | some t =>
      have : u.keys.contains "target".toList = true := by rw [List.contains_iff_mem]; exact hkeys _ (hrest (by simp))
      rw [this]; rfl
  have c2 : (!(parameterInfos O D ax s0).keys.all (castTarget O rest u).keys.contains) = false := by
    rw [hck, hik, Bool.not_eq_false', List.all_eq_true]
    intro k hk
    simpa using hkeys k hk
  simp only [restoreTf, hu, c1, Bool.false_eq_true, if_false, c2, hz, hR]

/-- **C122.** A T5 checkpoint restored directly: if the importer gives a value for every variable of the train state, the result is the train state with
these values, those of parameters cast to the dtype asked for, and in the shapes of the train state. -/
theorem C122_direct (O : Ops A T) (hO : Good O) (rest : Option T) (D : Str) (ax : List Key → Bool) (s0 : Dict (Option A)) (ht : Template s0)
    (rules : List (Importer.Rule A)) (ph : A) (strict : Bool) (ckpt r : List (Importer.Key × A))
    (hr : Importer.restoreT5 rules ph O.shape (flatShapes O [] s0) strict ckpt = .ok r) (hcov : Every (fun p _ => p ∈ r.map Prod.fst) [] s0)
    (hrest : rest ≠ none → "target".toList ∈ s0.keys) :
    ∃ d, restoreTf O rest (parameterInfos O D ax s0) s0 rules ph strict ckpt = .ok d ∧
      Like (fun p x y => ∃ a, (p, a) ∈ r ∧ x.map O.shape = some (O.shape a) ∧
        y = some (if p.head? = some "target".toList then conv O rest a else a)) [] s0 d := by
  refine ⟨_, restoreTf_eq O hO rest D ax s0 ht rules ph strict ckpt r hr hcov hrest, ?_⟩
  obtain ⟨hwf, hleaf, -⟩ := importTree_spec O s0 ht.clean rules ph strict ckpt r hr
  conv => arg 3; rw [← mapL_self s0 []]
  refine like_mapL _ _ _ [] s0 ?_
  intro e he
  obtain ⟨a, ha, hg⟩ := leaves_get s0 r hwf hcov e he
  obtain ⟨y, hy, hys⟩ := hleaf _ ha
  have hx := (mem_leaves s0 ht.clean e.1 e.2).1 he
  dsimp only at hy hys
  rw [hx] at hy
  simp only [Option.some.injEq, Val.arr.injEq] at hy
  exact ⟨a, ha, by rw [hy, Option.map_some, hys], by rw [hg]; rfl⟩

/-- The hypotheses of the conversion, in terms of the dtypes and the partitioning of the train state. -/
structure Savable (O : Ops A T) (save : Option T) (ax0 : List Key → Bool) (s0 : Dict (Option A)) (r : List (Importer.Key × A)) : Prop where
  /-- The imported arrays have the dtypes of the train state. -/
  dtypes : Every (fun p x => ∀ a, (p, a) ∈ r → x.map O.dtype = some (O.dtype a)) [] s0
  /-- No partitioned array is stored as uint16. -/
  u16 : ∀ p a, (p, a) ∈ r → ax0 p = true → O.dtype (conv O (if p.head? = some "target".toList then save else none) a) ≠ O.u16
  /-- A dtype to save with, or partitioned parameters. -/
  save : save = none → ∀ p, p.head? = some "target".toList → ax0 p = true

theorem convert_eq (O : Ops A T) (hO : Good O) (save rest : Option T) (dev : Bool) (D0 D D1 D2 : Str) (hD : TsPath.Spec.Dir D)
    (hD2 : TsPath.Spec.Dir D2) (hk : TsPath.gsPrefix.isPrefixOf D0 = TsPath.gsPrefix.isPrefixOf D) (ax0 ax1 : List Key → Bool)
    (s0 s1 : Dict (Option A)) (ht : Template s0) (h1 : Like (fun _ => SameKind O) [] s0 s1)
    (rules : List (Importer.Rule A)) (ph : A) (ckpt r : List (Importer.Key × A))
    (hr : Importer.restoreT5 rules ph O.shape (flatShapes O [] s0) true ckpt = .ok r) (hcov : Every (fun p _ => p ∈ r.map Prod.fst) [] s0)
    (hs : Savable O save ax0 s0 r) (hax : ∀ p, ax0 p = true → ax1 p = true ∨ dev = false) (hrest : rest ≠ none → "target".toList ∈ s0.keys) :
    ∃ o, convertTf O save D (parameterInfos O D0 ax0 s0) s0 rules ph ckpt = .ok o ∧
      ∀ ws, ws.Perm (writes o) → ∀ dsk, Moved D D2 (disk ws) dsk →
        restore O rest dev D2 dsk (parameterInfos O D1 ax1 s1) (file o) = .ok
          (mapL (fun p _ => (PyDict.get r p).map fun a => if p.head? = some "target".toList then conv O rest (conv O save a) else a) [] s0) := by
  obtain ⟨hwf, hleaf, u, hu, -, -, hul⟩ := importTree_spec O s0 ht.clean rules ph true ckpt r hr
  have hR := restored O s0 ht r hwf hcov (fun _ a => a) u hul
  simp only [Option.map_id'] at hR
  have hshape : ∀ e ∈ leaves [] s0, ∃ a, (e.1, a) ∈ r ∧ PyDict.get r e.1 = some a ∧ e.2.map O.shape = some (O.shape a) := by
    intro e he
    obtain ⟨a, ha, hg⟩ := leaves_get s0 r hwf hcov e he
    obtain ⟨y, hy, hys⟩ := hleaf _ ha
    have hx := (mem_leaves s0 ht.clean e.1 e.2).1 he
    dsimp only at hy hys
    rw [hx] at hy
    simp only [Option.some.injEq, Val.arr.injEq] at hy
    exact ⟨a, ha, hg, by rw [hy, Option.map_some, hys]⟩
  obtain ⟨o, ho, hback⟩ := C64_round_trip O hO save rest dev D0 D D1 D2 hD hD2 hk ax0 ax1 (mapL (fun p _ => PyDict.get r p) [] s0) s0 s1
    ((clean_mapL _ _ _).2 ht.clean)
    (by
      conv => arg 4; rw [← mapL_self s0 []]
      refine like_mapL _ _ _ [] s0 fun e he => ?_
      obtain ⟨a, ha, hg, hsh⟩ := hshape e he
      have hdt := leaf_of_every _ s0 [] hs.dtypes e he a ha
      unfold SameKind
      rw [hg, hsh, hdt]
      exact ⟨rfl, rfl⟩)
    (by
      obtain ⟨b, e1, e2, e3⟩ := like_base _ [] s0 s1 h1
      have hl : leaves [] s0 = (leaves [] b).map fun e => (e.1, e.2.1) := by rw [e1, leaves_mapL]
      rw [e2]
      have : mapL (fun p _ => PyDict.get r p) [] s0 = mapL (fun p _ => PyDict.get r p) [] b := by rw [e1, mapL_mapL]
      rw [this]
      refine like_mapL _ _ _ [] b fun e he => ?_
      obtain ⟨a, ha, hg, hsh⟩ := hshape (e.1, e.2.1) (by rw [hl]; exact List.mem_map.2 ⟨e, he, rfl⟩)
      have := e3 e he
      unfold SameKind at this ⊢
      dsimp only at hg hsh
      rw [hg, ← this, hsh]; rfl)
    hax
    (by
      have key : ∀ (P : List Key → Option A → Prop) (g : List Key → Option A → Option A) (d : Dict (Option A)) (pre : List Key),
          (∀ e ∈ leaves pre d, P e.1 (g e.1 e.2)) → Every P pre (mapL g pre d) := by
        intro P g d
        induction d with
        | nil => intro pre _; trivial
        | leaf k a r ih => exact fun pre h => ⟨h _ List.mem_cons_self, ih pre fun e he => h e (List.mem_cons_of_mem _ he)⟩
        | sub k d r ihd ih =>
          exact fun pre h => ⟨ihd _ fun e he => h e (List.mem_append_left _ he), ih pre fun e he => h e (List.mem_append_right _ he)⟩
      refine key _ _ s0 [] fun e he a' ha' hp => ?_
      exact hs.u16 e.1 a' (mem_of_get _ _ _ ha') hp)
    hs.save (by rw [keys_mapL]; exact hrest)
  refine ⟨o, by simp only [convertTf, hu, hR, ho], fun ws hws dsk hm => ?_⟩
  obtain ⟨r', hr', hl⟩ := hback ws hws dsk hm
  rw [hr']
  have key : ∀ (g : List Key → Option A → Option A) (s t : Dict (Option A)) (pre : List Key), Like (fun p x y => y = g p x) pre s t → t = mapL g pre s := by
    intro g s
    induction s with
    | nil => intro t pre h; cases t with
      | nil => rfl
      | leaf => exact h.elim
      | sub => exact h.elim
    | leaf k a r ih => intro t pre h; cases t with
      | nil => exact h.elim
      | leaf k' b r' => obtain ⟨rfl, h1, h2⟩ := h; rw [mapL, ← h1, ← ih _ _ h2]
      | sub => exact h.elim
    | sub k d r ihd ih => intro t pre h; cases t with
      | nil => exact h.elim
      | leaf => exact h.elim
      | sub k' d' r' => obtain ⟨rfl, h1, h2⟩ := h; rw [mapL, ← ihd _ _ h1, ← ih _ _ h2]
  rw [key _ _ _ _ hl, mapL_mapL]

/-- **C122.** A T5 checkpoint converted: what is written, read later by any checkpointer for a train state of the same shapes (any partitioning, wherever
the files have been moved to), is the train state with the imported values, those of parameters cast to the dtype of the conversion and then to the one asked
for. -/
theorem C122_convert (O : Ops A T) (hO : Good O) (save rest : Option T) (dev : Bool) (D0 D D1 D2 : Str) (hD : TsPath.Spec.Dir D)
    (hD2 : TsPath.Spec.Dir D2) (hk : TsPath.gsPrefix.isPrefixOf D0 = TsPath.gsPrefix.isPrefixOf D) (ax0 ax1 : List Key → Bool)
    (s0 s1 : Dict (Option A)) (ht : Template s0) (h1 : Like (fun _ => SameKind O) [] s0 s1)
    (rules : List (Importer.Rule A)) (ph : A) (ckpt r : List (Importer.Key × A))
    (hr : Importer.restoreT5 rules ph O.shape (flatShapes O [] s0) true ckpt = .ok r) (hcov : Every (fun p _ => p ∈ r.map Prod.fst) [] s0)
    (hs : Savable O save ax0 s0 r) (hax : ∀ p, ax0 p = true → ax1 p = true ∨ dev = false) (hrest : rest ≠ none → "target".toList ∈ s0.keys) :
    ∃ o, convertTf O save D (parameterInfos O D0 ax0 s0) s0 rules ph ckpt = .ok o ∧
      ∀ ws, ws.Perm (writes o) → ∀ dsk, Moved D D2 (disk ws) dsk →
        ∃ d, restore O rest dev D2 dsk (parameterInfos O D1 ax1 s1) (file o) = .ok d ∧
          Like (fun p _ y => ∃ a, (p, a) ∈ r ∧ y = some (if p.head? = some "target".toList then conv O rest (conv O save a) else a)) [] s0 d := by
  obtain ⟨o, ho, hb⟩ := convert_eq O hO save rest dev D0 D D1 D2 hD hD2 hk ax0 ax1 s0 s1 ht h1 rules ph ckpt r hr hcov hs hax hrest
  refine ⟨o, ho, fun ws hws dsk hm => ⟨_, hb ws hws dsk hm, ?_⟩⟩
  obtain ⟨hwf, -⟩ := importTree_spec O s0 ht.clean rules ph true ckpt r hr
  conv => arg 3; rw [← mapL_self s0 []]
  refine like_mapL _ _ _ [] s0 ?_
  intro e he
  obtain ⟨a, ha, hg⟩ := leaves_get s0 r hwf hcov e he
  exact ⟨a, ha, by rw [hg]; rfl⟩

/-- **C122.** Converting first makes no difference: if the conversion keeps the dtype of the imported parameters, restoring the converted checkpoint gives
the very state that restoring the T5 checkpoint directly gives, for every dtype asked for. -/
theorem C122_same (O : Ops A T) (hO : Good O) (save rest : Option T) (dev : Bool) (D0 D D1 D2 Dt : Str) (hD : TsPath.Spec.Dir D)
    (hD2 : TsPath.Spec.Dir D2) (hk : TsPath.gsPrefix.isPrefixOf D0 = TsPath.gsPrefix.isPrefixOf D) (ax0 ax1 axt : List Key → Bool)
    (s0 s1 : Dict (Option A)) (ht : Template s0) (h1 : Like (fun _ => SameKind O) [] s0 s1)
    (rules : List (Importer.Rule A)) (ph : A) (ckpt r : List (Importer.Key × A))
    (hr : Importer.restoreT5 rules ph O.shape (flatShapes O [] s0) true ckpt = .ok r) (hcov : Every (fun p _ => p ∈ r.map Prod.fst) [] s0)
    (hs : Savable O save ax0 s0 r) (hax : ∀ p, ax0 p = true → ax1 p = true ∨ dev = false) (hrest : rest ≠ none → "target".toList ∈ s0.keys)
    (hsame : ∀ t, save = some t → ∀ p a, (p, a) ∈ r → p.head? = some "target".toList → O.dtype a = t) :
    ∃ o d, convertTf O save D (parameterInfos O D0 ax0 s0) s0 rules ph ckpt = .ok o ∧
      restoreTf O rest (parameterInfos O Dt axt s0) s0 rules ph true ckpt = .ok d ∧
      ∀ ws, ws.Perm (writes o) → ∀ dsk, Moved D D2 (disk ws) dsk → restore O rest dev D2 dsk (parameterInfos O D1 ax1 s1) (file o) = .ok d := by
  obtain ⟨o, ho, hb⟩ := convert_eq O hO save rest dev D0 D D1 D2 hD hD2 hk ax0 ax1 s0 s1 ht h1 rules ph ckpt r hr hcov hs hax hrest
  refine ⟨o, _, ho, restoreTf_eq O hO rest Dt axt s0 ht rules ph true ckpt r hr hcov hrest, fun ws hws dsk hm => ?_⟩
  rw [hb ws hws dsk hm]
  congr 1
  obtain ⟨hwf, -⟩ := importTree_spec O s0 ht.clean rules ph true ckpt r hr
  refine mapL_congr _ _ s0 [] fun e he => ?_
  obtain ⟨a, ha, hg⟩ := leaves_get s0 r hwf hcov e he
  rw [hg, Option.map_some, Option.map_some]
  by_cases hp : e.1.head? = some "target".toList
  · rw [if_pos hp, if_pos hp]
    cases save with
    | none => rfl
    | some t =>
      have : conv O (some t) a = a := by
        have := hsame t rfl _ a ha hp
        show O.cast t a = a
        rw [← this, hO.same]
      rw [this]
  · rw [if_neg hp, if_neg hp]

/-- **C122.** A variable of the train state that the T5 checkpoint does not have is an error, for both: no variable keeps its initial value unnoticed. -/
theorem C122_missing (O : Ops A T) (rest save : Option T) (D : Str) (infos infos' : Dict (Option (Info T))) (s0 : Dict (Option A))
    (hs : SaveRestore.Spec.Clean s0) (rules : List (Importer.Rule A)) (ph : A) (strict : Bool) (ckpt r : List (Importer.Key × A))
    (hr : Importer.restoreT5 rules ph O.shape (flatShapes O [] s0) strict ckpt = .ok r)
    (hmiss : ¬ Every (fun p _ => p ∈ r.map Prod.fst) [] s0) :
    (∃ e, restoreTf O rest infos s0 rules ph strict ckpt = .error e) ∧ (strict = true → ∃ e, convertTf O save D infos' s0 rules ph ckpt = .error e) := by
  obtain ⟨hwf, hleaf, u, hu, hud, -, hul⟩ := importTree_spec O s0 hs rules ph strict ckpt r hr
  have key : ∀ (P : List Key → Option A → Prop) (d : Dict (Option A)) (pre : List Key), (∀ e ∈ leaves pre d, P e.1 e.2) → Every P pre d := by
    intro P d
    induction d with
    | nil => intro pre _; trivial
    | leaf k a r ih => exact fun pre h => ⟨h _ List.mem_cons_self, ih pre fun e he => h e (List.mem_cons_of_mem _ he)⟩
    | sub k d r ihd ih =>
      exact fun pre h => ⟨ihd _ fun e he => h e (List.mem_append_left _ he), ih pre fun e he => h e (List.mem_append_right _ he)⟩
  -- nothing with the leaves of the imported dict can be restored
  have hno : ∀ v : Dict (Option A), (∀ p, (leafAt nl v p).isSome = true → (leafAt nl u p).isSome = true) → restoreDict s0 v = none := by
    intro v hv
    cases hd : restoreDict s0 v with
    | none => rfl
    | some d =>
      refine absurd (key _ s0 [] fun e he => ?_) hmiss
      have h1 := restoreDict_has s0 (distinct_of_clean s0 hs) v d hd e.1 (by rw [(mem_leaves s0 hs e.1 e.2).1 he]; rfl)
      obtain ⟨w, hw⟩ := Option.isSome_iff_exists.1 (hv _ h1)
      obtain ⟨a, ha, -⟩ := (hul _ _).1 hw
      exact List.mem_map.2 ⟨_, ha, rfl⟩
  have hcast : ∀ p, (leafAt nl (castTarget O rest u) p).isSome = true → (leafAt nl u p).isSome = true := by
    intro p
    unfold castTarget
    rw [leafAt_mapL]
    cases leafAt nl u p with
    | none => exact fun h => h
    | some v => exact fun _ => rfl
  constructor
  · unfold restoreTf
    rw [hu]
    dsimp only
    split_ifs
    · exact ⟨_, rfl⟩
    · exact ⟨_, rfl⟩
    · cases hz : zipT (fun _ a (_ : Option (Info T)) => .ok a) [] (castTarget O rest u) infos with
      | error e => exact ⟨_, rfl⟩
      | ok placed =>
        have hp : placed = castTarget O rest u := zipT_id_eq _ _ _ _ hz
        dsimp only
        rw [hp, hno _ hcast]
        exact ⟨_, rfl⟩
  · rintro rfl
    unfold convertTf
    rw [hu]
    dsimp only
    rw [hno u fun _ h => h]
    exact ⟨_, rfl⟩

/-! ### A checkpoint of the same architecture -/

section
open Verif.InitT5 Verif.InitT5.Spec
open Verif.Importer (t5Rules restoreT5)

/-- The dtypes: `ts` for the step, `t` for everything else, both in the train state and in the T5 checkpoint; none is uint16. -/
structure Dtypes (O : Ops A T) (t ts : T) (cv : A → A) (ph : A) (ckpt : List (Importer.Spec.Var × A)) (s0 : Dict (Option A)) : Prop where
  state : Every (fun p x => x.map O.dtype = some (if p = ["state".toList, "step".toList] then ts else t)) [] s0
  vars : ∀ v x, (v, x) ∈ ckpt → v ≠ .step → O.dtype x = t
  step : ∀ x, (.step, x) ∈ ckpt → O.dtype (cv x) = ts
  ph : O.dtype ph = t
  not16 : t ≠ O.u16 ∧ ts ≠ O.u16

theorem every_of_leaves {α : Type} (P : List Key → α → Prop) (d : Dict α) : ∀ (pre : List Key), (∀ e ∈ leaves pre d, P e.1 e.2) → Every P pre d := by
  induction d with
  | nil => intro pre _; trivial
  | leaf k a r ih => exact fun pre h => ⟨h _ List.mem_cons_self, ih pre fun e he => h e (List.mem_cons_of_mem _ he)⟩
  | sub k d r ihd ih =>
    exact fun pre h => ⟨ihd _ fun e he => h e (List.mem_append_left _ he), ih pre fun e he => h e (List.mem_append_right _ he)⟩

theorem tf_ne_step (lm rms : Bool) (sl : Importer.Spec.Slot) (p : Importer.Spec.Param) : tfVar lm rms sl p ≠ .step := by
  cases p <;> exact fun h => nomatch h

theorem imported_both {cfg : Config} {lm rms : Bool} {Has : Importer.Spec.Param → Prop} (O : Ops A T) (hO : Good O) {cv : A → A} {ph : A}
    {ckpt : List (Importer.Spec.Var × A)} {s0 s1 : Dict (Option A)} {vars : List InitT5.Var} {moments : InitT5.Var → Moment → List Nat} {r : List (Importer.Key × A)} {wb wl : Nat}
    (hr : restoreT5 (t5Rules cv) ph O.shape (flatShapes O [] s0) true (ckpt.map fun e => (e.1.name wb wl, e.2)) = .ok r)
    (hI : Imported lm rms Has cv ph ckpt (flatShapes O [] s0) r) (hS : IsState vars moments (flatShapes O [] s0)) (hv : vars ≠ [])
    (ht : Template s0) (h1 : Like (fun _ => SameKind O) [] s0 s1) (t ts : T) (hdt : Dtypes O t ts cv ph ckpt s0)
    (save rest : Option T) (dev : Bool) (D0 D D1 D2 Dt : Str) (hD : TsPath.Spec.Dir D)
    (hD2 : TsPath.Spec.Dir D2) (hk : TsPath.gsPrefix.isPrefixOf D0 = TsPath.gsPrefix.isPrefixOf D) (ax0 ax1 axt : List Key → Bool)
    (hsave : save = some t ∨ (save = none ∧ ∀ p, p.head? = some "target".toList → ax0 p = true)) (hax : ∀ p, ax0 p = true → ax1 p = true ∨ dev = false) :
    ∃ o d, convertTf O save D (parameterInfos O D0 ax0 s0) s0 (t5Rules cv) ph (ckpt.map fun e => (e.1.name wb wl, e.2)) = .ok o ∧
      restoreTf O rest (parameterInfos O Dt axt s0) s0 (t5Rules cv) ph true (ckpt.map fun e => (e.1.name wb wl, e.2)) = .ok d ∧
      (∀ ws, ws.Perm (writes o) → ∀ dsk, Moved D D2 (disk ws) dsk → restore O rest dev D2 dsk (parameterInfos O D1 ax1 s1) (file o) = .ok d) ∧
      Like (fun p x y => ∃ a, (p, a) ∈ r ∧ x.map O.shape = some (O.shape a) ∧
        y = some (if p.head? = some "target".toList then conv O rest a else a)) [] s0 d := by
  have hcov : Every (fun p _ => p ∈ r.map Prod.fst) [] s0 := by
    refine every_of_leaves _ s0 [] fun e he => ?_
    obtain ⟨p, x⟩ := e
    have := leaf_of_every _ s0 [] ht.arrays _ he
    obtain ⟨y, rfl⟩ := Option.isSome_iff_exists.1 this
    exact (hI.keys.1 p).2 (List.mem_map.2 ⟨(p, O.shape y), (mem_flatShapes O s0 [] p _).2 ⟨y, he, rfl⟩, rfl⟩)
  have hdr : ∀ p a, (p, a) ∈ r → O.dtype a = if p = ["state".toList, "step".toList] then ts else t := by
    intro p a ha
    rcases hI.origin p a ha with ⟨hp, x, hx, rfl⟩ | ⟨hp, ⟨sl, q, -, hx⟩ | ⟨rfl, -⟩⟩
    · rw [if_pos hp]; exact hdt.step x hx
    · rw [if_neg hp]; exact hdt.vars _ _ hx (tf_ne_step _ _ _ _)
    · rw [if_neg hp]; exact hdt.ph
  have htgt : ∀ p : List Key, p.head? = some "target".toList → p ≠ ["state".toList, "step".toList] := by
    rintro p h rfl
    exact absurd h (by decide)
  have hsv : Savable O save ax0 s0 r := by
    refine ⟨every_of_leaves _ s0 [] fun e he a ha => ?_, fun p a ha _ => ?_, fun h => ?_⟩
    · rw [hdr _ _ ha]; exact leaf_of_every _ s0 [] hdt.state e he
    · by_cases hp : p.head? = some "target".toList
      · rw [if_pos hp]
        rcases hsave with rfl | ⟨rfl, -⟩
        · rw [show conv O (some t) a = O.cast t a from rfl, hO.dtype]; exact hdt.not16.1
        · rw [show conv O none a = a from rfl, hdr _ _ ha, if_neg (htgt p hp)]; exact hdt.not16.1
      · rw [if_neg hp, show conv O none a = a from rfl, hdr _ _ ha]
        split_ifs
        · exact hdt.not16.2
        · exact hdt.not16.1
    · rcases hsave with h' | h'
      · rw [h] at h'; cases h'
      · exact h'.2
  have hkey : "target".toList ∈ s0.keys := by
    obtain ⟨v, hv'⟩ := List.exists_mem_of_ne_nil _ hv
    have := (hS.mem ("target".toList :: v.path) v.shape).2 (.inr (.inl ⟨v, hv', rfl, rfl⟩))
    obtain ⟨y, hy, -⟩ := (mem_flatShapes O s0 [] _ _).1 this
    exact mem_keys_of_leafAt s0 _ v.path (by rw [(mem_leaves s0 ht.clean _ _).1 hy]; rfl)
  obtain ⟨o, d, ho, hd, hb⟩ := C122_same O hO save rest dev D0 D D1 D2 Dt hD hD2 hk ax0 ax1 axt s0 s1 ht h1 (t5Rules cv) ph _ r hr hcov hsv hax (fun _ => hkey)
    (by
      rintro t' rfl p a ha hp
      rcases hsave with h | h
      · cases h
        rw [hdr _ _ ha, if_neg (htgt p hp)]
      · cases h.1)
  obtain ⟨d', hd', hl⟩ := C122_direct O hO rest Dt axt s0 ht (t5Rules cv) ph true _ r hr hcov (fun _ => hkey)
  rw [hd] at hd'
  cases hd'
  exact ⟨o, d, ho, hd, hb, hl⟩

/-- **C122.** A checkpoint of the T5 code base for the same architecture, restored directly into the train state of an initialised encoder-decoder network with
Adafactor or converted first and restored then: both succeed, give the same state, and that state has the step, the parameters and the second moments of the
checkpoint (`Imported`), parameters in the dtype asked for. -/
theorem C122_t5 {cfg : Config} {B n m : Nat} {es ds : Bool} {vars : List InitT5.Var} (hi : initT5 cfg [B, m] [B, n] es ds = some vars)
    (ha : 0 < cfg.numActs) (hs : es = true → ds = true) {minDim : Nat} {moments : InitT5.Var → Moment → List Nat}
    (hM : ∀ v ∈ vars, MomentShapes minDim false v.shape (moments v)) (O : Ops A T) (hO : Good O) {s0 s1 : Dict (Option A)} (ht : Template s0)
    (hS : IsState vars moments (flatShapes O [] s0)) (h1 : Like (fun _ => SameKind O) [] s0 s1) {rms : Bool} {ckpt : List (Importer.Spec.Var × A)}
    (hC : IsCkpt cfg false rms (HasT5 cfg) minDim O.shape ckpt) {cv : A → A} {ph : A} (hph : O.shape ph = [1])
    (hstep : ∀ x, (.step, x) ∈ ckpt → O.shape (cv x) = []) (wb wl : Nat) (t ts : T) (hdt : Dtypes O t ts cv ph ckpt s0)
    (save rest : Option T) (dev : Bool) (D0 D D1 D2 Dt : Str) (hD : TsPath.Spec.Dir D)
    (hD2 : TsPath.Spec.Dir D2) (hk : TsPath.gsPrefix.isPrefixOf D0 = TsPath.gsPrefix.isPrefixOf D) (ax0 ax1 axt : List Key → Bool)
    (hsave : save = some t ∨ (save = none ∧ ∀ p, p.head? = some "target".toList → ax0 p = true)) (hax : ∀ p, ax0 p = true → ax1 p = true ∨ dev = false) :
    ∃ r o d, Imported false rms (HasT5 cfg) cv ph ckpt (flatShapes O [] s0) r ∧
      convertTf O save D (parameterInfos O D0 ax0 s0) s0 (t5Rules cv) ph (ckpt.map fun e => (e.1.name wb wl, e.2)) = .ok o ∧
      restoreTf O rest (parameterInfos O Dt axt s0) s0 (t5Rules cv) ph true (ckpt.map fun e => (e.1.name wb wl, e.2)) = .ok d ∧
      (∀ ws, ws.Perm (writes o) → ∀ dsk, Moved D D2 (disk ws) dsk → restore O rest dev D2 dsk (parameterInfos O D1 ax1 s1) (file o) = .ok d) ∧
      Like (fun p x y => ∃ a, (p, a) ∈ r ∧ x.map O.shape = some (O.shape a) ∧
        y = some (if p.head? = some "target".toList then conv O rest a else a)) [] s0 d := by
  obtain ⟨r, hr, hI⟩ := C114_import_t5 hi ha hs hM hS hC hph hstep wb wl
  have hv : vars ≠ [] := by
    obtain ⟨vars', hA, hall⟩ := C114_t5 cfg ha
    have : vars' = vars := Option.some.inj ((hall B n m es ds hs).symm.trans hi)
    subst this
    exact List.ne_nil_of_mem ((hA.2 _).2 ⟨.shared, .shared, rfl⟩)
  obtain ⟨o, d, h⟩ := imported_both (cfg := cfg) O hO hr hI hS hv ht h1 t ts hdt save rest dev D0 D D1 D2 Dt hD hD2 hk ax0 ax1 axt hsave hax
  exact ⟨r, o, d, hI, h⟩

/-- **C122.** The same for the decoder-only network. -/
theorem C122_lm {cfg : Config} {B n : Nat} {vars : List InitT5.Var} (hi : initLm cfg [B, n] = some vars)
    (ha : 0 < cfg.numActs) {minDim : Nat} {moments : InitT5.Var → Moment → List Nat}
    (hM : ∀ v ∈ vars, MomentShapes minDim false v.shape (moments v)) (O : Ops A T) (hO : Good O) {s0 s1 : Dict (Option A)} (ht : Template s0)
    (hS : IsState vars moments (flatShapes O [] s0)) (h1 : Like (fun _ => SameKind O) [] s0 s1) {rms : Bool} {ckpt : List (Importer.Spec.Var × A)}
    (hC : IsCkpt cfg true rms (HasLm cfg) minDim O.shape ckpt) {cv : A → A} {ph : A} (hph : O.shape ph = [1])
    (hstep : ∀ x, (.step, x) ∈ ckpt → O.shape (cv x) = []) (wb wl : Nat) (t ts : T) (hdt : Dtypes O t ts cv ph ckpt s0)
    (save rest : Option T) (dev : Bool) (D0 D D1 D2 Dt : Str) (hD : TsPath.Spec.Dir D)
    (hD2 : TsPath.Spec.Dir D2) (hk : TsPath.gsPrefix.isPrefixOf D0 = TsPath.gsPrefix.isPrefixOf D) (ax0 ax1 axt : List Key → Bool)
    (hsave : save = some t ∨ (save = none ∧ ∀ p, p.head? = some "target".toList → ax0 p = true)) (hax : ∀ p, ax0 p = true → ax1 p = true ∨ dev = false) :
    ∃ r o d, Imported true rms (HasLm cfg) cv ph ckpt (flatShapes O [] s0) r ∧
      convertTf O save D (parameterInfos O D0 ax0 s0) s0 (t5Rules cv) ph (ckpt.map fun e => (e.1.name wb wl, e.2)) = .ok o ∧
      restoreTf O rest (parameterInfos O Dt axt s0) s0 (t5Rules cv) ph true (ckpt.map fun e => (e.1.name wb wl, e.2)) = .ok d ∧
      (∀ ws, ws.Perm (writes o) → ∀ dsk, Moved D D2 (disk ws) dsk → restore O rest dev D2 dsk (parameterInfos O D1 ax1 s1) (file o) = .ok d) ∧
      Like (fun p x y => ∃ a, (p, a) ∈ r ∧ x.map O.shape = some (O.shape a) ∧
        y = some (if p.head? = some "target".toList then conv O rest a else a)) [] s0 d := by
  obtain ⟨r, hr, hI⟩ := C114_import_lm hi ha hM hS hC hph hstep wb wl
  have hv : vars ≠ [] := by
    obtain ⟨vars', hA, hall⟩ := C114_lm cfg ha
    have : vars' = vars := Option.some.inj ((hall B n).symm.trans hi)
    subst this
    exact List.ne_nil_of_mem ((hA.2 _).2 ⟨.emb false, .emb, rfl⟩)
  obtain ⟨o, d, h⟩ := imported_both (cfg := cfg) O hO hr hI hS hv ht h1 t ts hdt save rest dev D0 D D1 D2 Dt hD hD2 hk ax0 ax1 axt hsave hax
  exact ⟨r, o, d, hI, h⟩

/-! ### The hypotheses can be met -/

theorem isCkpt_map {V W : Type} {cfg : Config} {lm rms : Bool} {Has : Importer.Spec.Param → Prop} {minDim : Nat} {shape : V → List Nat} {shape' : W → List Nat} (f : V → W)
    (hf : ∀ x, shape' (f x) = shape x) {ckpt : List (Importer.Spec.Var × V)} (h : IsCkpt cfg lm rms Has minDim shape ckpt) :
    IsCkpt cfg lm rms Has minDim shape' (ckpt.map fun e => (e.1, f e.2)) := by
  have hk : (ckpt.map fun e => (e.1, f e.2)).map Prod.fst = ckpt.map Prod.fst := by rw [List.map_map]; rfl
  have hm : ∀ v y, (v, y) ∈ (ckpt.map fun e => (e.1, f e.2)) → ∃ x, (v, x) ∈ ckpt ∧ y = f x := by
    intro v y hy
    obtain ⟨e, he, h⟩ := List.mem_map.1 hy
    cases h
    exact ⟨e.2, he, rfl⟩
  refine ⟨by rw [hk]; exact h.vars, fun v => by rw [hk]; exact h.mem v, ?_, ?_, ?_, ?_⟩
  · intro p y hp hy
    obtain ⟨x, hx, rfl⟩ := hm _ _ hy
    rw [hf]; exact h.param p x hp hx
  · intro p y hp hy
    obtain ⟨x, hx, rfl⟩ := hm _ _ hy
    rw [hf]; exact h.v p x hp hx
  · intro p y a b hp he hy
    obtain ⟨x, hx, rfl⟩ := hm _ _ hy
    rw [hf]; exact h.vRow p x a b hp he hx
  · intro p y a b hp he hy
    obtain ⟨x, hx, rfl⟩ := hm _ _ hy
    rw [hf]; exact h.vCol p x a b hp he hx

theorem isState_perm {vars : List InitT5.Var} {moments : InitT5.Var → Moment → List Nat} {d d' : List (List Name × List Nat)} (h : IsState vars moments d) (hp : d.Perm d') :
    IsState vars moments d' :=
  ⟨(hp.map Prod.fst).nodup_iff.1 h.keys, fun k s => by rw [← hp.mem_iff]; exact h.mem k s⟩

def cleanB {α : Type} : Dict α → Bool
  | .nil => true
  | .leaf k _ r => !k.contains '/' && !k.contains '.' && !r.keys.contains k && cleanB r
  | .sub k d r => !k.contains '/' && !k.contains '.' && !r.keys.contains k && cleanB d && cleanB r

def fullB {α : Type} : Dict α → Bool
  | .nil => true
  | .leaf _ _ r => fullB r
  | .sub _ .nil _ => false
  | .sub _ d r => fullB d && fullB r

theorem clean_of {α : Type} (d : Dict α) (h : cleanB d = true) : SaveRestore.Spec.Clean d := by
  induction d with
  | nil => trivial
  | leaf k a r ih => simp [cleanB] at h; exact ⟨h.1.1.1, h.1.1.2, h.1.2, ih h.2⟩
  | sub k d r ihd ih => simp [cleanB] at h; exact ⟨h.1.1.1.1, h.1.1.1.2, h.1.1.2, ihd h.1.2, ih h.2⟩

theorem full_of {α : Type} (d : Dict α) (h : fullB d = true) : NoEmpty (fun _ => false) d := by
  induction d with
  | nil => trivial
  | leaf k a r ih => exact ih h
  | sub k d r ihd ih =>
    cases d with
    | nil => simp [fullB] at h
    | leaf => simp only [fullB, Bool.and_eq_true] at h; exact ⟨Or.inr ⟨by simp, ihd h.1⟩, ih h.2⟩
    | sub => simp only [fullB, Bool.and_eq_true] at h; exact ⟨Or.inr ⟨by simp, ihd h.1⟩, ih h.2⟩

/-- The train state of the demo network: float32 arrays (dtype 0), an int32 step (dtype 5). -/
def demoTree : Dict (Option (List Nat × Nat × Nat)) :=
  (unflattenPaths .nil ((stateOf ((initT5 demo [3, 5] [3, 7] false false).getD []) (momentsOf 5)).map fun e =>
    (e.1, Val.arr (some (e.2, if e.1 = ["state".toList, "step".toList] then 5 else 0, 0))))).getD .nil

theorem demo_clean : cleanB demoTree = true := by decide +kernel
theorem demo_full : fullB demoTree = true := by decide +kernel
theorem demo_some : ((leaves [] demoTree).all fun e => e.2.isSome) = true := by decide +kernel
theorem demo_dtype : ((leaves [] demoTree).all fun e => decide (e.2.map exOps.dtype = some (if e.1 = ["state".toList, "step".toList] then 5 else 0))) = true := by decide +kernel
theorem demo_shapes : (stateOf ((initT5 demo [3, 5] [3, 7] false false).getD []) (momentsOf 5)).isPerm (flatShapes exOps [] demoTree) = true := by decide +kernel

attribute [local irreducible] demoTree

theorem demo_template : Template demoTree :=
  ⟨clean_of _ demo_clean, full_of _ demo_full, every_of_leaves _ _ [] fun e he => List.all_eq_true.1 demo_some e he⟩

/-- A T5 checkpoint of the demo network, with the value 7 everywhere (the step is a float64, dtype 2, as far as the importer is concerned). -/
def demoCkpt : List (Importer.Spec.Var × (List Nat × Nat × Nat)) :=
  (ckptOf demo false true 5 (adds [] (encCalls demo ++ decCalls demo))).map fun e => (e.1, (e.2, 0, 7))

/-- The demo checkpoint, converted on a local disk with float32 parameters, copied to a bucket and restored as bfloat16. -/
example : ∃ r o d, Imported false true (HasT5 demo) (fun x => ([], 5, x.2.2)) ([1], 0, 0) demoCkpt (flatShapes exOps [] demoTree) r ∧
    convertTf exOps (some 0) "/m/checkpoint_7.tmp-1".toList (parameterInfos exOps "/m".toList (fun _ => true) demoTree) demoTree
      (t5Rules fun x => ([], 5, x.2.2)) ([1], 0, 0) (demoCkpt.map fun e => (e.1.name 3 3, e.2)) = .ok o ∧
    restoreTf exOps (some 1) (parameterInfos exOps "/n".toList (fun _ => true) demoTree) demoTree
      (t5Rules fun x => ([], 5, x.2.2)) ([1], 0, 0) true (demoCkpt.map fun e => (e.1.name 3 3, e.2)) = .ok d ∧
    ∀ ws, ws.Perm (writes o) → ∀ dsk, Moved "/m/checkpoint_7.tmp-1".toList "gs://b/checkpoint_7".toList (disk ws) dsk →
      restore exOps (some 1) true "gs://b/checkpoint_7".toList dsk (parameterInfos exOps "/n".toList (fun _ => true) demoTree) (file o) = .ok d := by
  obtain ⟨vars, hA, hall⟩ := C114_t5 demo (by decide)
  have hvars : (initT5 demo [3, 5] [3, 7] false false).getD [] = vars := by rw [hall 3 7 5 false false (by simp)]; rfl
  have hC : IsCkpt demo false true (HasT5 demo) 5 exOps.shape demoCkpt :=
    isCkpt_map (shape := id) (shape' := exOps.shape) (fun x => (x, 0, 7)) (fun _ => rfl) (ckptOf_is (nodup_adds _ _ List.nodup_nil) mem_t5 5 fun sl p => mean_t5 true sl)
  have hS : IsState vars (momentsOf 5) (flatShapes exOps [] demoTree) := by
    refine isState_perm (stateOf_is hA (momentsOf 5)) ?_
    rw [← hvars]
    exact List.isPerm_iff.1 demo_shapes
  obtain ⟨r, o, d, h1, h2, h3, h4, -⟩ := C122_t5 (s1 := demoTree) (hall 3 7 5 false false (by simp)) (by decide) (by simp) (fun v _ => momentsOf_are 5 v) exOps exOps_good demo_template hS
    (by
      have : ∀ (d : Dict (Option (List Nat × Nat × Nat))) (pre : List Key), Like (fun _ => SameKind exOps) pre d d := by
        intro d
        induction d with
        | nil => intro _; trivial
        | leaf k a r ih => exact fun pre => ⟨rfl, rfl, ih pre⟩
        | sub k d r ihd ih => exact fun pre => ⟨rfl, ihd _, ih pre⟩
      exact this _ _)
    hC (cv := fun x => ([], 5, x.2.2)) (ph := ([1], 0, 0)) rfl (fun _ _ => rfl) 3 3 0 5
    ⟨every_of_leaves _ _ [] fun e he => of_decide_eq_true (List.all_eq_true.1 demo_dtype e he), by
      intro v x hx _
      obtain ⟨e, -, h⟩ := List.mem_map.1 hx
      cases h
      rfl, fun _ _ => rfl, rfl, by decide⟩
    (some 0) (some 1) true "/m".toList "/m/checkpoint_7.tmp-1".toList "/n".toList "gs://b/checkpoint_7".toList "/n".toList
    (fun h => absurd h (by decide)) (fun _ => by decide) (by decide) (fun _ => true) (fun _ => true) (fun _ => true) (.inl rfl) (fun _ _ => .inl rfl)
  exact ⟨r, o, d, h1, h2, h3, h4⟩

/-- The train state of the decoder-only demo network: float32 arrays (dtype 0), an int32 step (dtype 5). -/
def lmTree : Dict (Option (List Nat × Nat × Nat)) :=
  (unflattenPaths .nil ((stateOf ((initLm demo [3, 5]).getD []) (momentsOf 5)).map fun e =>
    (e.1, Val.arr (some (e.2, if e.1 = ["state".toList, "step".toList] then 5 else 0, 0))))).getD .nil

theorem lm_clean : cleanB lmTree = true := by decide +kernel
theorem lm_full : fullB lmTree = true := by decide +kernel
theorem lm_some : ((leaves [] lmTree).all fun e => e.2.isSome) = true := by decide +kernel
theorem lm_dtype : ((leaves [] lmTree).all fun e => decide (e.2.map exOps.dtype = some (if e.1 = ["state".toList, "step".toList] then 5 else 0))) = true := by decide +kernel
theorem lm_shapes : (stateOf ((initLm demo [3, 5]).getD []) (momentsOf 5)).isPerm (flatShapes exOps [] lmTree) = true := by decide +kernel

attribute [local irreducible] lmTree

theorem lm_template : Template lmTree :=
  ⟨clean_of _ lm_clean, full_of _ lm_full, every_of_leaves _ _ [] fun e he => List.all_eq_true.1 lm_some e he⟩

/-- A T5 checkpoint of the decoder-only demo network, with the value 7 everywhere (the step is a float64, dtype 2, as far as the importer is concerned). -/
def lmCkpt : List (Importer.Spec.Var × (List Nat × Nat × Nat)) :=
  (ckptOf demo true true 5 (adds [] (lmCalls demo))).map fun e => (e.1, (e.2, 0, 7))

/-- The decoder-only checkpoint, converted on a local disk with float32 parameters, copied to a bucket and restored as bfloat16. -/
example : ∃ r o d, Imported true true (HasLm demo) (fun x => ([], 5, x.2.2)) ([1], 0, 0) lmCkpt (flatShapes exOps [] lmTree) r ∧
    convertTf exOps (some 0) "/m/checkpoint_7.tmp-1".toList (parameterInfos exOps "/m".toList (fun _ => true) lmTree) lmTree
      (t5Rules fun x => ([], 5, x.2.2)) ([1], 0, 0) (lmCkpt.map fun e => (e.1.name 3 3, e.2)) = .ok o ∧
    restoreTf exOps (some 1) (parameterInfos exOps "/n".toList (fun _ => true) lmTree) lmTree
      (t5Rules fun x => ([], 5, x.2.2)) ([1], 0, 0) true (lmCkpt.map fun e => (e.1.name 3 3, e.2)) = .ok d ∧
    ∀ ws, ws.Perm (writes o) → ∀ dsk, Moved "/m/checkpoint_7.tmp-1".toList "gs://b/checkpoint_7".toList (disk ws) dsk →
      restore exOps (some 1) true "gs://b/checkpoint_7".toList dsk (parameterInfos exOps "/n".toList (fun _ => true) lmTree) (file o) = .ok d := by
  obtain ⟨vars, hA, hall⟩ := C114_lm demo (by decide)
  have hvars : (initLm demo [3, 5]).getD [] = vars := by rw [hall 3 5]; rfl
  have hC : IsCkpt demo true true (HasLm demo) 5 exOps.shape lmCkpt :=
    isCkpt_map (shape := id) (shape' := exOps.shape) (fun x => (x, 0, 7)) (fun _ => rfl) (ckptOf_is (nodup_adds _ _ List.nodup_nil) mem_lm 5 fun sl p => mean_lm true sl)
  have hS : IsState vars (momentsOf 5) (flatShapes exOps [] lmTree) := by
    refine isState_perm (stateOf_is hA (momentsOf 5)) ?_
    rw [← hvars]
    exact List.isPerm_iff.1 lm_shapes
  obtain ⟨r, o, d, h1, h2, h3, h4, -⟩ := C122_lm (s1 := lmTree) (hall 3 5) (by decide) (fun v _ => momentsOf_are 5 v) exOps exOps_good lm_template hS
    (by
      have : ∀ (d : Dict (Option (List Nat × Nat × Nat))) (pre : List Key), Like (fun _ => SameKind exOps) pre d d := by
        intro d
        induction d with
        | nil => intro _; trivial
        | leaf k a r ih => exact fun pre => ⟨rfl, rfl, ih pre⟩
        | sub k d r ihd ih => exact fun pre => ⟨rfl, ihd _, ih pre⟩
      exact this _ _)
    hC (cv := fun x => ([], 5, x.2.2)) (ph := ([1], 0, 0)) rfl (fun _ _ => rfl) 3 3 0 5
    ⟨every_of_leaves _ _ [] fun e he => of_decide_eq_true (List.all_eq_true.1 lm_dtype e he), by
      intro v x hx _
      obtain ⟨e, -, h⟩ := List.mem_map.1 hx
      cases h
      rfl, fun _ _ => rfl, rfl, by decide⟩
    (some 0) (some 1) true "/m".toList "/m/checkpoint_7.tmp-1".toList "/n".toList "gs://b/checkpoint_7".toList "/n".toList
    (fun h => absurd h (by decide)) (fun _ => by decide) (by decide) (fun _ => true) (fun _ => true) (fun _ => true) (.inl rfl) (fun _ _ => .inl rfl)
  exact ⟨r, o, d, h1, h2, h3, h4⟩

/-- The hypotheses of `C122_missing`: a checkpoint with one parameter and without the step. -/
def smallTree : Dict (Option (List Nat × Nat × Nat)) :=
  .sub "target".toList (.sub "token_embedder".toList (.leaf "embedding".toList (some ([4, 2], 0, 0)) .nil) .nil)
    (.sub "state".toList (.leaf "step".toList (some ([], 5, 0)) (.sub "param_states".toList (.sub "token_embedder".toList (.sub "embedding".toList
      (.leaf "m".toList (some ([1], 0, 0)) (.leaf "v".toList (some ([4, 2], 0, 0)) (.leaf "v_row".toList (some ([1], 0, 0))
        (.leaf "v_col".toList (some ([1], 0, 0)) .nil)))) .nil) .nil) .nil)) .nil)

example : ∃ r, restoreT5 (t5Rules fun x => ([], 5, x.2.2)) ([1], 0, 0) exOps.shape (flatShapes exOps [] smallTree) true
      [(["shared".toList, "embedding".toList], ([4, 2], 0, 7)), (["shared".toList, "embedding_slot_v".toList], ([4, 2], 0, 8))] = .ok r ∧
    r.length = 5 ∧ ¬ Every (fun p _ => p ∈ r.map Prod.fst) [] smallTree :=
  ⟨_, rfl, by decide +kernel, fun h => absurd h.2.1.1 (by decide +kernel)⟩

end

end Verif.ConvertTf
