import Verif.Model.JobFiles
import Verif.Props.TrainJob
import Verif.Props.SaveRestore
import Verif.Props.StartState
import Verif.Props.HybridMesh
/-
C125: a training job with its files.  Composes C102 (the job), C64 (the content of checkpoints), C123 (transformations when resuming) and C124 (meshes).
-/
namespace Verif.JobFiles
open Verif Verif.StateDict Verif.SaveRestore
open Verif.SaveRestore.Spec (Like Every Clean Good conv SameKind Moved)
open Verif.Ckpt (FName Dir ckptName pathJoin latestStep)
open Verif.TsPath (Str)
open Verif.TrainJob.Spec (ideal idealBatch GoodCluster GoodProg GoodAttempt CleanPreemption GoodActs Holds)
open Verif.LocalChunk (Layout)

variable {A T σ B S α : Type} [DecidableEq T]

/-! ### What is assumed -/

namespace Spec

/-- Only dicts at the top: 'target', 'state', 'flax_mutables'. -/
def Nested {α : Type} : Dict α → Prop
  | .nil => True
  | .leaf _ _ _ => False
  | .sub _ _ r => Nested r

/-- A checkpointer for nested state dicts whose parameters have the dtype they are saved with; names without slash and dot, no partitioned uint16
array, transformations that leave a checkpoint of the job itself alone. -/
structure Fine (c : Store A T) : Prop where
  ops : Good c.O
  keys : Clean c.like_
  nested : Nested c.like_
  dir : ∀ n, TsPath.Spec.Dir (pathJoin c.dir (ckptName n))
  leaves : Every (fun p x => ∀ a, x = some a → (c.axes p = true → c.O.dtype a ≠ c.O.u16) ∧
    (p.head? = some "target".toList → ∀ t, c.dtype = some t → c.O.dtype a = t)) [] c.like_
  unpartitioned : c.dtype = none → ∀ p, p.head? = some "target".toList → c.axes p = true
  target : c.dtype ≠ none → "target".toList ∈ c.like_.keys
  fns : ∀ f ∈ c.fns, StartState.Spec.Resumable f

/-- A state with the entries, shapes and dtypes of the one the checkpointer was made for. -/
def Fits (c : Store A T) (s : Dict (Option A)) : Prop :=
  Like (fun _ x y => SameKind c.O x y ∧ x.map c.O.dtype = y.map c.O.dtype) [] s c.like_

/-- Training, with whatever batches, keeps entries, shapes and dtypes and counts its steps; its train states are given by their state dicts. -/
structure Stable (c : Store A T) (x : Comp S A σ B) : Prop where
  fits : ∀ bs : List (Nat → Option B), Fits c (x.toDict (bs.foldl x.step x.init))
  count : ∀ m b, x.stepOf (x.step m b) = x.stepOf m + 1
  back : ∀ bs : List (Nat → Option B), x.ofDict (x.toDict (bs.foldl x.step x.init)) = some (bs.foldl x.step x.init)

/-- A directory for temporary files, on the same kind of storage as the model directory. -/
def Tmp (c : Store A T) (tmp : Str) : Prop := TsPath.Spec.Dir tmp ∧ TsPath.gsPrefix.isPrefixOf c.dir = TsPath.gsPrefix.isPrefixOf tmp

/-- A way of writing files, in any order and in pieces, at whose end every file is complete. -/
def Writes {δ : Type} (plan : List (FName × δ) → List (FName × Option δ)) : Prop :=
  ∀ files, (files.map Prod.fst).Nodup →
    (∀ f x, (f, x) ∈ files → ((plan files).filter fun w => w.1 = f).getLast? = some (f, some x)) ∧ ∀ w ∈ plan files, w.1 ∈ files.map Prod.fst

end Spec
open Spec

/-! ### Names and places -/

theorem slashed_join (b p : Str) (hp : '/' ∉ p) : TsPath.pathJoin b p = slashed b ++ p := by
  unfold TsPath.pathJoin slashed
  have h : p.head? ≠ some '/' := by
    cases p with
    | nil => simp
    | cons x p => intro h; simp only [List.head?_cons, Option.some.injEq] at h; subst h; simp at hp
  rw [if_neg h]
  split_ifs <;> simp

theorem place_path (D p : Str) : (TsPath.Spec.place D p).kvPath = some (TsPath.pathJoin (baseOf D) p) := by
  unfold TsPath.Spec.place baseOf
  rcases TsPath.matchGs D with _ | ⟨b, d⟩ <;> rfl

theorem under_place (D p : Str) (hp : '/' ∉ p) : under D (TsPath.Spec.place D p) = some p := by
  unfold under
  rw [place_path, slashed_join _ _ hp]
  simp

/-! ### Trees -/

theorem like_every {α β : Type} {R : List Key → α → β → Prop} {P : List Key → β → Prop} {Q : List Key → α → Prop}
    (h : ∀ p x y, R p x y → P p y → Q p x) (s : Dict α) : ∀ (pre : List Key) (t : Dict β), Like R pre s t → Every P pre t → Every Q pre s := by
  induction s with
  | nil => intro pre t _ _; trivial
  | leaf k a r ih =>
    intro pre t hl he
    cases t with
    | nil => exact hl.elim
    | leaf k' b r' =>
      obtain ⟨rfl, h1, h2⟩ := hl
      exact ⟨h _ _ _ h1 he.1, ih _ _ h2 he.2⟩
    | sub => exact hl.elim
  | sub k d r ihd ih =>
    intro pre t hl he
    cases t with
    | nil => exact hl.elim
    | leaf => exact hl.elim
    | sub k' d' r' =>
      obtain ⟨rfl, h1, h2⟩ := hl
      exact ⟨ihd _ _ h1 he.1, ih _ _ h2 he.2⟩

theorem like_keys' {α β : Type} {R : List Key → α → β → Prop} (s : Dict α) : ∀ (pre : List Key) (t : Dict β), Like R pre s t → t.keys = s.keys := by
  intro pre t h
  obtain ⟨b, e1, e2, -⟩ := like_base R pre s t h
  rw [e1, e2, keys_mapL, keys_mapL]

theorem like_clean {α β : Type} {R : List Key → α → β → Prop} (s : Dict α) (pre : List Key) (t : Dict β) (h : Like R pre s t) (ht : Clean t) : Clean s := by
  obtain ⟨b, e1, e2, -⟩ := like_base R pre s t h
  rw [e2, clean_mapL] at ht
  rw [e1, clean_mapL]
  exact ht

theorem like_nested {α β : Type} {R : List Key → α → β → Prop} (s : Dict α) : ∀ (pre : List Key) (t : Dict β), Like R pre s t →
    Nested t → Nested s := by
  induction s with
  | nil => intro pre t _ _; trivial
  | leaf k0 a0 r ih =>
    intro pre t hl ht
    cases t with
    | nil => exact hl.elim
    | leaf k' b r' => exact ht.elim
    | sub => exact hl.elim
  | sub k0 d r ihd ih =>
    intro pre t hl ht
    cases t with
    | nil => exact hl.elim
    | leaf => exact hl.elim
    | sub k' d' r' => exact ih _ _ hl.2.2 ht

theorem nested_leaves {α : Type} (s : Dict α) (h : Nested s) : ∀ e ∈ leaves [] s, ∃ k k' q, e.1 = k :: k' :: q := by
  induction s with
  | nil => intro e he; cases he
  | leaf => exact h.elim
  | sub k d r ihd ih =>
    intro e he
    rcases List.mem_append.1 he with he | he
    · obtain ⟨k', -, q, hq⟩ := leaves_path d ([] ++ [k]) e he
      exact ⟨k, k', q, hq⟩
    · exact ih h e he

theorem like_eq (O : Ops A T) (hO : Good O) (dt : Option T) (s : Dict (Option A)) : ∀ (pre : List Key) (r : Dict (Option A)),
    Every (fun p x => ∀ a, x = some a → p.head? = some "target".toList → ∀ t, dt = some t → O.dtype a = t) pre s →
    Like (fun p x y => y = x.map fun a => if p.head? = some "target".toList then conv O dt (conv O dt a) else a) pre s r → r = s := by
  have key : ∀ (p : List Key) (x y : Option A), (∀ a, x = some a → p.head? = some "target".toList → ∀ t, dt = some t → O.dtype a = t) →
      (y = x.map fun a => if p.head? = some "target".toList then conv O dt (conv O dt a) else a) → y = x := by
    intro p x y h1 h2
    rw [h2]
    cases x with
    | none => rfl
    | some a =>
      simp only [Option.map_some, Option.some.injEq]
      split_ifs with hp
      · cases hdt : dt with
        | none => rfl
        | some t =>
          have := h1 a rfl hp t hdt
          simp only [conv]
          have e : O.cast t a = a := by rw [← this]; exact hO.same a
          rw [e, e]
      · rfl
  induction s with
  | nil =>
    intro pre r _ h
    cases r with
    | nil => rfl
    | leaf => exact h.elim
    | sub => exact h.elim
  | leaf k a r0 ih =>
    intro pre r he h
    cases r with
    | nil => exact h.elim
    | leaf k' b r' =>
      obtain ⟨rfl, h1, h2⟩ := h
      rw [key _ _ _ he.1 h1, ih _ _ he.2 h2]
    | sub => exact h.elim
  | sub k d r0 ihd ih =>
    intro pre r he h
    cases r with
    | nil => exact h.elim
    | leaf => exact h.elim
    | sub k' d' r' =>
      obtain ⟨rfl, h1, h2⟩ := h
      rw [ihd _ _ he.1 h1, ih _ _ he.2 h2]

/-! ### Writing -/

theorem write_eq (O : Ops A T) (hO : Good O) (save : Option T) (D0 D : Str) (hD : TsPath.Spec.Dir D)
    (hk : TsPath.gsPrefix.isPrefixOf D0 = TsPath.gsPrefix.isPrefixOf D) (ax0 : List Key → Bool) (s s0 : Dict (Option A)) (hs : Clean s)
    (h0 : Like (fun _ x y => SameKind O x y ∧ x.map O.dtype = y.map O.dtype) [] s s0)
    (hsave : save = none → ∀ p, p.head? = some "target".toList → ax0 p = true) :
    writeState O save D (parameterInfos O D0 ax0 s0) s = .ok (mapL (fun p x => x.map (outOf O save D0 D ax0 p)) [] s) := by
  obtain ⟨b, e1, e2, hR⟩ := like_base _ [] s s0 h0
  subst e1 e2
  rw [clean_mapL] at hs
  rw [mapL_mapL]
  unfold writeState parameterInfos
  rw [mapL_mapL, keys_all, if_pos rfl]
  refine zipT_mapL _ _ _ _ b b [] hs (fun _ _ => rfl) fun e he => ?_
  obtain ⟨hk1, hk2⟩ := hR e he
  obtain ⟨p, x, y⟩ := e
  unfold SameKind at hk1
  cases x with
  | none =>
    cases y with
    | none => rfl
    | some a0 => cases hk1
  | some a =>
    cases y with
    | none => cases hk1
    | some a0 =>
      simp only [Option.map_some, Option.some.injEq] at hk1 hk2
      simp only [stepF, writeLeaf_eq O hO save D0 D hD hk ax0 p a a0 hk1 hk2 (fun h1 h2 => hsave h1 p (of_decide_eq_true h2)),
        Option.map_some]

/-- The file of one leaf: its name and content. -/
def arrOf (O : Ops A T) (save : Option T) (ax : List Key → Bool) (e : List Key × Option A) : Option (FName × A) :=
  e.2.bind fun a => if ax e.1 then some (TsPath.dotted (TsPath.join e.1), conv O (saveT save e.1) a) else none

theorem writes_eq (O : Ops A T) (save : Option T) (D0 D : Str) (ax : List Key → Bool) (s : Dict (Option A)) :
    writes (mapL (fun p x => x.map (outOf O save D0 D ax p)) [] s) =
      ((leaves [] s).filterMap (arrOf O save ax)).map fun w => (TsPath.Spec.place D w.1, w.2) := by
  rw [writes_mapL, List.map_filterMap]
  congr 1
  funext e
  unfold arrOf
  cases e.2 with
  | none => rfl
  | some a =>
    simp only [Option.map_some, Option.bind_some, outOf]
    split_ifs <;> rfl

/-- The files of the arrays. -/
def arrays (c : Store A T) (s : Dict (Option A)) : List (FName × A) := (leaves [] s).filterMap (arrOf c.O c.dtype c.axes)

/-- The msgpack file. -/
def msgOf (c : Store A T) (s : Dict (Option A)) : Dict (Option (FLeaf A T)) :=
  file (mapL (fun p x => x.map (outOf c.O c.dtype c.dir c.dir c.axes p)) [] s)

theorem arrays_names (c : Store A T) (s : Dict (Option A)) (w : FName × A) (h : w ∈ arrays c s) : ∃ e ∈ leaves [] s, w.1 = TsPath.dotted (TsPath.join e.1) := by
  obtain ⟨e, he, h⟩ := List.mem_filterMap.1 h
  refine ⟨e, he, ?_⟩
  unfold arrOf at h
  cases hx : e.2 with
  | none => rw [hx] at h; cases h
  | some a =>
    rw [hx, Option.bind_some] at h
    split_ifs at h
    cases h
    rfl

theorem file_eq (O : Ops A T) (save : Option T) (D0 D D' : Str) (ax : List Key → Bool) (s : Dict (Option A)) :
    file (mapL (fun p x => x.map (outOf O save D0 D ax p)) [] s) = file (mapL (fun p x => x.map (outOf O save D0 D' ax p)) [] s) := by
  unfold file
  rw [mapL_mapL, mapL_mapL]
  congr 1
  funext p x
  cases x with
  | none => rfl
  | some a =>
    simp only [Option.map_some, outOf]
    split_ifs <;> rfl

theorem encState_eq {c : Store A T} (hc : Fine c) {D : Str} (hD : Tmp c D) {s : Dict (Option A)} (hs : Fits c s) :
    (encState c D s : List (FName × Content A T σ)) = (msgName, .msg (msgOf c s)) :: (arrays c s).map fun w => (w.1, .arr w.2) := by
  have hcl := like_clean s [] _ hs hc.keys
  unfold encState Store.infos
  rw [write_eq c.O hc.ops c.dtype c.dir D hD.1 hD.2 c.axes s c.like_ hcl hs hc.unpartitioned]
  simp only
  rw [writes_eq, List.filterMap_map]
  congr 1
  · rw [msgOf, file_eq c.O c.dtype c.dir D c.dir]
  · rw [← List.filterMap_eq_map]
    refine List.filterMap_congr fun w hw => ?_
    obtain ⟨e, -, he⟩ := arrays_names c s w hw
    simp only [Function.comp_apply]
    rw [under_place D w.1 (he ▸ TsPath.dotted_no_slash _)]
    rfl

/-- **C125** (where the files are written).  The files of a checkpoint do not depend on the temporary directory. -/
theorem C125_tmp {c : Store A T} (hc : Fine c) {D D' : Str} (hD : Tmp c D) (hD' : Tmp c D') {s : Dict (Option A)} (hs : Fits c s) :
    (encState c D s : List (FName × Content A T σ)) = encState c D' s := by
  rw [encState_eq hc hD hs, encState_eq hc hD' hs]

theorem arrays_nodup {c : Store A T} (hc : Fine c) {s : Dict (Option A)} (hs : Fits c s) : ((arrays c s).map Prod.fst).Nodup := by
  have hcl := like_clean s [] _ hs hc.keys
  have hnd := leaves_nodup s [] hcl
  have hclean := leaves_clean s [] hcl (fun k hk => by cases hk)
  unfold arrays
  generalize leaves [] s = L at hnd hclean
  induction L with
  | nil => exact List.nodup_nil
  | cons e l ih =>
    simp only [List.map_cons, List.nodup_cons] at hnd
    have ih' := ih hnd.2 (fun e' he' => hclean e' (List.mem_cons_of_mem _ he'))
    have hname : ∀ (e : List Key × Option A) (w : FName × A), arrOf c.O c.dtype c.axes e = some w → w.1 = TsPath.dotted (TsPath.join e.1) := by
      intro e w h
      unfold arrOf at h
      cases hx : e.2 with
      | none => rw [hx] at h; cases h
      | some a =>
        rw [hx, Option.bind_some] at h
        split_ifs at h
        cases h
        rfl
    rw [List.filterMap_cons]
    cases hw : arrOf c.O c.dtype c.axes e with
    | none => exact ih'
    | some w =>
      simp only [List.map_cons, List.nodup_cons]
      refine ⟨fun hm => ?_, ih'⟩
      obtain ⟨w', hw', hl⟩ := List.mem_map.1 hm
      obtain ⟨e', he', hw''⟩ := List.mem_filterMap.1 hw'
      rw [hname e w hw, hname e' w' hw''] at hl
      have := TsPath.dotted_join_inj e'.1 e.1 (hclean e' (List.mem_cons_of_mem _ he')) (hclean e List.mem_cons_self) hl
      exact hnd.1 (List.mem_map.2 ⟨e', he', this⟩)

theorem arrays_dot {c : Store A T} (hc : Fine c) {s : Dict (Option A)} (hs : Fits c s) (f : FName) (hf : f ∈ (arrays c s).map Prod.fst) : '.' ∈ f := by
  obtain ⟨w, hw, rfl⟩ := List.mem_map.1 hf
  obtain ⟨e, he, h⟩ := arrays_names c s w hw
  obtain ⟨k, k', q, hq⟩ := nested_leaves s (like_nested s [] _ hs hc.nested) e he
  rw [h, hq]
  unfold TsPath.dotted
  refine List.mem_map.2 ⟨'/', ?_, by decide⟩
  simp [TsPath.join]

/-! ### Reading -/

theorem zipT_mono {α β γ : Type} {f f' : List Key → α → Option β → Except Err γ} (h : ∀ p a b x, f p a b = .ok x → f' p a b = .ok x)
    (s : Dict (Option α)) : ∀ (pre : List Key) (t : Dict (Option β)) (r : Dict (Option γ)), zipT f pre s t = .ok r → zipT f' pre s t = .ok r := by
  induction s with
  | nil => intro pre t r hr; exact hr
  | leaf k a rest ih =>
    intro pre t r hr
    cases a with
    | none =>
      simp only [zipT] at hr ⊢
      cases hz : zipT f pre rest t with
      | error e =>
        rw [hz] at hr
        split at hr
        · rename_i h2; cases h2
        · cases hr
        · cases hr
      | ok r' =>
        rw [hz] at hr
        rw [ih pre t r' hz]
        exact hr
    | some a =>
      simp only [zipT] at hr ⊢
      rcases hg : t.get k with _ | b | d
      · rw [hg] at hr; cases hr
      · rw [hg] at hr
        simp only at hr ⊢
        cases hf : f (pre ++ [k]) a b with
        | error e => rw [hf] at hr; cases hr
        | ok x =>
          rw [hf] at hr
          rw [h _ _ _ _ hf]
          cases hz : zipT f pre rest t with
          | error e => rw [hz] at hr; cases hr
          | ok r' =>
            rw [hz] at hr
            rw [ih pre t r' hz]
            exact hr
      · rw [hg] at hr; cases hr
  | sub k d rest ihd ih =>
    intro pre t r hr
    simp only [zipT] at hr ⊢
    rcases hg : t.get k with _ | b | d'
    · rw [hg] at hr; cases hr
    · rw [hg] at hr; cases hr
    · rw [hg] at hr
      simp only at hr ⊢
      split_ifs at hr ⊢ with hk
      cases hz1 : zipT f (pre ++ [k]) d d' with
      | error e => rw [hz1] at hr; cases hr
      | ok x =>
        rw [hz1] at hr
        rw [ihd _ _ _ hz1]
        cases hz : zipT f pre rest t with
        | error e => rw [hz] at hr; cases hr
        | ok r' =>
          rw [hz] at hr
          rw [ih pre t r' hz]
          exact hr

theorem restore_mono (O : Ops A T) (rest : Option T) (dev : Bool) (D : Str) (dsk dsk' : TsPath.Spec → Option A) (h : ∀ l a, dsk l = some a → dsk' l = some a)
    (infos : Dict (Option (Info T))) (f : Dict (Option (FLeaf A T))) (r : Dict (Option A)) (hr : restore O rest dev D dsk infos f = .ok r) :
    restore O rest dev D dsk' infos f = .ok r := by
  have hleaf : ∀ p (i : Info T) x y, readLeaf O rest dev D dsk p i x = .ok y → readLeaf O rest dev D dsk' p i x = .ok y := by
    intro p i x y hy
    unfold readLeaf at hy ⊢
    rcases x with _ | a | s
    · exact hy
    · exact hy
    · simp only at hy ⊢
      cases hu : TsPath.updatePath D s.loc with
      | error e => rw [hu] at hy; cases hy
      | ok loc =>
        rw [hu] at hy
        simp only at hy ⊢
        split_ifs at hy ⊢
        cases hd : dsk loc with
        | none => rw [hd] at hy; cases hy
        | some a => rw [hd] at hy; rw [h _ _ hd]; exact hy
  unfold restore at hr ⊢
  cases hcv : convert D f with
  | error e => rw [hcv] at hr; cases hr
  | ok f' =>
    rw [hcv] at hr
    simp only at hr ⊢
    cases hfl : fill infos f' with
    | error e => rw [hfl] at hr; cases hr
    | ok w =>
      rw [hfl] at hr
      simp only at hr ⊢
      cases hz : zipT (readLeaf O rest dev D dsk) [] infos w with
      | error e => rw [hz] at hr; cases hr
      | ok r' =>
        rw [hz] at hr
        rw [zipT_mono hleaf infos [] w r' hz]
        exact hr

/-- The files of a checkpoint, wherever they are: the msgpack file and, among the arrays that are found, those that were written. -/
theorem files_moved {c : Store A T} (hc : Fine c) {D : Str} (hD : Tmp c D) {s : Dict (Option A)} (hs : Fits c s) (D2 : Str)
    (d : Dir (Content A T σ)) (hd : ∀ f x, (f, x) ∈ encState c D s → PyDict.get d f = some (some x)) :
    ∃ o dsk, writeState c.O c.dtype D c.infos s = .ok o ∧ PyDict.get d msgName = some (some (.msg (file o))) ∧
      Moved D D2 (disk (writes o)) dsk ∧ ∀ l a, dsk l = some a → diskOf D2 d l = some a := by
  have hcl := like_clean s [] _ hs hc.keys
  have ho := write_eq c.O hc.ops c.dtype c.dir D hD.1 hD.2 c.axes s c.like_ hcl hs hc.unpartitioned
  set o := mapL (fun p x => x.map (outOf c.O c.dtype c.dir D c.axes p)) [] s with hodef
  let dsk : TsPath.Spec → Option A := fun l => (under D2 l).bind fun p => if '/' ∈ p then none else disk (writes o) (TsPath.Spec.place D p)
  have hmoved : Moved D D2 (disk (writes o)) dsk := by
    intro p hp
    simp only [dsk]
    rw [under_place D2 p hp, Option.bind_some, if_neg hp]
  rw [encState_eq hc hD hs] at hd
  have hmem : ∀ l a, dsk l = some a → diskOf D2 d l = some a := by
    intro l a hl
    simp only [dsk] at hl
    unfold diskOf
    cases hul : under D2 l with
    | none => rw [hul] at hl; cases hl
    | some p =>
      rw [hul, Option.bind_some] at hl
      rw [Option.bind_some]
      split_ifs at hl with hp
      have hin : (TsPath.Spec.place D p, a) ∈ writes o := by
        unfold disk at hl
        clear hmoved
        generalize writes o = ws at hl
        have aux : ∀ (ws : List (TsPath.Spec × A)) (cur : Option A), ws.foldl (fun cur w => if w.1 = TsPath.Spec.place D p then some w.2 else cur) cur = some a →
            cur = some a ∨ (TsPath.Spec.place D p, a) ∈ ws := by
          intro ws
          induction ws with
          | nil => intro cur h; exact Or.inl h
          | cons w ws ih =>
            intro cur h
            rw [List.foldl_cons] at h
            rcases ih _ h with h | h
            · split_ifs at h with hw
              · right
                obtain ⟨w1, w2⟩ := w
                cases h
                rw [← hw]
                exact List.mem_cons_self
              · exact Or.inl h
            · exact Or.inr (List.mem_cons_of_mem _ h)
        rcases aux ws none hl with h | h
        · cases h
        · exact h
      rw [hodef, writes_eq] at hin
      obtain ⟨w, hw, hwe⟩ := List.mem_map.1 hin
      obtain ⟨h1, h2⟩ := Prod.ext_iff.1 hwe
      simp only at h1 h2
      have hp' : w.1 = p := by
        obtain ⟨e, -, he⟩ := arrays_names c s w hw
        have hns : '/' ∉ w.1 := he ▸ TsPath.dotted_no_slash _
        have := congrArg (under D) h1
        rw [under_place D _ hns, under_place D _ hp] at this
        exact Option.some.inj this
      have := hd w.1 (.arr w.2) (List.mem_cons_of_mem _ (List.mem_map.2 ⟨w, hw, rfl⟩))
      rw [hp', h2] at this
      rw [this]
      rfl
  have hmsg := hd msgName (.msg (msgOf c s)) List.mem_cons_self
  have hf : msgOf c s = file o := by rw [msgOf, hodef, file_eq c.O c.dtype c.dir D c.dir]
  rw [hf] at hmsg
  exact ⟨o, dsk, ho, hmsg, hmoved, hmem⟩

theorem fits_leaves {c : Store A T} (hc : Fine c) {s : Dict (Option A)} (hs : Fits c s) :
    Every (fun p x => ∀ a, x = some a → c.axes p = true →
      c.O.dtype (conv c.O (if p.head? = some "target".toList then c.dtype else none) a) ≠ c.O.u16) [] s ∧
    Every (fun p x => ∀ a, x = some a → p.head? = some "target".toList → ∀ t, c.dtype = some t → c.O.dtype a = t) [] s := by
  have hev := like_every (Q := fun p x => ∀ a, x = some a → (c.axes p = true → c.O.dtype a ≠ c.O.u16) ∧
      (p.head? = some "target".toList → ∀ t, c.dtype = some t → c.O.dtype a = t)) (fun p x y h1 h2 a ha => by
    subst ha
    obtain ⟨-, h1⟩ := h1
    cases y with
    | none => cases h1
    | some b =>
      simp only [Option.map_some, Option.some.injEq] at h1
      rw [h1]
      exact h2 b rfl) s [] _ hs hc.leaves
  have hu : Every (fun p x => ∀ a, x = some a → c.axes p = true →
      c.O.dtype (conv c.O (if p.head? = some "target".toList then c.dtype else none) a) ≠ c.O.u16) [] s := by
    have : ∀ (s : Dict (Option A)) (pre : List Key), Every (fun p x => ∀ a, x = some a → (c.axes p = true → c.O.dtype a ≠ c.O.u16) ∧
        (p.head? = some "target".toList → ∀ t, c.dtype = some t → c.O.dtype a = t)) pre s → Every (fun p x => ∀ a, x = some a → c.axes p = true →
        c.O.dtype (conv c.O (if p.head? = some "target".toList then c.dtype else none) a) ≠ c.O.u16) pre s := by
      have hx : ∀ (p : List Key) (x : Option A), (∀ a, x = some a → (c.axes p = true → c.O.dtype a ≠ c.O.u16) ∧
          (p.head? = some "target".toList → ∀ t, c.dtype = some t → c.O.dtype a = t)) → ∀ a, x = some a → c.axes p = true →
          c.O.dtype (conv c.O (if p.head? = some "target".toList then c.dtype else none) a) ≠ c.O.u16 := by
        intro p x h a ha hax
        obtain ⟨h1, h2⟩ := h a ha
        split_ifs with hp
        · cases hdt : c.dtype with
          | none => exact h1 hax
          | some t =>
            have h3 := h2 hp t hdt
            simp only [conv]
            rw [hc.ops.dtype, ← h3]
            exact h1 hax
        · exact h1 hax
      intro s
      induction s with
      | nil => intro pre h; trivial
      | leaf k a r ih => intro pre h; exact ⟨hx _ _ h.1, ih _ h.2⟩
      | sub k dd r ihd ih => intro pre h; exact ⟨ihd _ h.1, ih _ h.2⟩
    exact this s [] hev
  have htg : Every (fun p x => ∀ a, x = some a → p.head? = some "target".toList → ∀ t, c.dtype = some t → c.O.dtype a = t) [] s := by
    have : ∀ (s : Dict (Option A)) (pre : List Key), Every (fun p x => ∀ a, x = some a → (c.axes p = true → c.O.dtype a ≠ c.O.u16) ∧
        (p.head? = some "target".toList → ∀ t, c.dtype = some t → c.O.dtype a = t)) pre s →
        Every (fun p x => ∀ a, x = some a → p.head? = some "target".toList → ∀ t, c.dtype = some t → c.O.dtype a = t) pre s := by
      intro s
      induction s with
      | nil => intro pre h; trivial
      | leaf k a r ih => intro pre h; exact ⟨fun a ha => (h.1 a ha).2, ih _ h.2⟩
      | sub k dd r ihd ih => intro pre h; exact ⟨ihd _ h.1, ih _ h.2⟩
    exact this s [] hev
  exact ⟨hu, htg⟩

/-- **C125** (reading).  Any directory below the model directory that has the files of a state, whatever else is in it, is read as exactly that state. -/
theorem C125_reads_back {c : Store A T} (hc : Fine c) {D : Str} (hD : Tmp c D) {s : Dict (Option A)} (hs : Fits c s) (n : Nat)
    (d : Dir (Content A T σ)) (hd : ∀ f x, (f, x) ∈ encState c D s → PyDict.get d f = some (some x)) :
    decState c (pathJoin c.dir (ckptName n)) d = some s := by
  have hcl := like_clean s [] _ hs hc.keys
  have hkind : Like (fun _ => SameKind c.O) [] s c.like_ := by
    obtain ⟨b, e1, e2, e3⟩ := like_base _ [] s c.like_ hs
    rw [e2]
    conv in (occs := 1) s => rw [e1]
    exact like_mapL _ _ _ _ _ fun e he => (e3 e he).1
  obtain ⟨hu, htg⟩ := fits_leaves hc hs
  have hkeys := like_keys' s [] _ hs
  obtain ⟨o, ho, hres⟩ := C64_round_trip c.O hc.ops c.dtype c.dtype c.onDevices c.dir D c.dir (pathJoin c.dir (ckptName n)) hD.1 (hc.dir n) hD.2 c.axes c.axes
    s c.like_ c.like_ hcl hs hkind (fun p hp => Or.inl hp) hu hc.unpartitioned (fun h => hkeys ▸ hc.target h)
  obtain ⟨o', dsk, ho', hmsg, hmoved, hmem⟩ := files_moved hc hD hs (pathJoin c.dir (ckptName n)) d hd
  have : o' = o := by
    unfold Store.infos at ho'
    rw [ho] at ho'
    exact (Except.ok.inj ho').symm
  subst this
  obtain ⟨r, hr, hlike⟩ := hres (writes o') (List.Perm.refl _) dsk hmoved
  have hrs := like_eq c.O hc.ops c.dtype s [] r htg hlike
  subst hrs
  unfold decState
  rw [hmsg]
  simp only
  rw [StartState.restoreWith_resuming c.O c.dtype c.onDevices _ _ c.fns hc.fns]
  have := restore_mono c.O c.dtype c.onDevices _ dsk (diskOf _ d) hmem c.infos (file o') r hr
  rw [this]
  rfl

/-! ### The job -/

theorem ideal_foldl (c : Store A T) (x : Comp S A σ B) (tmp : Str) (n k : Nat) :
    ideal (prog c x tmp) n k =
      ((List.range k).map fun i s => if s < n then some (x.pipe.out (x.pipe.next^[i] (x.pipe.init x.seed s n))) else none).foldl x.step x.init := by
  induction k with
  | zero => rfl
  | succ k ih =>
    rw [List.range_succ, List.map_append, List.foldl_append, ← ih]
    rfl

theorem ideal_fits {c : Store A T} {x : Comp S A σ B} (hx : Stable c x) (tmp : Str) (n k : Nat) : Fits c (x.toDict (ideal (prog c x tmp) n k)) := by
  rw [ideal_foldl]
  exact hx.fits _

theorem good_prog {c : Store A T} (hc : Fine c) {x : Comp S A σ B} (hx : Stable c x) {tmp : Str} (ht : Tmp c tmp) : GoodProg (prog c x tmp) := by
  refine ⟨hx.count, ?_, fun s => rfl⟩
  intro n k s d hd
  have hf := ideal_fits hx tmp n k
  show (decState c (pathJoin c.dir (ckptName s)) d).bind x.ofDict = _
  rw [C125_reads_back hc ht hf s d hd, Option.bind_some, ideal_foldl, hx.back]

theorem dsName_dot (l : Layout) : '.' ∉ DsCkpt.dsName l := by
  unfold DsCkpt.dsName
  have h : ∀ w n, '.' ∉ Ckpt.decPad w n := fun w n hm => by
    have := Ckpt.decPad_digits w n _ hm
    exact absurd this (by decide)
  simp only [List.mem_append, List.mem_cons, not_or]
  exact ⟨by decide, by decide, ⟨h _ _, by decide⟩, h _ _⟩

theorem files_names {c : Store A T} (hc : Fine c) {x : Comp S A σ B} {tmp : Str} (ht : Tmp c tmp) (l : TrainJob.Live S σ) (hl : Fits c (x.toDict l.m)) :
    ((TrainJob.filesOf (prog c x tmp) l).map Prod.fst).Nodup ∧ ∀ f ∈ (TrainJob.filesOf (prog c x tmp) l).map Prod.fst, f ≠ Ckpt.pinnedFile := by
  obtain ⟨h1, h2⟩ := TrainJob.ds_keys l.hosts [] (by simp [PyDict.WF, PyDict.keys]) (by simp [PyDict.keys])
  have e : (TrainJob.filesOf (prog c x tmp) l).map Prod.fst = (msgName :: (arrays c (x.toDict l.m)).map Prod.fst) ++ PyDict.keys (DsCkpt.save l.hosts) := by
    have : (prog c x tmp).encM l.m = (msgName, .msg (msgOf c (x.toDict l.m))) :: (arrays c (x.toDict l.m)).map fun w => (w.1, .arr w.2) := encState_eq hc ht hl
    unfold TrainJob.filesOf
    rw [this]
    simp [PyDict.keys, Function.comp_def]
  have hds : ∀ k ∈ PyDict.keys (DsCkpt.save l.hosts), '.' ∉ k ∧ k.head? = some 't' := by
    intro k hk
    obtain ⟨y, rfl⟩ := h2 k hk
    exact ⟨dsName_dot y, TrainJob.dsName_head y⟩
  have har := arrays_dot hc hl
  rw [e]
  constructor
  · rw [List.nodup_append']
    refine ⟨List.nodup_cons.2 ⟨fun h => ?_, arrays_nodup hc hl⟩, h1, ?_⟩
    · exact absurd (har _ h) (by decide)
    · intro f hf hf'
      obtain ⟨d1, d2⟩ := hds f hf'
      rcases List.mem_cons.1 hf with rfl | hf
      · exact absurd d2 (by decide)
      · exact d1 (har f hf)
  · intro f hf
    rcases List.mem_append.1 hf with hf | hf
    · rcases List.mem_cons.1 hf with rfl | hf
      · decide
      · rintro rfl
        exact absurd (har _ hf) (by decide)
    · rintro rfl
      exact absurd (hds _ hf).2 (by decide)

/-- **C125** (saving).  Every start of the job on a cluster with `n` data shards that writes its files completely, in whatever order and pieces, is one for
which the results about jobs hold: the names of the files of a checkpoint are all different, and none is the marker of pinned checkpoints. -/
theorem C125_attempt {c : Store A T} (hc : Fine c) {x : Comp S A σ B} (hx : Stable c x) {tmp : Str} (ht : Tmp c tmp) {n : Nat}
    (a : TrainJob.Attempt S σ (Content A T σ) α) (hcl : GoodCluster n a.cluster) (hp : Writes a.plan) : GoodAttempt (prog c x tmp) n a := by
  refine ⟨hcl, fun l hl => ?_⟩
  obtain ⟨k, hk⟩ := hl
  have hf : Fits c (x.toDict l.m) := hk ▸ ideal_fits hx tmp n k
  obtain ⟨h1, h2⟩ := files_names hc ht l hf
  obtain ⟨w1, w2⟩ := hp _ h1
  exact ⟨w1, fun w hw => h2 _ (w2 w hw)⟩

/-- What happens to a model directory: starts of the job on clusters with `n` data shards, and pins. -/
def Spec.History (n : Nat) (acts : List (TrainJob.Act S σ (Content A T σ) α)) : Prop :=
  ∀ a, TrainJob.Act.attempt a ∈ acts → GoodCluster n a.cluster ∧ Writes a.plan ∧ CleanPreemption a

theorem good_acts {c : Store A T} (hc : Fine c) {x : Comp S A σ B} (hx : Stable c x) {tmp : Str} (ht : Tmp c tmp) {n : Nat}
    {acts : List (TrainJob.Act S σ (Content A T σ) α)} (h : History n acts) : GoodActs (prog c x tmp) n acts :=
  fun a ha => ⟨C125_attempt hc hx ht a (h a ha).1 (h a ha).2.1, (h a ha).2.2⟩

variable [LinearOrder α] [BoundedOrder α]

/-- **C125** (the job).  A job is started any number of times, on changing clusters with `n` data shards, with changing schedules and retention, and killed at
any moment, also while it writes a checkpoint.  The processes then hold the train state of the job that was never interrupted, after some number
of steps, and will be fed its batches. -/
theorem C125_job {c : Store A T} (hc : Fine c) {x : Comp S A σ B} (hx : Stable c x) {tmp : Str} (ht : Tmp c tmp) {n : Nat} (hn : 0 < n)
    (acts : List (TrainJob.Act S σ (Content A T σ) α)) (h : History n acts) (l : TrainJob.Live S σ) (hl : (TrainJob.job (prog c x tmp) acts).live = some l) :
    ∃ k, Holds (prog c x tmp) n k k l :=
  TrainJob.C102_uninterrupted (good_prog hc hx ht) hn acts (good_acts hc hx ht h) l hl

/-- **C125** (the next start).  It succeeds, and goes on from the latest complete checkpoint, the files of which are read as the state that was saved. -/
theorem C125_restart {c : Store A T} (hc : Fine c) {x : Comp S A σ B} (hx : Stable c x) {tmp : Str} (ht : Tmp c tmp) {n : Nat} (hn : 0 < n)
    (acts : List (TrainJob.Act S σ (Content A T σ) α)) (h : History n acts) (a : TrainJob.Attempt S σ (Content A T σ) α) (hcl : GoodCluster n a.cluster)
    (hp : Writes a.plan) (hpre : CleanPreemption a) :
    (∃ l k, TrainJob.restore (prog c x tmp) a.cluster (TrainJob.job (prog c x tmp) acts).fs = some l ∧ Holds (prog c x tmp) n k k l ∧
      (latestStep (TrainJob.job (prog c x tmp) acts).fs = none → k = 0) ∧
      ∀ s, latestStep (TrainJob.job (prog c x tmp) acts).fs = some s → s = x.stepOf x.init + k) ∧
    ∃ l, (TrainJob.job (prog c x tmp) (acts ++ [.attempt a])).live = some l :=
  have hr := TrainJob.C102_restart (good_prog hc hx ht) hn acts (good_acts hc hx ht h) a (C125_attempt hc hx ht a hcl hp) hpre
  ⟨hr.1, hr.2.imp fun _ h => h.1⟩

theorem latest_files {c : Store A T} (hc : Fine c) {x : Comp S A σ B} (hx : Stable c x) {tmp : Str} (ht : Tmp c tmp) {n : Nat}
    (acts : List (TrainJob.Act S σ (Content A T σ) α)) (h : History n acts) (s : Nat) (hs : latestStep (TrainJob.job (prog c x tmp) acts).fs = some s) :
    ∃ k d, s = x.stepOf x.init + k ∧ PyDict.get (TrainJob.job (prog c x tmp) acts).fs (ckptName s) = some d ∧
      ∀ f y, (f, y) ∈ encState c tmp (x.toDict (ideal (prog c x tmp) n k)) → PyDict.get d f = some (some y) := by
  have hP := good_prog hc hx ht
  obtain ⟨evs, hi⟩ := TrainJob.job_inv hP acts (good_acts hc hx ht h)
  rw [hi.fs] at hs ⊢
  obtain ⟨-, j, d, h1, h2, h3⟩ := (Ckpt.C20_latest_complete evs hi.good.1).2 s hs
  obtain ⟨hj, rfl⟩ := TrainJob.lastSave_mem _ _ _ h1
  rcases TrainJob.log_mem evs _ j hj with hj | ⟨pol, kd, cr, hj⟩
  · cases hj
  · obtain ⟨k, cl, l, e1, e2, e3⟩ := hi.good.2 pol kd j cr hj
    refine ⟨k, d, by rw [e2, e1.stepOf hP]; rfl, h2, ?_⟩
    intro f y hf
    refine h3 f y ?_
    rw [e3]
    unfold TrainJob.filesOf
    rw [e1.m]
    exact List.mem_append_left _ hf

/-- **C125** (other readers).  Whatever was killed, the files of the latest checkpoint are read as the state dict that the job without interruptions
has at its step, by everything that reads checkpoints with the same settings (evaluation, inference, the next start). -/
theorem C125_latest {c : Store A T} (hc : Fine c) {x : Comp S A σ B} (hx : Stable c x) {tmp : Str} (ht : Tmp c tmp) {n : Nat}
    (acts : List (TrainJob.Act S σ (Content A T σ) α)) (h : History n acts) (s : Nat) (hs : latestStep (TrainJob.job (prog c x tmp) acts).fs = some s) :
    ∃ k d, s = x.stepOf x.init + k ∧ PyDict.get (TrainJob.job (prog c x tmp) acts).fs (ckptName s) = some d ∧
      decState c (pathJoin c.dir (ckptName s)) d = some (x.toDict (ideal (prog c x tmp) n k)) := by
  obtain ⟨k, d, h1, h2, h3⟩ := latest_files hc hx ht acts h s hs
  exact ⟨k, d, h1, h2, C125_reads_back hc ht (ideal_fits hx tmp n k) s d h3⟩

/-- **C125** (the end).  A start that is not killed, with a schedule as in C34, ends at the last step with a checkpoint, the files of which are read as the
state of the job without interruptions at that step. -/
theorem C125_finishes {c : Store A T} (hc : Fine c) {x : Comp S A σ B} (hx : Stable c x) {tmp : Str} (ht : Tmp c tmp) {n : Nat}
    (acts : List (TrainJob.Act S σ (Content A T σ) α)) (h : History n acts) (a : TrainJob.Attempt S σ (Content A T σ) α) (hcl : GoodCluster n a.cluster)
    (hp : Writes a.plan) (hpre : CleanPreemption a) (hk : a.kill = none) (l : TrainJob.Live S σ)
    (hl : TrainJob.restore (prog c x tmp) a.cluster (TrainJob.job (prog c x tmp) acts).fs = some l) (m : Nat) (hq : TrainLoop.Spec.Quiet a.env)
    (hm : TrainLoop.Spec.Compatible a.cfg m) (hper : a.cfg.checkpointPeriod ≠ 0) (hman : a.cfg.manager = true)
    (hnew : a.cfg.alreadySaved = false) (hbefore : a.cfg.runEvalBeforeTraining = false) (hrel : a.cfg.relativeSteps = 0)
    (hft : x.stepOf l.m ≤ a.cfg.totalSteps) (hsort : a.cfg.checkpointSteps.Pairwise (· < ·))
    (hgood : TrainLoop.Spec.GoodSteps a.cfg.checkpointSteps (x.stepOf l.m) a.cfg.totalSteps a.cfg.checkpointPeriod (TrainLoop.Spec.blockLen a.cfg m)) :
    ∃ d, PyDict.get (TrainJob.job (prog c x tmp) (acts ++ [.attempt a])).fs (ckptName a.cfg.totalSteps) = some d ∧
      decState c (pathJoin c.dir (ckptName a.cfg.totalSteps)) d =
        some (x.toDict (ideal (prog c x tmp) n (a.cfg.totalSteps - x.stepOf x.init))) := by
  obtain ⟨l', -, -, -, h4⟩ := TrainJob.C102_finishes (good_prog hc hx ht) acts (good_acts hc hx ht h) a (C125_attempt hc hx ht a hcl hp) hpre hk l hl m hq hm
    hper hman hnew hbefore hrel hft hsort hgood
  have hh : History n (acts ++ [.attempt a]) := by
    intro b hb
    rcases List.mem_append.1 hb with hb | hb
    · exact h b hb
    · rw [List.mem_singleton] at hb
      cases hb
      exact ⟨hcl, hp, hpre⟩
  obtain ⟨k, d, e1, e2, e3⟩ := C125_latest hc hx ht _ hh _ h4
  refine ⟨d, e2, ?_⟩
  rw [e3, e1]
  congr 3
  omega

/-! ### Clusters of GPUs -/

omit [LinearOrder α] [BoundedOrder α] in
/-- **C125** (GPUs).  The processes of a cluster of GPUs, with the layouts that `get_data_layout` computes for the mesh of `get_gpu_mesh`, are a cluster as
the job needs it. -/
theorem C125_gpu {arrange : List Nat → List Mesh.Dev → Option (ND.NDArray Mesh.Dev)} (hA : HybridMesh.Spec.Arranges arrange)
    (p : Mesh.Platform) (devs : List Mesh.Dev) (hg : HybridMesh.Spec.Gpus p devs) (n : Nat) (e : ND.NDArray (Option Mesh.Dev))
    (h : HybridMesh.getGpuMesh p arrange devs n = .ok e) :
    ∃ (m : LocalChunk.Spec.Mesh HybridMesh.Axis (HybridMesh.Spec.Host devs)) (l : HybridMesh.Axis → Nat) (first : HybridMesh.Spec.Host devs → HybridMesh.Axis → Nat),
      HybridMesh.Spec.Seen e devs m ∧ ∀ (batch : Option Nat), (∀ b, batch = some b → m.shape .data ∣ b) → ∀ (lay : HybridMesh.Spec.Host devs → Layout),
        (∀ i, LocalChunk.getDataLayout (LocalChunk.Spec.hostChunker m l first i) m.shape i.1 (some [.data]) batch none = .ok (lay i)) →
        ∀ (hosts : List (HybridMesh.Spec.Host devs)), (∀ i, i ∈ hosts) → ∀ i₀, GoodCluster (lay i₀).numShards (hosts.map fun i => (i.1, lay i)) := by
  obtain ⟨m, l, first, h1, -, h3⟩ := HybridMesh.C124_gpu_hosts hA p devs hg n e h
  refine ⟨m, l, first, h1, fun batch hb lay hlay hosts hall i₀ => ?_⟩
  exact TrainJob.C102_cluster h3 (axes := [.data]) (by simp) (by simp) (by rw [h1.names]; simp) (fun i => i.1) batch (by simpa using hb) lay hlay hosts hall i₀

/-! ### A job with files -/

/-- Two numbers: the step and a parameter, a float32 array. -/
def exDict (m : Nat × Nat) : Dict (Option (List Nat × Nat × Nat)) :=
  .sub "target".toList (.leaf "w".toList (some ([4, 2], 0, m.2)) .nil) (.sub "state".toList (.leaf "step".toList (some ([], 5, m.1)) .nil) .nil)

def exBack (d : Dict (Option (List Nat × Nat × Nat))) : Option (Nat × Nat) :=
  match OptaxState.Spec.arrayAt d ["state".toList, "step".toList], OptaxState.Spec.arrayAt d ["target".toList, "w".toList] with
  | some (some a), some (some b) => some (a.2.2, b.2.2)
  | _, _ => none

/-- Training appends digits of the batches to the parameter. -/
def exComp : Comp (Nat × Nat) (List Nat × Nat × Nat) (Nat × Nat) Nat where
  init := (0, 1)
  stepOf := Prod.fst
  step m b := (m.1 + 1, 100 * m.2 + 10 * (b 0).getD 9 + (b 1).getD 9)
  pipe := ⟨fun _ s _ => (s, 0), fun x => x.2 % 4 * 2 + x.1, fun x => (x.1, x.2 + 1)⟩
  seed := 0
  toDict := exDict
  ofDict := exBack

/-- Saved as float32; the step is not partitioned. -/
def exStore : Store (List Nat × Nat × Nat) Nat where
  O := exOps
  dtype := some 0
  onDevices := true
  dir := "/m".toList
  axes p := p.getLast? ≠ some "step".toList
  like_ := exDict (0, 0)
  fns := []

theorem exFine : Fine exStore where
  ops := exOps_good
  keys := by simp only [exStore, exDict, Clean]; repeat' (first | exact trivial | refine And.intro ?_ ?_ | decide)
  nested := by simp [exStore, exDict, Nested]
  dir n := fun h => by
    have : TsPath.gsPrefix.isPrefixOf (pathJoin "/m".toList (ckptName n)) = false := rfl
    rw [show exStore.dir = "/m".toList from rfl, this] at h
    cases h
  leaves := by
    simp only [exStore, exDict, Every]
    refine ⟨⟨?_, trivial⟩, ⟨?_, trivial⟩, trivial⟩
    · intro a ha
      cases ha
      exact ⟨fun _ => by decide, fun _ t ht => by cases ht; rfl⟩
    · intro a ha
      cases ha
      exact ⟨fun _ => by decide, fun h => absurd h (by decide)⟩
  unpartitioned h := by cases h
  target _ := by decide
  fns f h := by cases h

theorem exStable : Stable exStore exComp where
  fits bs := by simp [Fits, exStore, exComp, exDict, Like, SameKind, exOps]
  count m b := rfl
  back bs := rfl

def exTmp : Str := "/m/checkpoint_4.tmp-104".toList

theorem exTmp_ok : Tmp exStore exTmp := ⟨fun h => absurd h (by decide), by decide⟩

theorem twice_writes {δ : Type} : Writes (δ := δ) TrainJob.twice := fun files hn =>
  ⟨fun f x hf => TrainJob.twice_valid files hn f x hf, fun w hw => by
    unfold TrainJob.twice at hw
    obtain ⟨y, hy, hw⟩ := List.mem_flatMap.1 hw
    have : w.1 = y.1 := by
      simp only [List.mem_cons, List.not_mem_nil, or_false] at hw
      rcases hw with rfl | rfl <;> rfl
    rw [this]
    exact List.mem_map.2 ⟨y, hy, rfl⟩⟩

/-- A start of six steps. -/
def exAttempt (big : Bool) (period : Nat) (kill : Option (Nat × Nat)) :
    TrainJob.Attempt (Nat × Nat) (Nat × Nat) (Content (List Nat × Nat × Nat) Nat (Nat × Nat)) Bool where
  cluster := TrainJob.demoCluster big
  cfg := { totalSteps := 6, checkpointPeriod := period }
  pol := .newest (some 1)
  keepDs := some 1
  stamp := fun s => s + 100
  plan := TrainJob.twice
  kill := kill

/-- Killed while it writes the checkpoint of step 4; then, on another cluster, after the one of step 5. -/
def exActs : List (TrainJob.Act (Nat × Nat) (Nat × Nat) (Content (List Nat × Nat × Nat) Nat (Nat × Nat)) Bool) :=
  [.attempt (exAttempt true 2 (some (4, 3))), .attempt (exAttempt false 3 (some (3, 1)))]

theorem exActs_ok : History 2 exActs := by
  intro a ha
  simp only [exActs, List.mem_cons, List.not_mem_nil, or_false, TrainJob.Act.attempt.injEq] at ha
  rcases ha with rfl | rfl
  · exact ⟨TrainJob.demoCluster_good true, twice_writes, fun _ _ _ => rfl⟩
  · exact ⟨TrainJob.demoCluster_good false, twice_writes, fun _ _ _ => rfl⟩

/-- The hypotheses of the theorems are met, and the job is not trivial. -/
example : ((exActs.inits.map (TrainJob.job (prog exStore exComp exTmp))).map fun w => (w.live.map fun l => l.m, latestStep w.fs)) =
    [(none, none), (some (4, 101234567), some 2), (some (6, 1012345670123), some 5)] := by
  decide +kernel

example : ∃ k d, 5 = 0 + k ∧ PyDict.get (TrainJob.job (prog exStore exComp exTmp) exActs).fs (ckptName 5) = some d ∧
    decState exStore (pathJoin exStore.dir (ckptName 5)) d = some (exDict (ideal (prog exStore exComp exTmp) 2 k)) :=
  C125_latest exFine exStable exTmp_ok exActs exActs_ok 5 (by decide +kernel)

/-- The same job, but parameters are saved as bfloat16 (`SaveCheckpointConfig.dtype`), here: with a multiple of 8. -/
def exRound : Store (List Nat × Nat × Nat) Nat :=
  { exStore with O := { exOps with cast := fun t a => (a.1, t, if t = 1 ∧ a.2.1 ≠ 1 then a.2.2 / 8 * 8 else a.2.2) }, dtype := some 1 }

/-- **C125** (what is needed).  With `SaveCheckpointConfig.dtype` other than the dtype of the parameters, the other hypotheses unchanged, a job that is
killed and started again does not end with the parameters of the uninterrupted job (it does without kill), and it goes on with arrays of the
dtype they were saved with: `train.py` resumes with the dtype of saving. -/
theorem C125_rounding :
    Good exRound.O ∧ Stable exRound exComp ∧ Tmp exRound exTmp ∧
    ((TrainJob.job (prog exRound exComp exTmp) [.attempt (exAttempt true 2 none)]).live.map fun l => l.m) =
      some (ideal (prog exRound exComp exTmp) 2 6) ∧
    (∃ m, ((TrainJob.job (prog exRound exComp exTmp) (exActs ++ [.attempt (exAttempt true 2 none)])).live.map fun l => l.m) = some m ∧
      exComp.stepOf m = 6 ∧ m ≠ ideal (prog exRound exComp exTmp) 2 6) ∧
    (((PyDict.get (TrainJob.job (prog exRound exComp exTmp) [.attempt (exAttempt true 2 none)]).fs (ckptName 6)).bind
      (decState exRound (pathJoin exRound.dir (ckptName 6)))).bind fun r => (OptaxState.Spec.arrayAt r ["target".toList, "w".toList]).bind id).map
        exRound.O.dtype = some 1 ∧
    ((OptaxState.Spec.arrayAt exRound.like_ ["target".toList, "w".toList]).bind id).map exRound.O.dtype = some 0 := by
  refine ⟨⟨fun _ _ => rfl, fun _ _ => rfl, ?_⟩, ⟨?_, fun _ _ => rfl, fun _ => rfl⟩, ⟨fun h => absurd h (by decide), by decide⟩, by decide +kernel,
    ⟨(6, 1012045669623), by decide +kernel, rfl, by decide +kernel⟩, by decide +kernel, by decide +kernel⟩
  · rintro ⟨sh, t, v⟩
    simp [exRound, exOps]
  · intro bs
    simp [Fits, exRound, exStore, exComp, exDict, Like, SameKind, exOps]

end Verif.JobFiles
