import Verif.Spec.SaveRestore
import Verif.Props.TsPath
/- Helper lemmas for the save/restore round trip: every tree involved is obtained from one tree by a function on the leaves. -/
namespace Verif.SaveRestore
open Verif.StateDict Spec
open Verif.TsPath (Str)

variable {A T α β γ χ : Type}

def leaves : List Key → Dict χ → List (List Key × χ)
  | _, .nil => []
  | pre, .leaf k a r => (pre ++ [k], a) :: leaves pre r
  | pre, .sub k d r => leaves (pre ++ [k]) d ++ leaves pre r

theorem keys_mapL (g : List Key → α → β) (pre : List Key) (d : Dict α) : (mapL g pre d).keys = d.keys := by
  induction d with
  | nil => rfl
  | leaf k a r ih => simp only [mapL, Dict.keys, ih]
  | sub k d r _ ih => simp only [mapL, Dict.keys, ih]

theorem mapL_mapL (g : List Key → β → γ) (g' : List Key → α → β) (pre : List Key) (d : Dict α) :
    mapL g pre (mapL g' pre d) = mapL (fun p x => g p (g' p x)) pre d := by
  induction d generalizing pre with
  | nil => rfl
  | leaf k a r ih => simp only [mapL, ih]
  | sub k d r ihd ih => simp only [mapL, ih, ihd]

theorem clean_mapL (g : List Key → α → β) (pre : List Key) (d : Dict α) : Clean (mapL g pre d) ↔ Clean d := by
  induction d generalizing pre with
  | nil => rfl
  | leaf k a r ih => simp only [mapL, Clean, ih, keys_mapL]
  | sub k d r ihd ih => simp only [mapL, Clean, ih, ihd, keys_mapL]

theorem get_none_of_not_mem (d : Dict α) (k : Key) (h : k ∉ d.keys) : d.get k = none := by
  induction d with
  | nil => rfl
  | leaf k' a r ih =>
    simp only [Dict.keys, List.mem_cons, not_or] at h
    rw [Dict.get, if_neg (Ne.symm h.1), ih h.2]
  | sub k' d r _ ih =>
    simp only [Dict.keys, List.mem_cons, not_or] at h
    rw [Dict.get, if_neg (Ne.symm h.1), ih h.2]

/-- One leaf of `zipT`. -/
def stepF (f : List Key → α → Option β → Except Err γ) (p : List Key) (x : Option α) (y : Option β) : Except Err (Option γ) :=
  match x with
  | none => if y.isNone then .ok none else .error .structure
  | some a => match f p a y with
    | .ok c => .ok (some c)
    | .error e => .error e

theorem get_mapL_leaf (g : List Key → χ → β) (pre : List Key) (k : Key) (x : χ) (r : Dict χ) :
    (mapL g pre (.leaf k x r)).get k = some (.arr (g (pre ++ [k]) x)) := by
  simp only [mapL, Dict.get, if_true]

theorem get_mapL_sub (g : List Key → χ → β) (pre : List Key) (k : Key) (d r : Dict χ) :
    (mapL g pre (.sub k d r)).get k = some (.dict (mapL g (pre ++ [k]) d)) := by
  simp only [mapL, Dict.get, if_true]

theorem tail_leaf (g : List Key → χ → β) (pre : List Key) (k : Key) (x : χ) (r w : Dict χ) (hk : k ∉ r.keys)
    (hw : ∀ k' ∈ (Dict.leaf k x r).keys, (mapL g pre w).get k' = (mapL g pre (.leaf k x r)).get k') :
    ∀ k' ∈ r.keys, (mapL g pre w).get k' = (mapL g pre r).get k' := by
  intro k' hk'
  rw [hw k' (List.mem_cons_of_mem _ hk'), mapL, Dict.get, if_neg]
  rintro rfl
  exact hk hk'

theorem tail_sub (g : List Key → χ → β) (pre : List Key) (k : Key) (d r w : Dict χ) (hk : k ∉ r.keys)
    (hw : ∀ k' ∈ (Dict.sub k d r).keys, (mapL g pre w).get k' = (mapL g pre (.sub k d r)).get k') :
    ∀ k' ∈ r.keys, (mapL g pre w).get k' = (mapL g pre r).get k' := by
  intro k' hk'
  rw [hw k' (List.mem_cons_of_mem _ hk'), mapL, Dict.get, if_neg]
  rintro rfl
  exact hk hk'

theorem keys_all (g1 : List Key → χ → α) (g2 : List Key → χ → β) (pre : List Key) (d : Dict χ) :
    (mapL g2 pre d).keys.all (mapL g1 pre d).keys.contains = true := by
  rw [keys_mapL, keys_mapL, List.all_eq_true]
  intro k hk
  simpa using hk

theorem zipT_mapL (f : List Key → α → Option β → Except Err γ) (g1 : List Key → χ → Option α) (g2 : List Key → χ → Option β)
    (g3 : List Key → χ → Option γ) (b w : Dict χ) (pre : List Key) (hb : Clean b)
    (hw : ∀ k ∈ b.keys, (mapL g2 pre w).get k = (mapL g2 pre b).get k)
    (h : ∀ e ∈ leaves pre b, stepF f e.1 (g1 e.1 e.2) (g2 e.1 e.2) = .ok (g3 e.1 e.2)) :
    zipT f pre (mapL g1 pre b) (mapL g2 pre w) = .ok (mapL g3 pre b) := by
  induction b generalizing pre w with
  | nil => rfl
  | leaf k x r ih =>
    have hr := ih w pre hb.2.2.2 (tail_leaf g2 pre k x r w hb.2.2.1 hw) fun e he => h e (List.mem_cons_of_mem _ he)
    have hg := hw k (List.mem_cons_self ..)
    rw [get_mapL_leaf] at hg
    have hx := h (pre ++ [k], x) (List.mem_cons_self ..)
    simp only [mapL] at hx ⊢
    cases h1 : g1 (pre ++ [k]) x with
    | none =>
      rw [h1] at hx
      simp only [stepF] at hx
      split_ifs at hx with h2
      have h2' : g2 (pre ++ [k]) x = none := by simpa using h2
      rw [h2'] at hg
      simp only [zipT, hg, hr, ← Except.ok.inj hx]
    | some a =>
      rw [h1] at hx
      simp only [stepF] at hx
      cases h3 : f (pre ++ [k]) a (g2 (pre ++ [k]) x) with
      | error e => rw [h3] at hx; cases hx
      | ok c =>
        rw [h3] at hx
        simp only [zipT, hg, hr, h3, ← Except.ok.inj hx]
  | sub k d r ihd ih =>
    have hr := ih w pre hb.2.2.2.2 (tail_sub g2 pre k d r w hb.2.2.1 hw) fun e he => h e (List.mem_append_right _ he)
    have hdd := ihd d (pre ++ [k]) hb.2.2.2.1 (fun _ _ => rfl) fun e he => h e (List.mem_append_left _ he)
    have hg := hw k (List.mem_cons_self ..)
    rw [get_mapL_sub] at hg
    simp only [mapL, zipT, hg, hr, hdd, keys_all, if_true]

theorem fill_mapL (g1 : List Key → χ → Option (Info T)) (g2 : List Key → χ → Option (FLeaf A T)) (b w : Dict χ) (pre : List Key) (hb : Clean b)
    (hw : ∀ k ∈ b.keys, (mapL g2 pre w).get k = (mapL g2 pre b).get k) :
    fill (mapL g1 pre b) (mapL g2 pre w) = .ok (mapL (fun p x => if (g1 p x).isSome then g2 p x else none) pre b) := by
  induction b generalizing pre w with
  | nil => rfl
  | leaf k x r ih =>
    have hr := ih w pre hb.2.2.2 (tail_leaf g2 pre k x r w hb.2.2.1 hw)
    have hg := hw k (List.mem_cons_self ..)
    rw [get_mapL_leaf] at hg
    simp only [mapL]
    cases h1 : g1 (pre ++ [k]) x with
    | none => simp only [fill, hg, hr]; rfl
    | some a => simp only [fill, hg, hr]; rfl
  | sub k d r ihd ih =>
    have hr := ih w pre hb.2.2.2.2 (tail_sub g2 pre k d r w hb.2.2.1 hw)
    have hdd := ihd d (pre ++ [k]) hb.2.2.2.1 (fun _ _ => rfl)
    have hg := hw k (List.mem_cons_self ..)
    rw [get_mapL_sub] at hg
    simp only [mapL, fill, hg, hr, hdd]

/-- One leaf of `convert`. -/
def convF (dir : Str) : Option (FLeaf A T) → Except Err (Option (FLeaf A T))
  | some (.spec s) => match convertLoc dir s.loc with
    | .ok l => .ok (some (.spec { s with loc := l }))
    | .error e => .error e
  | x => .ok x

theorem convert_mapL (dir : Str) (g g' : List Key → χ → Option (FLeaf A T)) (b : Dict χ) (pre : List Key)
    (h : ∀ e ∈ leaves pre b, convF dir (g e.1 e.2) = .ok (g' e.1 e.2)) : convert dir (mapL g pre b) = .ok (mapL g' pre b) := by
  induction b generalizing pre with
  | nil => rfl
  | leaf k x r ih =>
    have hr := ih pre fun e he => h e (List.mem_cons_of_mem _ he)
    have hx := h (pre ++ [k], x) (List.mem_cons_self ..)
    simp only [mapL] at hx ⊢
    match h1 : g (pre ++ [k]) x with
    | none =>
      rw [h1] at hx
      simp only [convert, hr, ← Except.ok.inj hx]
    | some (.val a) =>
      rw [h1] at hx
      simp only [convert, hr, ← Except.ok.inj hx]
    | some (.spec s) =>
      rw [h1] at hx
      simp only [convF] at hx
      cases h2 : convertLoc dir s.loc with
      | error e => rw [h2] at hx; cases hx
      | ok l =>
        rw [h2] at hx
        simp only [convert, h2, hr, ← Except.ok.inj hx]
  | sub k d r ihd ih =>
    have hr := ih pre fun e he => h e (List.mem_append_right _ he)
    have hdd := ihd (pre ++ [k]) fun e he => h e (List.mem_append_left _ he)
    simp only [mapL, convert, hr, hdd]

/-- The write of one leaf. -/
def writeOf : Option (Out A T) → Option (TsPath.Spec × A)
  | some (.ts _ l a) => some (l, a)
  | _ => none

theorem writes_mapL (g : List Key → χ → Option (Out A T)) (b : Dict χ) (pre : List Key) :
    writes (mapL g pre b) = (leaves pre b).filterMap fun e => writeOf (g e.1 e.2) := by
  induction b generalizing pre with
  | nil => rfl
  | leaf k x r ih =>
    simp only [mapL, leaves, List.filterMap_cons]
    match g (pre ++ [k]) x with
    | none => simp only [writes, writeOf, ih]
    | some (.msg a) => simp only [writes, writeOf, ih]
    | some (.ts s l a) => simp only [writes, writeOf, ih]
  | sub k d r ihd ih => simp only [mapL, leaves, writes, List.filterMap_append, ih, ihd]

theorem leaves_path (b : Dict χ) (pre : List Key) : ∀ e ∈ leaves pre b, ∃ k ∈ b.keys, ∃ q, e.1 = pre ++ k :: q := by
  induction b generalizing pre with
  | nil => intro e he; cases he
  | leaf k x r ih =>
    intro e he
    rcases List.mem_cons.1 he with rfl | he
    · exact ⟨k, List.mem_cons_self .., [], rfl⟩
    · obtain ⟨k', h1, q, h2⟩ := ih pre e he
      exact ⟨k', List.mem_cons_of_mem _ h1, q, h2⟩
  | sub k d r ihd ih =>
    intro e he
    rcases List.mem_append.1 he with he | he
    · obtain ⟨k', _, q, h2⟩ := ihd _ e he
      exact ⟨k, List.mem_cons_self .., k' :: q, by rw [h2, List.append_assoc]; rfl⟩
    · obtain ⟨k', h1, q, h2⟩ := ih pre e he
      exact ⟨k', List.mem_cons_of_mem _ h1, q, h2⟩

theorem leaves_nodup (b : Dict χ) (pre : List Key) (hb : Clean b) : ((leaves pre b).map Prod.fst).Nodup := by
  induction b generalizing pre with
  | nil => exact List.nodup_nil
  | leaf k x r ih =>
    simp only [leaves, List.map_cons, List.nodup_cons]
    refine ⟨fun hm => ?_, ih pre hb.2.2.2⟩
    obtain ⟨e, he, h1⟩ := List.mem_map.1 hm
    obtain ⟨k', hk', q, h2⟩ := leaves_path r pre e he
    rw [h2] at h1
    have := List.append_cancel_left h1
    simp only [List.cons.injEq] at this
    exact hb.2.2.1 (this.1 ▸ hk')
  | sub k d r ihd ih =>
    simp only [leaves, List.map_append]
    refine List.Nodup.append (ihd _ hb.2.2.2.1) (ih pre hb.2.2.2.2) ?_
    intro p h1 h2
    obtain ⟨e, he, rfl⟩ := List.mem_map.1 h1
    obtain ⟨e', he', h3⟩ := List.mem_map.1 h2
    obtain ⟨k', hk', q, h4⟩ := leaves_path r pre e' he'
    obtain ⟨k'', _, q', h5⟩ := leaves_path d (pre ++ [k]) e he
    rw [h4, h5, List.append_assoc] at h3
    have := List.append_cancel_left h3
    simp only [List.singleton_append, List.cons.injEq] at this
    exact hb.2.2.1 (this.1 ▸ hk')

theorem leaves_clean (b : Dict χ) (pre : List Key) (hb : Clean b) (hp : ∀ k ∈ pre, '/' ∉ k ∧ '.' ∉ k) :
    ∀ e ∈ leaves pre b, TsPath.Spec.Clean e.1 := by
  induction b generalizing pre with
  | nil => intro e he; cases he
  | leaf k x r ih =>
    intro e he
    rcases List.mem_cons.1 he with rfl | he
    · refine ⟨by simp, fun k' hk' => ?_⟩
      rcases List.mem_append.1 hk' with h | h
      · exact hp k' h
      · rw [List.mem_singleton.1 h]; exact ⟨hb.1, hb.2.1⟩
    · exact ih pre hb.2.2.2 hp e he
  | sub k d r ihd ih =>
    intro e he
    rcases List.mem_append.1 he with he | he
    · refine ihd _ hb.2.2.2.1 (fun k' hk' => ?_) e he
      rcases List.mem_append.1 hk' with h | h
      · exact hp k' h
      · rw [List.mem_singleton.1 h]; exact ⟨hb.1, hb.2.1⟩
    · exact ih pre hb.2.2.2.2 hp e he

theorem disk_not_mem (ws : List (TsPath.Spec × A)) (l : TsPath.Spec) (cur : Option A) (h : l ∉ ws.map Prod.fst) :
    ws.foldl (fun cur w => if w.1 = l then some w.2 else cur) cur = cur := by
  induction ws generalizing cur with
  | nil => rfl
  | cons w ws ih =>
    simp only [List.map_cons, List.mem_cons, not_or] at h
    rw [List.foldl_cons, if_neg (Ne.symm h.1), ih _ h.2]

theorem disk_mem (ws : List (TsPath.Spec × A)) (hn : (ws.map Prod.fst).Nodup) (l : TsPath.Spec) (a : A) (h : (l, a) ∈ ws) : disk ws l = some a := by
  unfold disk
  generalize (none : Option A) = cur
  induction ws generalizing cur with
  | nil => cases h
  | cons w ws ih =>
    simp only [List.map_cons, List.nodup_cons] at hn
    rw [List.foldl_cons]
    rcases List.mem_cons.1 h with rfl | h
    · rw [if_pos rfl, disk_not_mem _ _ _ hn.1]
    · exact ih hn.2 h _

theorem like_base (R : List Key → α → β → Prop) (pre : List Key) (s : Dict α) (t : Dict β) (h : Like R pre s t) :
    ∃ b : Dict (α × β), s = mapL (fun _ x => x.1) pre b ∧ t = mapL (fun _ x => x.2) pre b ∧ ∀ e ∈ leaves pre b, R e.1 e.2.1 e.2.2 := by
  induction s generalizing pre t with
  | nil =>
    cases t with
    | nil => exact ⟨.nil, rfl, rfl, fun e he => by cases he⟩
    | leaf => exact h.elim
    | sub => exact h.elim
  | leaf k a r ih =>
    cases t with
    | nil => exact h.elim
    | leaf k' c r' =>
      obtain ⟨rfl, h1, h2⟩ := h
      obtain ⟨b, e1, e2, e3⟩ := ih pre r' h2
      refine ⟨.leaf k (a, c) b, by rw [mapL, ← e1], by rw [mapL, ← e2], fun e he => ?_⟩
      rcases List.mem_cons.1 he with rfl | he
      · exact h1
      · exact e3 e he
    | sub => exact h.elim
  | sub k d r ihd ih =>
    cases t with
    | nil => exact h.elim
    | leaf => exact h.elim
    | sub k' d' r' =>
      obtain ⟨rfl, h1, h2⟩ := h
      obtain ⟨b, e1, e2, e3⟩ := ih pre r' h2
      obtain ⟨bd, f1, f2, f3⟩ := ihd _ d' h1
      refine ⟨.sub k bd b, by rw [mapL, ← e1, ← f1], by rw [mapL, ← e2, ← f2], fun e he => ?_⟩
      rcases List.mem_append.1 he with he | he
      · exact f3 e he
      · exact e3 e he

theorem like_mapL (R : List Key → α → β → Prop) (g : List Key → χ → α) (g' : List Key → χ → β) (pre : List Key) (b : Dict χ)
    (h : ∀ e ∈ leaves pre b, R e.1 (g e.1 e.2) (g' e.1 e.2)) : Like R pre (mapL g pre b) (mapL g' pre b) := by
  induction b generalizing pre with
  | nil => trivial
  | leaf k x r ih => exact ⟨rfl, h _ (List.mem_cons_self ..), ih pre fun e he => h e (List.mem_cons_of_mem _ he)⟩
  | sub k d r ihd ih =>
    exact ⟨rfl, ihd _ fun e he => h e (List.mem_append_left _ he), ih pre fun e he => h e (List.mem_append_right _ he)⟩

theorem every_mapL (P : List Key → α → Prop) (g : List Key → χ → α) (pre : List Key) (b : Dict χ) (h : Every P pre (mapL g pre b)) :
    ∀ e ∈ leaves pre b, P e.1 (g e.1 e.2) := by
  induction b generalizing pre with
  | nil => intro e he; cases he
  | leaf k x r ih =>
    intro e he
    rcases List.mem_cons.1 he with rfl | he
    · exact h.1
    · exact ih pre h.2 e he
  | sub k d r ihd ih =>
    intro e he
    rcases List.mem_append.1 he with he | he
    · exact ihd _ h.1 e he
    · exact ih pre h.2 e he

/-- The leaves of a tree obtained by a function on the leaves. -/
theorem leaves_mapL (g : List Key → χ → α) (pre : List Key) (b : Dict χ) :
    leaves pre (mapL g pre b) = (leaves pre b).map fun e => (e.1, g e.1 e.2) := by
  induction b generalizing pre with
  | nil => rfl
  | leaf k x r ih => simp only [mapL, leaves, ih, List.map_cons]
  | sub k d r ihd ih => simp only [mapL, leaves, ih, ihd, List.map_append]

end Verif.SaveRestore
