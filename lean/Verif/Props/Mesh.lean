import Verif.Lemmas.MeshPos
/-
C40: the device mesh.
-/
namespace Verif.Mesh
open Verif.ND Verif.Mesh.Spec

theorem getMesh_ok {p : Platform} {m g l : List Nat} {devs locals : List Dev} {tile : Bool} {e : NDArray (Option Dev)}
    (ht : Topology p devs locals g l) (h : getMesh p m devs locals tile = .ok e) :
    ∃ o, orient g m (place p g devs) tile = .ok o ∧
      (∀ x ∈ List.zipWith (fun x y => x % y) g m, x = 0) ∧ (∀ x ∈ List.zipWith (fun x y => x % y) g l, x = 0) ∧
      ((o.tile = true ∧ ∃ ts, tileTuples o.g o.m l = some ts ∧ blocks 4 g.length ts o.m o.devices = .ok e) ∨
       (o.tile = false ∧ blocks 2 g.length (List.zipWith (fun x y => [x / y, y]) o.g o.m) o.m o.devices = .ok e)) := by
  obtain ⟨dl, ll, h1, h2, h3, h4⟩ := ht.bounds
  unfold getMesh at h
  simp only [h1, h2, h3, h4] at h
  split_ifs at h with c1 c2 c3
  cases ho : orient g m (place p g devs) tile with
  | error er => rw [ho] at h; cases h
  | ok o =>
    rw [ho] at h
    dsimp only at h
    refine ⟨o, rfl, ?_, ?_, ?_⟩
    · intro x hx
      by_contra hne
      exact c1 (List.any_eq_true.mpr ⟨x, hx, by simpa using hne⟩)
    · intro x hx
      by_contra hne
      exact c2 (List.any_eq_true.mpr ⟨x, hx, by simpa using hne⟩)
    · by_cases hti : o.tile = true
      · rw [if_pos hti] at h
        cases hts : tileTuples o.g o.m l with
        | none => rw [hts] at h; cases h
        | some ts =>
          rw [hts] at h
          exact Or.inl ⟨hti, ts, rfl, h⟩
      · rw [if_neg hti] at h
        exact Or.inr ⟨by simpa using hti, h⟩

/-- C40: the mesh has ∏m columns ('model') and the rest as rows ('data'); every device is at exactly one position and
every position holds a device. -/
theorem C40_mesh {p : Platform} {m g l : List Nat} {devs locals : List Dev} {tile : Bool} {e : NDArray (Option Dev)}
    (ht : Topology p devs locals g l) (h : getMesh p m devs locals tile = .ok e) :
    e.shape = [g.prod / m.prod, m.prod] ∧
    (∀ r c, r < g.prod / m.prod → c < m.prod → ∃ d ∈ devs, e.get [r, c] = some d) ∧
    (∀ d ∈ devs, ∃! rc : Nat × Nat, rc.1 < g.prod / m.prod ∧ rc.2 < m.prod ∧ e.get [rc.1, rc.2] = some d) := by
  obtain ⟨o, ho, _, _, hb⟩ := getMesh_ok ht h
  have hen := orient_enumerates ht.fills.1.enumerates rfl ho
  have key : Enumerates e devs ∧ e.shape = [o.devices.shape.prod / o.m.prod, o.m.prod] := by
    rcases hb with ⟨_, ts, _, hb⟩ | ⟨_, hb⟩
    · exact blocks_enumerates hen.1 hb
    · exact blocks_enumerates hen.1 hb
  rw [hen.2.1, hen.2.2.1, hen.2.2.2.1] at key
  obtain ⟨ke, ks⟩ := key
  have hbox : ∀ r c, InBox e.shape [r, c] ↔ r < g.prod / m.prod ∧ c < m.prod := by
    intro r c
    rw [ks]
    constructor
    · intro hi
      cases hi with
      | cons h1 h2 =>
        cases h2 with
        | cons h3 _ => exact ⟨h1, h3⟩
    · rintro ⟨h1, h2⟩
      exact List.Forall₂.cons h1 (List.Forall₂.cons h2 List.Forall₂.nil)
  refine ⟨ks, ?_, ?_⟩
  · intro r c hr hc
    exact ke.holds _ ((hbox r c).mpr ⟨hr, hc⟩)
  · intro d hd
    obtain ⟨i, ⟨hi, hid⟩, hu⟩ := ke.once d hd
    have hil := hi.length
    rw [ks] at hil
    match i, hil with
    | [r, c], _ =>
      refine ⟨(r, c), ⟨((hbox r c).mp hi).1, ((hbox r c).mp hi).2, hid⟩, ?_⟩
      rintro ⟨r', c'⟩ ⟨h1, h2, h3⟩
      have := hu [r', c'] ⟨(hbox r' c').mpr ⟨h1, h2⟩, h3⟩
      simp only [List.cons.injEq, and_true] at this
      rw [this.1, this.2]

/-- A position that is known to hold the device is its position. -/
theorem position_unique {p : Platform} {m g l : List Nat} {devs locals : List Dev} {tile : Bool} {e : NDArray (Option Dev)}
    (ht : Topology p devs locals g l) (h : getMesh p m devs locals tile = .ok e) (d : Dev) (hd : d ∈ devs) (r c r' c' : Nat)
    (hr : r < g.prod / m.prod) (hc : c < m.prod) (hr' : r' < g.prod / m.prod) (hc' : c' < m.prod)
    (h1 : e.get [r, c] = some d) (h2 : e.get [r', c'] = some d) : r = r' ∧ c = c' := by
  obtain ⟨⟨a, b⟩, _, hu⟩ := (C40_mesh ht h).2.2 d hd
  have e1 := hu (r, c) ⟨hr, hc, h1⟩
  have e2 := hu (r', c') ⟨hr', hc', h2⟩
  rw [← e2] at e1
  simpa using e1

theorem exists_ax : ∀ (g m l : List Nat), g.length = m.length → g.length = l.length →
    ∃ ax : List Ax, ax.map Ax.g = g ∧ ax.map Ax.m = m ∧ ax.map Ax.l = l
  | [], [], [], _, _ => ⟨[], rfl, rfl, rfl⟩
  | a :: g, b :: m, c :: l, h1, h2 => by
    obtain ⟨ax, e1, e2, e3⟩ := exists_ax g m l (by simpa using h1) (by simpa using h2)
    exact ⟨⟨a, b, c⟩ :: ax, by simp [e1], by simp [e2], by simp [e3]⟩
  | [], _ :: _, _, h, _ => by simp at h
  | [], [], _ :: _, _, h => by simp at h
  | _ :: _, [], _, h, _ => by simp at h
  | _ :: _, _ :: _, [], _, h => by simp at h

theorem ax_dvd {ax : List Ax} {S : Ax → Nat} (hg : 0 < (ax.map Ax.g).prod)
    (h : ∀ x ∈ List.zipWith (fun x y => x % y) (ax.map Ax.g) (ax.map S), x = 0) :
    ∀ a ∈ ax, S a ∣ a.g ∧ 0 < S a ∧ 0 < a.g := by
  induction ax with
  | nil => intro a ha; cases ha
  | cons b ax ih =>
    rw [List.map_cons, List.prod_cons] at hg
    have hb : 0 < b.g := Nat.pos_of_ne_zero (by intro e; rw [e] at hg; simp at hg)
    have hr : 0 < (ax.map Ax.g).prod := Nat.pos_of_ne_zero (by intro e; rw [e] at hg; simp at hg)
    intro a ha
    rcases List.mem_cons.mp ha with rfl | ha
    · have := h (a.g % S a) (by simp)
      refine ⟨Nat.dvd_of_mod_eq_zero this, Nat.pos_of_ne_zero ?_, hb⟩
      intro e
      rw [e, Nat.mod_zero] at this
      omega
    · exact ih hr (fun x hx => h x (by simp only [List.map_cons, List.zipWith_cons_cons]; exact List.mem_cons_of_mem _ hx)) a ha

theorem tileTuples_ax {ax : List Ax} (h1 : ∀ a ∈ ax, a.m ∣ a.g ∧ 0 < a.m ∧ 0 < a.g) (h2 : ∀ a ∈ ax, a.l ∣ a.g ∧ 0 < a.l ∧ 0 < a.g) :
    ∀ ts, tileTuples (ax.map Ax.g) (ax.map Ax.m) (ax.map Ax.l) = some ts →
    (∀ a ∈ ax, Good4 a) ∧ ts = ax.map (fun a => [a.dh, a.dd, a.mh, a.md]) := by
  induction ax with
  | nil => intro ts h; cases h; exact ⟨fun a ha => (by cases ha), rfl⟩
  | cons b ax ih =>
    intro ts h
    simp only [List.map_cons, tileTuples] at h
    cases hd : dhddmhmd b.g b.m b.l with
    | none => rw [hd] at h; cases h
    | some t =>
      rw [hd] at h
      dsimp only at h
      cases hr : tileTuples (ax.map Ax.g) (ax.map Ax.m) (ax.map Ax.l) with
      | none => rw [hr] at h; cases h
      | some ts' =>
        rw [hr] at h
        cases h
        obtain ⟨e1, e2⟩ := ih (fun a ha => h1 a (List.mem_cons_of_mem _ ha)) (fun a ha => h2 a (List.mem_cons_of_mem _ ha)) ts' hr
        have hb : Good4 b := by
          obtain ⟨f1, f2, _⟩ := h1 b (List.mem_cons_self ..)
          obtain ⟨f3, f4, _⟩ := h2 b (List.mem_cons_self ..)
          unfold dhddmhmd at hd
          refine ⟨f1, f3, f2, f4, ?_, ?_⟩
          · intro hc
            simp only [if_pos hc] at hd
            split_ifs at hd with hm
            exact Nat.dvd_of_mod_eq_zero (by simpa using hm)
          · intro hc
            simp only [if_neg (show ¬ b.m ≥ b.l by omega)] at hd
            split_ifs at hd with hm
            exact Nat.dvd_of_mod_eq_zero (by simpa using hm)
        refine ⟨?_, ?_⟩
        · intro a ha
          rcases List.mem_cons.mp ha with rfl | ha
          · exact hb
          · exact e1 a ha
        · rw [hb.facts.2.2.2.2.2.2] at hd
          cases hd
          rw [e2]; rfl

theorem zipWith_swap (ax : List Ax) (x : List Nat) (S : Ax → Nat) :
    List.zipWith (fun u v => u / v) x (ax.map S) = List.zipWith (fun a u => u / S a) ax x := by
  induction ax generalizing x with
  | nil => simp
  | cons a ax ih =>
    cases x with
    | nil => rfl
    | cons u x => simp [ih]

/-- What the two layouts have in common: the row is a one-to-one function of the vector of submesh indices, in range. -/
theorem layout_rows {ax : List Ax} {a e : NDArray (Option Dev)} {l : List Nat} (hgpos : 0 < (ax.map Ax.g).prod)
    (ha : a.shape = ax.map Ax.g) (hl : ax.map Ax.l = l)
    (hm : ∀ x ∈ List.zipWith (fun x y => x % y) (ax.map Ax.g) (ax.map Ax.m), x = 0)
    (hlm : ∀ x ∈ List.zipWith (fun x y => x % y) (ax.map Ax.g) l, x = 0)
    (hb : (∃ ts, tileTuples (ax.map Ax.g) (ax.map Ax.m) l = some ts ∧ blocks 4 ax.length ts (ax.map Ax.m) a = .ok e) ∨
      blocks 2 ax.length (List.zipWith (fun x y => [x / y, y]) (ax.map Ax.g) (ax.map Ax.m)) (ax.map Ax.m) a = .ok e) :
    ∃ pos : List Nat → Nat × Nat, ∀ x, InBox (ax.map Ax.g) x →
      (pos x).1 < (ax.map Ax.g).prod / (ax.map Ax.m).prod ∧ (pos x).2 < (ax.map Ax.m).prod ∧
      e.get [(pos x).1, (pos x).2] = a.get x ∧
      ∀ x', InBox (ax.map Ax.g) x' → ((pos x).1 = (pos x').1 ↔
        List.zipWith (fun u v => u / v) x (ax.map Ax.m) = List.zipWith (fun u v => u / v) x' (ax.map Ax.m)) := by
  have hmd := ax_dvd hgpos hm
  subst hl
  have hld := ax_dvd hgpos hlm
  have hquot : ∀ (D : Ax → Nat), (∀ a ∈ ax, D a * a.m = a.g) → (ax.map D).prod = (ax.map Ax.g).prod / (ax.map Ax.m).prod := by
    intro D hD
    have : (ax.map D).prod * (ax.map Ax.m).prod = (ax.map Ax.g).prod := by
      rw [← List.prod_map_mul]
      congr 1
      exact List.map_congr_left hD
    rw [← this, Nat.mul_div_cancel]
    apply Nat.pos_of_ne_zero
    intro h0
    rw [h0, Nat.mul_zero] at this
    omega
  rcases hb with ⟨ts, h1, h2⟩ | h2
  · obtain ⟨hg, rfl⟩ := tileTuples_ax hmd hld ts h1
    refine ⟨fun x => (ravel (ax.map Ax.dh ++ ax.map Ax.dd) (List.zipWith Ax.xdh ax x ++ List.zipWith Ax.xdd ax x),
      ravel (ax.map Ax.mh ++ ax.map Ax.md) (List.zipWith Ax.xmh ax x ++ List.zipWith Ax.xmd ax x)), ?_⟩
    intro x hx
    have hrow : ∀ x, InBox (ax.map Ax.g) x →
        InBox (ax.map Ax.dh ++ ax.map Ax.dd) (List.zipWith Ax.xdh ax x ++ List.zipWith Ax.xdd ax x) := fun x hx =>
      InBox.append (zw_inBox hx Ax.dh Ax.xdh (fun b hb u hu => ((hg b hb).digits u hu).1))
        (zw_inBox hx Ax.dd Ax.xdd (fun b hb u hu => ((hg b hb).digits u hu).2.1))
    have hcol := InBox.append (zw_inBox hx Ax.mh Ax.xmh (fun b hb u hu => ((hg b hb).digits u hu).2.2.1))
        (zw_inBox hx Ax.md Ax.xmd (fun b hb u hu => ((hg b hb).digits u hu).2.2.2.1))
    refine ⟨?_, ?_, pos4 hg ha hx h2, ?_⟩
    · have := ravel_lt (hrow x hx)
      rw [List.prod_append, ← List.prod_map_mul] at this
      rw [← hquot (fun a => a.dh * a.dd) (fun b hb => (hg b hb).facts.1)]
      exact this
    · have := ravel_lt hcol
      rw [List.prod_append, ← List.prod_map_mul] at this
      have e2 : (ax.map (fun a => a.mh * a.md)) = ax.map Ax.m := List.map_congr_left (fun b hb => (hg b hb).facts.2.1)
      rw [e2] at this
      exact this
    · intro x' hx'
      dsimp only
      rw [ravel_inj (hrow x hx) (hrow x' hx'), zipWith_swap, zipWith_swap,
        ← zw2_iff hx hx' Ax.xdh Ax.xdd (fun a u => u / a.m)]
      · exact ⟨fun h => List.append_inj h (by simp [hx.length, hx'.length]), fun h => by rw [h.1, h.2]⟩
      · intro b hb u v _ _
        obtain ⟨_, _, _, f4, _⟩ := (hg b hb).facts
        unfold Ax.xdh Ax.xdd
        constructor
        · rintro ⟨e1, e2⟩
          rw [← Nat.div_add_mod (u / b.m) b.dd, e1, e2, Nat.div_add_mod]
        · intro e1; rw [e1]; exact ⟨rfl, rfl⟩
  · have hz : List.zipWith (fun x y => [x / y, y]) (ax.map Ax.g) (ax.map Ax.m) = ax.map (fun a => [a.g / a.m, a.m]) := by
      clear * -
      induction ax with
      | nil => rfl
      | cons a ax ih => simp [ih]
    rw [hz] at h2
    have hg : ∀ a ∈ ax, Good2 a := fun a ha => ⟨(hmd a ha).1, (hmd a ha).2.1⟩
    refine ⟨fun x => (ravel (ax.map (fun a => a.g / a.m)) (List.zipWith (fun a u => u / a.m) ax x),
      ravel (ax.map Ax.m) (List.zipWith (fun a u => u % a.m) ax x)), ?_⟩
    intro x hx
    have hrow : ∀ x, InBox (ax.map Ax.g) x → InBox (ax.map (fun a => a.g / a.m)) (List.zipWith (fun a u => u / a.m) ax x) :=
      fun x hx => zw_inBox hx _ _ (fun b hb u hu => Nat.div_lt_div_of_lt_of_dvd (hg b hb).1 hu)
    refine ⟨?_, ?_, pos2 hg ha hx h2, ?_⟩
    · have := ravel_lt (hrow x hx)
      rw [hquot (fun a => a.g / a.m) (fun b hb => Nat.div_mul_cancel (hg b hb).1)] at this
      exact this
    · exact ravel_lt (zw_inBox hx Ax.m (fun a u => u % a.m) (fun b hb u _ => Nat.mod_lt _ (hg b hb).2))
    · intro x' hx'
      dsimp only
      rw [ravel_inj (hrow x hx) (hrow x' hx'), zipWith_swap, zipWith_swap]

theorem orient_sigma {g m : List Nat} {a : NDArray (Option Dev)} {tile : Bool} {o : Oriented} (ha : a.shape = g)
    (ho : orient g m a tile = .ok o) (hlen : g.length = m.length) :
    ∃ σ : List Nat → List Nat, o.g = σ g ∧ o.m = σ m ∧
      (∀ x, InBox g x → InBox (σ g) (σ x) ∧ o.devices.get (σ x) = a.get x) ∧
      (∀ x x', InBox g x → InBox g x' → (List.zipWith (fun u v => u / v) (σ x) (σ m) = List.zipWith (fun u v => u / v) (σ x') (σ m) ↔
        List.zipWith (fun u v => u / v) x m = List.zipWith (fun u v => u / v) x' m)) ∧
      (∀ S : Nat → Nat → Nat, (∀ x ∈ List.zipWith S g m, x = 0) → ∀ x ∈ List.zipWith S (σ g) (σ m), x = 0) := by
  rcases orient_cases ho with ⟨rfl, _⟩ | ⟨gx, gy, gz, gc, mx, my, mz, rfl, rfl, _, hc⟩
  · exact ⟨id, rfl, rfl, fun x hx => ⟨hx, rfl⟩, fun x x' _ _ => Iff.rfl, fun S h => h⟩
  · have hx4 : ∀ x, InBox [gx, gy, gz, gc] x → ∃ a b c d, x = [a, b, c, d] ∧ a < gx ∧ b < gy ∧ c < gz ∧ d < gc := by
      intro x hx
      cases hx with
      | cons h1 hx => cases hx with
        | cons h2 hx => cases hx with
          | cons h3 hx => cases hx with
            | cons h4 hx => cases hx; exact ⟨_, _, _, _, rfl, h1, h2, h3, h4⟩
    rcases hc with ⟨_, h1, h2, h3⟩ | ⟨_, h1, h2, h3⟩
    · refine ⟨fun x => [x.getD 0 0, x.getD 2 0, x.getD 1 0, x.getD 3 0], h1, h2, ?_, ?_, ?_⟩
      · intro x hx
        obtain ⟨x0, x1, x2, x3, rfl, b0, b1, b2, b3⟩ := hx4 x hx
        refine ⟨List.Forall₂.cons b0 (List.Forall₂.cons b2 (List.Forall₂.cons b1 (List.Forall₂.cons b3 List.Forall₂.nil))), ?_⟩
        unfold transpose at h3
        split_ifs at h3
        rw [Option.some.injEq] at h3
        rw [← h3, ha]
        rfl
      · intro x x' hx hx'
        obtain ⟨x0, x1, x2, x3, rfl, _⟩ := hx4 x hx
        obtain ⟨y0, y1, y2, y3, rfl, _⟩ := hx4 x' hx'
        simp
        tauto
      · intro S h x hx
        simp at h hx
        rcases hx with rfl | rfl | rfl | rfl <;> tauto
    · refine ⟨fun x => [x.getD 2 0, x.getD 1 0, x.getD 0 0, x.getD 3 0], h1, h2, ?_, ?_, ?_⟩
      · intro x hx
        obtain ⟨x0, x1, x2, x3, rfl, b0, b1, b2, b3⟩ := hx4 x hx
        refine ⟨List.Forall₂.cons b2 (List.Forall₂.cons b1 (List.Forall₂.cons b0 (List.Forall₂.cons b3 List.Forall₂.nil))), ?_⟩
        unfold transpose at h3
        split_ifs at h3
        rw [Option.some.injEq] at h3
        rw [← h3, ha]
        rfl
      · intro x x' hx hx'
        obtain ⟨x0, x1, x2, x3, rfl, _⟩ := hx4 x hx
        obtain ⟨y0, y1, y2, y3, rfl, _⟩ := hx4 x' hx'
        simp
        tauto
      · intro S h x hx
        simp at h hx
        rcases hx with rfl | rfl | rfl | rfl <;> tauto

theorem Topology_lens {p : Platform} {devs locals : List Dev} {g l : List Nat} (ht : Topology p devs locals g l) :
    g.length = l.length := by
  rcases ht with ht | ht
  · rw [ht.rank, ht.lrank]
  · rw [ht.lbound]

/-- C40: two devices are in the same row (same 'data' coordinate, hence together one model replica) exactly if they lie in
the same aligned box of the size of the model-parallel submesh. -/
theorem C40_rows {p : Platform} {m g l : List Nat} {devs locals : List Dev} {tile : Bool} {e : NDArray (Option Dev)}
    (ht : Topology p devs locals g l) (hlen : m.length = g.length) (h : getMesh p m devs locals tile = .ok e)
    (d d' : Dev) (hd : d ∈ devs) (hd' : d' ∈ devs) (r c r' c' : Nat)
    (hr : r < g.prod / m.prod) (hc : c < m.prod) (hr' : r' < g.prod / m.prod) (hc' : c' < m.prod)
    (h1 : e.get [r, c] = some d) (h2 : e.get [r', c'] = some d') :
    r = r' ↔ List.zipWith (fun u v => u / v) (getCoords p d) m = List.zipWith (fun u v => u / v) (getCoords p d') m := by
  obtain ⟨o, ho, hm, hl, hb⟩ := getMesh_ok ht h
  have hfill := ht.fills.1
  have hbx : InBox g (getCoords p d) := (hfill.mem _).mp ⟨d, hd, rfl⟩
  have hbx' : InBox g (getCoords p d') := (hfill.mem _).mp ⟨d', hd', rfl⟩
  obtain ⟨hen, hsh, hgp, hmp, hgl, hml⟩ := orient_enumerates hfill.enumerates rfl ho
  obtain ⟨σ, s1, s2, s3, s4, s5⟩ := orient_sigma (g := g) (a := place p g devs) rfl ho hlen.symm
  have hgl' : g.length = (o.g).length := hgl.symm
  -- in the tiled case nothing was reordered, so the local bounds belong to the axes
  obtain ⟨l', hl'len, hl'm, hbl⟩ : ∃ l' : List Nat, o.g.length = l'.length ∧
      (∀ x ∈ List.zipWith (fun x y => x % y) o.g l', x = 0) ∧
      ((∃ ts, tileTuples o.g o.m l' = some ts ∧ blocks 4 o.g.length ts o.m o.devices = .ok e) ∨
       blocks 2 o.g.length (List.zipWith (fun x y => [x / y, y]) o.g o.m) o.m o.devices = .ok e) := by
    rcases hb with ⟨hti, ts, hts, hb⟩ | ⟨hti, hb⟩
    · rcases orient_cases ho with ⟨rfl, _⟩ | ⟨_, _, _, _, _, _, _, _, _, hf, _⟩
      · exact ⟨l, Topology_lens ht, hl, Or.inl ⟨ts, hts, hb⟩⟩
      · rw [hf] at hti; cases hti
    · rw [hgl'] at hb
      refine ⟨o.g, rfl, ?_, Or.inr hb⟩
      intro x hx
      generalize o.g = q at hx
      clear * - hx
      induction q with
      | nil => cases hx
      | cons a l ih =>
        rcases List.mem_cons.mp hx with rfl | hx
        · exact Nat.mod_self a
        · exact ih hx
  obtain ⟨ax, e1, e2, e3⟩ := exists_ax o.g o.m l' (by rw [hgl, hml, hlen]; rfl) hl'len
  have haxl : ax.length = o.g.length := by rw [← e1, List.length_map]
  obtain ⟨pos, hpos⟩ := layout_rows (ax := ax) (a := o.devices) (e := e) (l := l') (by rw [e1, hgp]; exact ht.fills.2)
    (by rw [e1]; exact hsh) e3 (by rw [e1, e2, s1, s2]; exact s5 _ hm) (by rw [e1]; exact hl'm)
    (by rw [e1, e2, haxl]; exact hbl)
  rw [e1, e2, hgp, hmp, s1, s2] at hpos
  obtain ⟨x1, x2⟩ := s3 _ hbx
  obtain ⟨y1, y2⟩ := s3 _ hbx'
  obtain ⟨p1, p2, p3, p4⟩ := hpos _ x1
  obtain ⟨q1, q2, q3, _⟩ := hpos _ y1
  rw [x2, hfill.place_get d hd] at p3
  rw [y2, hfill.place_get d' hd'] at q3
  obtain ⟨rfl, rfl⟩ := position_unique ht h d hd _ _ _ _ hr hc p1 p2 h1 p3
  obtain ⟨rfl, rfl⟩ := position_unique ht h d' hd' _ _ _ _ hr' hc' q1 q2 h2 q3
  rw [p4 _ y1]
  exact s4 _ _ hbx hbx'

theorem div_ravel_append {s1 s2 i1 i2 : List Nat} (h1 : i1.length = s1.length) (h2 : InBox s2 i2) :
    ravel (s1 ++ s2) (i1 ++ i2) / s2.prod = ravel s1 i1 := by
  have hlt := ravel_lt h2
  rw [ravel_append h1, Nat.add_comm, Nat.add_mul_div_right _ _ (by omega), Nat.div_eq_of_lt hlt, Nat.zero_add]

/-- The tiled layout: the positions of a host are one aligned block. -/
theorem layout_hosts {ax : List Ax} {a e : NDArray (Option Dev)} {l : List Nat} (hgpos : 0 < (ax.map Ax.g).prod)
    (ha : a.shape = ax.map Ax.g) (hl : ax.map Ax.l = l)
    (hm : ∀ x ∈ List.zipWith (fun x y => x % y) (ax.map Ax.g) (ax.map Ax.m), x = 0)
    (hlm : ∀ x ∈ List.zipWith (fun x y => x % y) (ax.map Ax.g) l, x = 0)
    (ts : List (List Nat)) (h1 : tileTuples (ax.map Ax.g) (ax.map Ax.m) l = some ts)
    (h2 : blocks 4 ax.length ts (ax.map Ax.m) a = .ok e) :
    ∃ A B, A * B = l.prod ∧ A ∣ (ax.map Ax.g).prod / (ax.map Ax.m).prod ∧ B ∣ (ax.map Ax.m).prod ∧
    ∃ pos : List Nat → Nat × Nat, ∀ x, InBox (ax.map Ax.g) x →
      (pos x).1 < (ax.map Ax.g).prod / (ax.map Ax.m).prod ∧ (pos x).2 < (ax.map Ax.m).prod ∧
      e.get [(pos x).1, (pos x).2] = a.get x ∧
      ∀ x', InBox (ax.map Ax.g) x' → (((pos x).1 / A = (pos x').1 / A ∧ (pos x).2 / B = (pos x').2 / B) ↔
        List.zipWith (fun u v => u / v) x l = List.zipWith (fun u v => u / v) x' l) := by
  have hmd := ax_dvd hgpos hm
  subst hl
  have hld := ax_dvd hgpos hlm
  obtain ⟨hg, rfl⟩ := tileTuples_ax hmd hld ts h1
  have hmpos : 0 < (ax.map Ax.m).prod := by
    clear * - hmd
    induction ax with
    | nil => simp
    | cons a ax ih =>
      rw [List.map_cons, List.prod_cons]
      exact Nat.mul_pos (hmd a (List.mem_cons_self ..)).2.1 (ih (fun b hb => hmd b (List.mem_cons_of_mem _ hb)))
  have hquot : (ax.map Ax.g).prod / (ax.map Ax.m).prod = (ax.map Ax.dh).prod * (ax.map Ax.dd).prod := by
    have : (ax.map Ax.dh).prod * (ax.map Ax.dd).prod * (ax.map Ax.m).prod = (ax.map Ax.g).prod := by
      rw [← List.prod_map_mul, ← List.prod_map_mul]
      congr 1
      exact List.map_congr_left (fun b hb => (hg b hb).facts.1)
    rw [← this, Nat.mul_div_cancel _ hmpos]
  have hM : (ax.map Ax.mh).prod * (ax.map Ax.md).prod = (ax.map Ax.m).prod := by
    rw [← List.prod_map_mul]
    congr 1
    exact List.map_congr_left (fun b hb => (hg b hb).facts.2.1)
  refine ⟨(ax.map Ax.dd).prod, (ax.map Ax.md).prod, ?_, ?_, ?_, ?_⟩
  · rw [← List.prod_map_mul]
    congr 1
    exact List.map_congr_left (fun b hb => (hg b hb).facts.2.2.1)
  · rw [hquot]; exact Nat.dvd_mul_left _ _
  · rw [← hM]; exact Nat.dvd_mul_left _ _
  refine ⟨fun x => (ravel (ax.map Ax.dh ++ ax.map Ax.dd) (List.zipWith Ax.xdh ax x ++ List.zipWith Ax.xdd ax x),
    ravel (ax.map Ax.mh ++ ax.map Ax.md) (List.zipWith Ax.xmh ax x ++ List.zipWith Ax.xmd ax x)), ?_⟩
  intro x hx
  have b1 : ∀ x, InBox (ax.map Ax.g) x → InBox (ax.map Ax.dh) (List.zipWith Ax.xdh ax x) := fun x hx =>
    zw_inBox hx Ax.dh Ax.xdh (fun b hb u hu => ((hg b hb).digits u hu).1)
  have b2 : ∀ x, InBox (ax.map Ax.g) x → InBox (ax.map Ax.dd) (List.zipWith Ax.xdd ax x) := fun x hx =>
    zw_inBox hx Ax.dd Ax.xdd (fun b hb u hu => ((hg b hb).digits u hu).2.1)
  have b3 : ∀ x, InBox (ax.map Ax.g) x → InBox (ax.map Ax.mh) (List.zipWith Ax.xmh ax x) := fun x hx =>
    zw_inBox hx Ax.mh Ax.xmh (fun b hb u hu => ((hg b hb).digits u hu).2.2.1)
  have b4 : ∀ x, InBox (ax.map Ax.g) x → InBox (ax.map Ax.md) (List.zipWith Ax.xmd ax x) := fun x hx =>
    zw_inBox hx Ax.md Ax.xmd (fun b hb u hu => ((hg b hb).digits u hu).2.2.2.1)
  refine ⟨?_, ?_, pos4 hg ha hx h2, ?_⟩
  · have := ravel_lt ((b1 x hx).append (b2 x hx))
    rw [List.prod_append] at this
    rw [hquot]; exact this
  · have := ravel_lt ((b3 x hx).append (b4 x hx))
    rw [List.prod_append, hM] at this
    exact this
  · intro x' hx'
    dsimp only
    rw [div_ravel_append (b1 x hx).length (b2 x hx), div_ravel_append (b1 x' hx').length (b2 x' hx'),
      div_ravel_append (b3 x hx).length (b4 x hx), div_ravel_append (b3 x' hx').length (b4 x' hx'),
      ravel_inj (b1 x hx) (b1 x' hx'), ravel_inj (b3 x hx) (b3 x' hx'), zipWith_swap, zipWith_swap,
      ← zw2_iff hx hx' Ax.xdh Ax.xmh (fun a u => u / a.l)]
    intro b hb u v hu hv
    obtain ⟨_, _, _, _, _, f6, _⟩ := (hg b hb).facts
    obtain ⟨_, _, u3, _, _, u6⟩ := (hg b hb).digits u hu
    obtain ⟨_, _, v3, _, _, v6⟩ := (hg b hb).digits v hv
    rw [u6, v6]
    constructor
    · rintro ⟨e1, e2⟩; rw [e1, e2]
    · intro e0
      have e1 : b.xdh u = b.xdh v := by
        have : (b.xdh u * b.mh + b.xmh u) / b.mh = (b.xdh v * b.mh + b.xmh v) / b.mh := by rw [e0]
        rw [Nat.add_comm, Nat.add_mul_div_right _ _ f6, Nat.div_eq_of_lt u3, Nat.add_comm (b.xdh v * b.mh),
          Nat.add_mul_div_right _ _ f6, Nat.div_eq_of_lt v3] at this
        omega
      rw [e1] at e0
      exact ⟨e1, by omega⟩

theorem zy_iff {gy ly z z' y y' : Nat} (hd : ly ∣ gy) (hy : y < gy) (hy' : y' < gy) :
    (z * gy + y) / ly = (z' * gy + y') / ly ↔ z = z' ∧ y / ly = y' / ly := by
  obtain ⟨q, rfl⟩ := hd
  have hl : 0 < ly := Nat.pos_of_ne_zero (by rintro rfl; simp at hy)
  have h1 : y / ly < q := Nat.div_lt_of_lt_mul hy
  have h2 : y' / ly < q := Nat.div_lt_of_lt_mul hy'
  have e1 : ∀ z y, (z * (ly * q) + y) / ly = y / ly + z * q := by
    intro z y
    rw [show z * (ly * q) + y = y + ly * (z * q) by ring, Nat.add_mul_div_left _ _ hl]
  rw [e1, e1]
  constructor
  · intro h
    have h3 : z = z' := by
      have : (y / ly + z * q) / q = (y' / ly + z' * q) / q := by rw [h]
      rw [Nat.add_mul_div_right _ _ (Nat.zero_lt_of_lt h1), Nat.add_mul_div_right _ _ (Nat.zero_lt_of_lt h1), Nat.div_eq_of_lt h1,
        Nat.div_eq_of_lt h2] at this
      omega
    subst h3
    exact ⟨rfl, by omega⟩
  · rintro ⟨rfl, h⟩; rw [h]

theorem div_cores {a c gc k : Nat} (hc : c < gc) : (a * gc + c) / (k * gc) = a / k := by
  rw [Nat.mul_comm k gc, ← Nat.div_div_eq_div_mul, Nat.add_comm, Nat.add_mul_div_right _ _ (by omega), Nat.div_eq_of_lt hc, Nat.zero_add]

theorem inBox4 {gx gy gz gc : Nat} {x : List Nat} (hx : InBox [gx, gy, gz, gc] x) :
    ∃ a b c d, x = [a, b, c, d] ∧ a < gx ∧ b < gy ∧ c < gz ∧ d < gc := by
  cases hx with
  | cons h1 hx => cases hx with
    | cons h2 hx => cases hx with
      | cons h3 hx => cases hx with
        | cons h4 hx => cases hx; exact ⟨_, _, _, _, rfl, h1, h2, h3, h4⟩

theorem pos2_4 {h0 h1 h2 h3 m0 m1 m2 m3 : Nat} {b e : NDArray (Option Dev)} (hs : b.shape = [h0, h1, h2, h3])
    (hb : blocks 2 4 (List.zipWith (fun x y => [x / y, y]) [h0, h1, h2, h3] [m0, m1, m2, m3]) [m0, m1, m2, m3] b = .ok e)
    (d0 : m0 ∣ h0) (d1 : m1 ∣ h1) (d2 : m2 ∣ h2) (d3 : m3 ∣ h3) (p0 : 0 < m0) (p1 : 0 < m1) (p2 : 0 < m2) (p3 : 0 < m3) :
    ∀ y0 y1 y2 y3, y0 < h0 → y1 < h1 → y2 < h2 → y3 < h3 →
      e.get [ravel [h0 / m0, h1 / m1, h2 / m2, h3 / m3] [y0 / m0, y1 / m1, y2 / m2, y3 / m3],
        ravel [m0, m1, m2, m3] [y0 % m0, y1 % m1, y2 % m2, y3 % m3]] = b.get [y0, y1, y2, y3] := by
  intro y0 y1 y2 y3 k0 k1 k2 k3
  refine pos2 (ax := [⟨h0, m0, 1⟩, ⟨h1, m1, 1⟩, ⟨h2, m2, 1⟩, ⟨h3, m3, 1⟩]) (x := [y0, y1, y2, y3]) ?_ hs ?_ hb
  · intro a ha
    simp only [List.mem_cons, List.not_mem_nil, or_false] at ha
    rcases ha with rfl | rfl | rfl | rfl
    · exact ⟨d0, p0⟩
    · exact ⟨d1, p1⟩
    · exact ⟨d2, p2⟩
    · exact ⟨d3, p3⟩
  · exact List.Forall₂.cons k0 (List.Forall₂.cons k1 (List.Forall₂.cons k2 (List.Forall₂.cons k3 List.Forall₂.nil)))

theorem swap1_get {a b : NDArray (Option Dev)} {gx gy gz gc : Nat} (ha : a.shape = [gx, gy, gz, gc])
    (h : transpose a [0, 2, 1, 3] = some b) :
    b.shape = [gx, gz, gy, gc] ∧ ∀ x y z c, b.get [x, z, y, c] = a.get [x, y, z, c] := by
  unfold transpose at h
  split_ifs at h
  rw [Option.some.injEq] at h
  rw [← h, ha]
  exact ⟨rfl, fun _ _ _ _ => rfl⟩

theorem swap2_get {a b : NDArray (Option Dev)} {gx gy gz gc : Nat} (ha : a.shape = [gx, gy, gz, gc])
    (h : transpose a [2, 1, 0, 3] = some b) :
    b.shape = [gz, gy, gx, gc] ∧ ∀ x y z c, b.get [z, y, x, c] = a.get [x, y, z, c] := by
  unfold transpose at h
  split_ifs at h
  rw [Option.some.injEq] at h
  rw [← h, ha]
  exact ⟨rfl, fun _ _ _ _ => rfl⟩

/-- The goal of the four reordered layouts. -/
def HostRects (g m l : List Nat) (e a : NDArray (Option Dev)) : Prop :=
  ∃ A B, A * B = l.prod ∧ A ∣ g.prod / m.prod ∧ B ∣ m.prod ∧
      ∃ pos : List Nat → Nat × Nat, ∀ x, InBox g x →
        (pos x).1 < g.prod / m.prod ∧ (pos x).2 < m.prod ∧ e.get [(pos x).1, (pos x).2] = a.get x ∧
        ∀ x', InBox g x' → (((pos x).1 / A = (pos x').1 / A ∧ (pos x).2 / B = (pos x').2 / B) ↔
          List.zipWith (fun u v => u / v) x l = List.zipWith (fun u v => u / v) x' l)

theorem hostRects_of {gx gy gz gc lx ly A B : Nat} {m : List Nat} {e a : NDArray (Option Dev)} (R C : Nat → Nat → Nat → Nat → Nat)
    (hAB : A * B = [lx, ly, 1, gc].prod) (hA : A ∣ [gx, gy, gz, gc].prod / m.prod) (hB : B ∣ m.prod)
    (h : ∀ x y z c, x < gx → y < gy → z < gz → c < gc →
      R x y z c < [gx, gy, gz, gc].prod / m.prod ∧ C x y z c < m.prod ∧ e.get [R x y z c, C x y z c] = a.get [x, y, z, c] ∧
      ∀ x' y' z' c', x' < gx → y' < gy → z' < gz → c' < gc →
        ((R x y z c / A = R x' y' z' c' / A ∧ C x y z c / B = C x' y' z' c' / B) ↔ x / lx = x' / lx ∧ y / ly = y' / ly ∧ z = z')) :
    HostRects [gx, gy, gz, gc] m [lx, ly, 1, gc] e a := by
  refine ⟨A, B, hAB, hA, hB, fun x => (R (x.getD 0 0) (x.getD 1 0) (x.getD 2 0) (x.getD 3 0),
    C (x.getD 0 0) (x.getD 1 0) (x.getD 2 0) (x.getD 3 0)), ?_⟩
  intro x hx
  obtain ⟨x0, x1, x2, x3, rfl, b0, b1, b2, b3⟩ := inBox4 hx
  obtain ⟨q1, q2, q3, q4⟩ := h x0 x1 x2 x3 b0 b1 b2 b3
  refine ⟨q1, q2, q3, ?_⟩
  intro x' hx'
  obtain ⟨y0, y1, y2, y3, rfl, c0, c1, c2, c3⟩ := inBox4 hx'
  refine (q4 y0 y1 y2 y3 c0 c1 c2 c3).trans ?_
  simp only [List.zipWith_cons_cons, List.zipWith_nil_right, Nat.div_one, List.cons.injEq, and_true,
    Nat.div_eq_of_lt b3, Nat.div_eq_of_lt c3]

theorem lin_lt {a b A B : Nat} (ha : a < A) (hb : b < B) : a * B + b < A * B := by
  calc a * B + b < a * B + B := by omega
    _ = (a + 1) * B := by ring
    _ ≤ A * B := Nat.mul_le_mul_right _ ha

theorem zmaj_1a {gx gy gz gc lx ly : Nat} {b a e : NDArray (Option Dev)}
    (hp : ∀ y0 y1 y2 y3, y0 < gx → y1 < gz → y2 < gy → y3 < gc →
      e.get [ravel [gx / gx, gz / 1, gy / 1, gc / gc] [y0 / gx, y1 / 1, y2 / 1, y3 / gc],
        ravel [gx, 1, 1, gc] [y0 % gx, y1 % 1, y2 % 1, y3 % gc]] = b.get [y0, y1, y2, y3])
    (hg : ∀ x y z c, b.get [x, z, y, c] = a.get [x, y, z, c]) (dx : lx ∣ gx) (dy : ly ∣ gy) (px : 0 < gx) (pc : 0 < gc) :
    HostRects [gx, gy, gz, gc] [gx, 1, 1, gc] [lx, ly, 1, gc] e a := by
  have hq : [gx, gy, gz, gc].prod / [gx, 1, 1, gc].prod = gz * gy := by
    simp only [List.prod_cons, List.prod_nil, Nat.mul_one, Nat.one_mul]
    rw [show gx * (gy * (gz * gc)) = gx * gc * (gz * gy) by ring, Nat.mul_div_cancel_left _ (Nat.mul_pos px pc)]
  refine hostRects_of (A := ly) (B := lx * gc) (fun _ y z _ => z * gy + y) (fun x _ _ c => x * gc + c) ?_ ?_ ?_ ?_
  · simp; ring
  · rw [hq]; exact Dvd.dvd.mul_left dy _
  · simp; exact Nat.mul_dvd_mul_right dx gc
  · intro x y z c hx hy hz hc
    refine ⟨by rw [hq]; exact lin_lt hz hy, by simpa using lin_lt hx hc, ?_, ?_⟩
    · rw [← hg, ← hp x z y c hx hz hy hc]
      simp [ravel, Nat.div_self pc, Nat.div_eq_of_lt hx, Nat.div_eq_of_lt hc, Nat.mod_eq_of_lt hx, Nat.mod_eq_of_lt hc, Nat.mod_one]
    · intro x' y' z' c' hx' hy' hz' hc'
      rw [zy_iff dy hy hy', div_cores hc, div_cores hc']
      tauto

theorem zmaj_1b {gx gy gz gc lx ly : Nat} {b a e : NDArray (Option Dev)}
    (hp : ∀ y0 y1 y2 y3, y0 < gx → y1 < gz → y2 < gy → y3 < gc →
      e.get [ravel [gx / 1, gz / gz, gy / gy, gc / gc] [y0 / 1, y1 / gz, y2 / gy, y3 / gc],
        ravel [1, gz, gy, gc] [y0 % 1, y1 % gz, y2 % gy, y3 % gc]] = b.get [y0, y1, y2, y3])
    (hg : ∀ x y z c, b.get [x, z, y, c] = a.get [x, y, z, c]) (dx : lx ∣ gx) (dy : ly ∣ gy) (py : 0 < gy) (pz : 0 < gz)
    (pc : 0 < gc) :
    HostRects [gx, gy, gz, gc] [1, gy, gz, gc] [lx, ly, 1, gc] e a := by
  have hq : [gx, gy, gz, gc].prod / [1, gy, gz, gc].prod = gx := by
    simp only [List.prod_cons, List.prod_nil, Nat.mul_one, Nat.one_mul]
    rw [Nat.mul_div_cancel _ (Nat.mul_pos py (Nat.mul_pos pz pc))]
  refine hostRects_of (A := lx) (B := ly * gc) (fun x _ _ _ => x) (fun _ y z c => (z * gy + y) * gc + c) ?_ ?_ ?_ ?_
  · simp
  · rw [hq]; exact dx
  · simp only [List.prod_cons, List.prod_nil, Nat.mul_one, Nat.one_mul]
    rw [show gy * (gz * gc) = gz * (gy * gc) by ring]
    exact Dvd.dvd.mul_left (Nat.mul_dvd_mul_right dy gc) _
  · intro x y z c hx hy hz hc
    refine ⟨by rw [hq]; exact hx, ?_, ?_, ?_⟩
    · simp only [List.prod_cons, List.prod_nil, Nat.mul_one, Nat.one_mul]
      rw [show gy * (gz * gc) = (gz * gy) * gc by ring]
      exact lin_lt (lin_lt hz hy) hc
    · rw [← hg, ← hp x z y c hx hz hy hc]
      simp [ravel, Nat.div_self pc, Nat.div_self py, Nat.div_self pz, Nat.div_eq_of_lt hz, Nat.div_eq_of_lt hy, Nat.div_eq_of_lt hc,
        Nat.mod_eq_of_lt hz, Nat.mod_eq_of_lt hy, Nat.mod_eq_of_lt hc, Nat.mod_one]
      congr 3; ring
    · intro x' y' z' c' hx' hy' hz' hc'
      rw [div_cores hc, div_cores hc', zy_iff dy hy hy']
      tauto

theorem zmaj_2a {gx gy gz gc lx ly : Nat} {b a e : NDArray (Option Dev)}
    (hp : ∀ y0 y1 y2 y3, y0 < gz → y1 < gy → y2 < gx → y3 < gc →
      e.get [ravel [gz / 1, gy / gy, gx / 1, gc / gc] [y0 / 1, y1 / gy, y2 / 1, y3 / gc],
        ravel [1, gy, 1, gc] [y0 % 1, y1 % gy, y2 % 1, y3 % gc]] = b.get [y0, y1, y2, y3])
    (hg : ∀ x y z c, b.get [z, y, x, c] = a.get [x, y, z, c]) (dx : lx ∣ gx) (dy : ly ∣ gy) (py : 0 < gy) (pc : 0 < gc) :
    HostRects [gx, gy, gz, gc] [1, gy, 1, gc] [lx, ly, 1, gc] e a := by
  have hq : [gx, gy, gz, gc].prod / [1, gy, 1, gc].prod = gz * gx := by
    simp only [List.prod_cons, List.prod_nil, Nat.mul_one, Nat.one_mul]
    rw [show gx * (gy * (gz * gc)) = gy * gc * (gz * gx) by ring, Nat.mul_div_cancel_left _ (Nat.mul_pos py pc)]
  refine hostRects_of (A := lx) (B := ly * gc) (fun x _ z _ => z * gx + x) (fun _ y _ c => y * gc + c) ?_ ?_ ?_ ?_
  · simp
  · rw [hq]; exact Dvd.dvd.mul_left dx _
  · simp; exact Nat.mul_dvd_mul_right dy gc
  · intro x y z c hx hy hz hc
    refine ⟨by rw [hq]; exact lin_lt hz hx, by simpa using lin_lt hy hc, ?_, ?_⟩
    · rw [← hg, ← hp z y x c hz hy hx hc]
      simp [ravel, Nat.div_self pc, Nat.div_self py, Nat.div_eq_of_lt hy, Nat.div_eq_of_lt hc, Nat.mod_eq_of_lt hy, Nat.mod_eq_of_lt hc, Nat.mod_one]
    · intro x' y' z' c' hx' hy' hz' hc'
      rw [zy_iff dx hx hx', div_cores hc, div_cores hc']
      tauto

theorem zmaj_2b {gx gy gz gc lx ly : Nat} {b a e : NDArray (Option Dev)}
    (hp : ∀ y0 y1 y2 y3, y0 < gz → y1 < gy → y2 < gx → y3 < gc →
      e.get [ravel [gz / gz, gy / 1, gx / gx, gc / gc] [y0 / gz, y1 / 1, y2 / gx, y3 / gc],
        ravel [gz, 1, gx, gc] [y0 % gz, y1 % 1, y2 % gx, y3 % gc]] = b.get [y0, y1, y2, y3])
    (hg : ∀ x y z c, b.get [z, y, x, c] = a.get [x, y, z, c]) (dx : lx ∣ gx) (dy : ly ∣ gy) (px : 0 < gx) (pz : 0 < gz)
    (pc : 0 < gc) :
    HostRects [gx, gy, gz, gc] [gx, 1, gz, gc] [lx, ly, 1, gc] e a := by
  have hq : [gx, gy, gz, gc].prod / [gx, 1, gz, gc].prod = gy := by
    simp only [List.prod_cons, List.prod_nil, Nat.mul_one, Nat.one_mul]
    rw [show gx * (gy * (gz * gc)) = gy * (gx * (gz * gc)) by ring, Nat.mul_div_cancel _ (Nat.mul_pos px (Nat.mul_pos pz pc))]
  refine hostRects_of (A := ly) (B := lx * gc) (fun _ y _ _ => y) (fun x _ z c => (z * gx + x) * gc + c) ?_ ?_ ?_ ?_
  · simp; ring
  · rw [hq]; exact dy
  · simp only [List.prod_cons, List.prod_nil, Nat.mul_one, Nat.one_mul]
    rw [show gx * (gz * gc) = gz * (gx * gc) by ring]
    exact Dvd.dvd.mul_left (Nat.mul_dvd_mul_right dx gc) _
  · intro x y z c hx hy hz hc
    refine ⟨by rw [hq]; exact hy, ?_, ?_, ?_⟩
    · simp only [List.prod_cons, List.prod_nil, Nat.mul_one, Nat.one_mul]
      rw [show gx * (gz * gc) = (gz * gx) * gc by ring]
      exact lin_lt (lin_lt hz hx) hc
    · rw [← hg, ← hp z y x c hz hy hx hc]
      simp [ravel, Nat.div_self pc, Nat.div_self px, Nat.div_self pz, Nat.div_eq_of_lt hz, Nat.div_eq_of_lt hx, Nat.div_eq_of_lt hc,
        Nat.mod_eq_of_lt hz, Nat.mod_eq_of_lt hx, Nat.mod_eq_of_lt hc, Nat.mod_one]
      congr 3; ring
    · intro x' y' z' c' hx' hy' hz' hc'
      rw [div_cores hc, div_cores hc', zy_iff dx hx hx']
      tauto

/-- C40: with host tiling enabled, the devices of every host form one aligned rectangle of the mesh, `A` rows by `B`
columns, and different hosts have different rectangles. When the axes are reordered instead of tiled (`ZMajor`), this
needs hosts that own one layer of chips with all their cores. -/
theorem C40_hosts {p : Platform} {m g l : List Nat} {devs locals : List Dev} {e : NDArray (Option Dev)}
    (ht : Tpu p devs locals g l) (hlen : m.length = g.length) (hhost : HostBoxes p devs l)
    (hz : ZMajor g m → l.getD 2 0 = 1 ∧ l.getD 3 0 = g.getD 3 0)
    (h : getMesh p m devs locals true = .ok e) :
    ∃ A B, A * B = l.prod ∧ A ∣ g.prod / m.prod ∧ B ∣ m.prod ∧
    ∀ d d', d ∈ devs → d' ∈ devs → ∀ r c r' c',
      r < g.prod / m.prod → c < m.prod → r' < g.prod / m.prod → c' < m.prod →
      e.get [r, c] = some d → e.get [r', c'] = some d' →
      (d.process = d'.process ↔ r / A = r' / A ∧ c / B = c' / B) := by
  have htop : Topology p devs locals g l := Or.inl ht
  obtain ⟨o, ho, hm, hl, hb⟩ := getMesh_ok htop h
  have hfill := ht.fills
  suffices hs : ∃ A B, A * B = l.prod ∧ A ∣ g.prod / m.prod ∧ B ∣ m.prod ∧
      ∃ pos : List Nat → Nat × Nat, ∀ x, InBox g x →
        (pos x).1 < g.prod / m.prod ∧ (pos x).2 < m.prod ∧ e.get [(pos x).1, (pos x).2] = (place p g devs).get x ∧
        ∀ x', InBox g x' → (((pos x).1 / A = (pos x').1 / A ∧ (pos x).2 / B = (pos x').2 / B) ↔
          List.zipWith (fun u v => u / v) x l = List.zipWith (fun u v => u / v) x' l) by
    obtain ⟨A, B, hAB, hA, hB, pos, hpos⟩ := hs
    refine ⟨A, B, hAB, hA, hB, ?_⟩
    intro d d' hd hd' r c r' c' hr hc hr' hc' h1 h2
    have hbx : InBox g (getCoords p d) := (hfill.mem _).mp ⟨d, hd, rfl⟩
    have hbx' : InBox g (getCoords p d') := (hfill.mem _).mp ⟨d', hd', rfl⟩
    obtain ⟨p1, p2, p3, p4⟩ := hpos _ hbx
    obtain ⟨q1, q2, q3, _⟩ := hpos _ hbx'
    rw [hfill.place_get d hd] at p3
    rw [hfill.place_get d' hd'] at q3
    obtain ⟨rfl, rfl⟩ := position_unique htop h d hd _ _ _ _ hr hc p1 p2 h1 p3
    obtain ⟨rfl, rfl⟩ := position_unique htop h d' hd' _ _ _ _ hr' hc' q1 q2 h2 q3
    rw [p4 _ hbx']
    exact hhost d hd d' hd'
  rcases orient_cases ho with ⟨rfl, _⟩ | ⟨gx, gy, gz, gc, mx, my, mz, rfl, rfl, hf, hc⟩
  · rcases hb with ⟨_, ts, hts, hb⟩ | ⟨hti, _⟩
    · obtain ⟨ax, e1, e2, e3⟩ := exists_ax g m l hlen.symm (Topology_lens htop)
      have haxl : ax.length = g.length := by rw [← e1, List.length_map]
      obtain ⟨A, B, k1, k2, k3, pos, k4⟩ := layout_hosts (ax := ax) (a := place p g devs) (e := e) (l := l) (by rw [e1]; exact ht.pos)
        (by rw [e1]; rfl) e3 (by rw [e1, e2]; exact hm) (by rw [e1]; exact hl) ts (by rw [e1, e2]; exact hts)
        (by rw [e2, haxl]; exact hb)
      rw [e1, e2] at k2 k4
      rw [e2] at k3
      exact ⟨A, B, k1, k2, k3, pos, k4⟩
    · cases hti
  · have hzm : ZMajor [gx, gy, gz, gc] [mx, my, mz, gc] := ⟨gx, gy, gz, gc, mx, my, mz, gc, rfl, rfl, by
      rcases hc with ⟨hc | hc, _⟩ | ⟨hc | hc, _⟩
      · exact Or.inl hc
      · exact Or.inr (Or.inl hc)
      · exact Or.inr (Or.inr (Or.inl hc))
      · exact Or.inr (Or.inr (Or.inr hc))⟩
    obtain ⟨hz1, hz2⟩ := hz hzm
    have hb2 : blocks 2 4 (List.zipWith (fun x y => [x / y, y]) o.g o.m) o.m o.devices = .ok e := by
      rcases hb with ⟨hti, _⟩ | ⟨_, hb⟩
      · rw [hf] at hti; cases hti
      · exact hb
    have hll := ht.lrank
    match l, hll with
    | [lx, ly, lz, lc], _ =>
    simp only [List.getD_cons_zero, List.getD_cons_succ] at hz1 hz2
    subst hz1
    subst hz2
    simp only [List.zipWith_cons_cons, List.zipWith_nil_right, List.mem_cons, List.not_mem_nil, or_false,
      forall_eq_or_imp, forall_eq] at hl hm
    have hgp := ht.pos
    have hlp := ht.lpos
    simp only [List.prod_cons, List.prod_nil, Nat.mul_one] at hgp hlp
    have pgx : 0 < gx := Nat.pos_of_ne_zero (by rintro rfl; simp at hgp)
    have pgy : 0 < gy := Nat.pos_of_ne_zero (by rintro rfl; simp at hgp)
    have pgz : 0 < gz := Nat.pos_of_ne_zero (by rintro rfl; simp at hgp)
    have pgc : 0 < lc := Nat.pos_of_ne_zero (by rintro rfl; simp at hgp)
    have dx : lx ∣ gx := Nat.dvd_of_mod_eq_zero hl.1
    have dy : ly ∣ gy := Nat.dvd_of_mod_eq_zero hl.2.1
    rcases hc with ⟨hc, h1, h2, h3⟩ | ⟨hc, h1, h2, h3⟩
    · have hget := swap1_get (a := place p [gx, gy, gz, lc] devs) rfl h3
      rw [h1, h2] at hb2
      rcases hc with ⟨rfl, _, rfl, rfl⟩ | ⟨rfl, rfl, _, rfl, _⟩
      · have hp := pos2_4 hget.1 hb2 (Nat.dvd_refl _) (Nat.one_dvd _) (Nat.one_dvd _) (Nat.dvd_refl _) pgx Nat.one_pos Nat.one_pos pgc
        exact zmaj_1a hp hget.2 dx dy pgx pgc
      · have hp := pos2_4 hget.1 hb2 (Nat.one_dvd _) (Nat.dvd_refl _) (Nat.dvd_refl _) (Nat.dvd_refl _) Nat.one_pos pgz pgy pgc
        exact zmaj_1b hp hget.2 dx dy pgy pgz pgc
    · have hget := swap2_get (a := place p [gx, gy, gz, lc] devs) rfl h3
      rw [h1, h2] at hb2
      rcases hc with ⟨rfl, _, rfl, rfl⟩ | ⟨rfl, rfl, _, rfl, _⟩
      · have hp := pos2_4 hget.1 hb2 (Nat.one_dvd _) (Nat.dvd_refl _) (Nat.one_dvd _) (Nat.dvd_refl _) Nat.one_pos pgy Nat.one_pos pgc
        exact zmaj_2a hp hget.2 dx dy pgy pgc
      · have hp := pos2_4 hget.1 hb2 (Nat.dvd_refl _) (Nat.one_dvd _) (Nat.dvd_refl _) (Nat.dvd_refl _) pgz Nat.one_pos pgx pgc
        exact zmaj_2b hp hget.2 dx dy pgx pgz pgc

theorem zipWith_prod_dvd : ∀ (g m : List Nat), g.length = m.length → (∀ x ∈ List.zipWith (fun x y => x % y) g m, x = 0) →
    m.prod ∣ g.prod
  | [], [], _, _ => by simp
  | a :: g, b :: m, h1, h2 => by
    rw [List.prod_cons, List.prod_cons]
    exact Nat.mul_dvd_mul (Nat.dvd_of_mod_eq_zero (h2 _ (by simp))) (zipWith_prod_dvd g m (by simpa using h1)
      (fun x hx => h2 x (by simp only [List.zipWith_cons_cons]; exact List.mem_cons_of_mem _ hx)))
  | [], _ :: _, h, _ => by simp at h
  | _ :: _, [], h, _ => by simp at h

/-- C40: `get_mesh` succeeds whenever the submesh and the per-host mesh divide the device bounds and, axis by axis, one of
the two divides the other (needed only when the device assignment is tiled by hosts), with all cores of a chip in the
submesh when the axes are reordered. -/
theorem C40_succeeds {p : Platform} {m g l : List Nat} {devs locals : List Dev} {tile : Bool}
    (ht : Topology p devs locals g l) (hlen : m.length = g.length)
    (hm : ∀ x ∈ List.zipWith (fun x y => x % y) g m, x = 0) (hl : ∀ x ∈ List.zipWith (fun x y => x % y) g l, x = 0)
    (hz : ZMajor g m → m.getD 3 0 = g.getD 3 0)
    (htile : tile = true → ¬ ZMajor g m → List.Forall₂ (fun a b => a ∣ b ∨ b ∣ a) m l) :
    ∃ e, getMesh p m devs locals tile = .ok e := by
  obtain ⟨dl, ll, h1, h2, h3, h4⟩ := ht.bounds
  have hany : ∀ q : List Nat, (∀ x ∈ List.zipWith (fun x y => x % y) g q, x = 0) →
      (List.zipWith (fun x y => x % y) g q).any (fun x => decide (x ≠ 0)) = false := by
    intro q hq
    rw [List.any_eq_false]
    intro x hx
    simp [hq x hx]
  have hib := ht.inBounds
  have hunfold : getMesh p m devs locals tile =
      match orient g m (place p g devs) tile with
      | .error e => .error e
      | .ok o =>
        if o.tile then
          match tileTuples o.g o.m l with
          | none => .error .tile
          | some ts => blocks 4 g.length ts o.m o.devices
        else
          blocks 2 g.length (List.zipWith (fun x y => [x / y, y]) o.g o.m) o.m o.devices := by
    unfold getMesh
    simp only [h1, h2, h3, h4]
    rw [if_neg (by rw [hany m hm]; simp), if_neg (by rw [hany l hl]; simp), if_neg (by rw [hib]; simp)]
    rfl
  have hfill := ht.fills
  -- the orientation succeeds
  obtain ⟨o, ho⟩ := orient_ok (g := g) (a := place p g devs) (tile := tile) rfl hlen hz
  rw [hunfold, ho]
  dsimp only
  obtain ⟨hen, hsh, hgp, hmp, hgl, hml⟩ := orient_enumerates hfill.1.enumerates rfl ho
  obtain ⟨σ, s1, s2, s3, s4, s5⟩ := orient_sigma (g := g) (a := place p g devs) rfl ho hlen.symm
  have hdvd : m.prod ∣ g.prod := zipWith_prod_dvd g m hlen.symm hm
  have hmpos : 0 < m.prod := Nat.pos_of_dvd_of_pos hdvd hfill.2
  have hgl2 : o.g.length = g.length := hgl
  by_cases hti : o.tile = true
  · rw [if_pos hti]
    rcases orient_cases ho with ⟨rfl, _, hnz⟩ | ⟨_, _, _, _, _, _, _, _, _, hf, _⟩
    · dsimp only at hti ⊢
      have hdiv := htile hti hnz
      obtain ⟨ax, e1, e2, e3⟩ := exists_ax g m l hlen.symm (Topology_lens ht)
      have hmd := ax_dvd (ax := ax) (S := Ax.m) (by rw [e1]; exact hfill.2) (by rw [e1, e2]; exact hm)
      have hld := ax_dvd (ax := ax) (S := Ax.l) (by rw [e1]; exact hfill.2) (by rw [e1, e3]; exact hl)
      have hg4 : ∀ a ∈ ax, Good4 a := by
        intro a ha
        have hor : a.m ∣ a.l ∨ a.l ∣ a.m := by
          rw [← e2, ← e3] at hdiv
          clear * - hdiv ha
          induction ax with
          | nil => cases ha
          | cons b ax ih =>
            cases hdiv with
            | cons h1 h2 =>
              rcases List.mem_cons.mp ha with rfl | ha
              · exact h1
              · exact ih h2 ha
        obtain ⟨f1, f2, _⟩ := hmd a ha
        obtain ⟨f3, f4, _⟩ := hld a ha
        refine ⟨f1, f3, f2, f4, ?_, ?_⟩
        · intro hge
          rcases hor with h | h
          · have := Nat.le_of_dvd f4 h
            have : a.m = a.l := by omega
            rw [this]
          · exact h
        · intro hlt
          rcases hor with h | h
          · exact h
          · have := Nat.le_of_dvd f2 h; omega
      have htt : tileTuples g m l = some (ax.map (fun a => [a.dh, a.dd, a.mh, a.md])) := by
        rw [← e1, ← e2, ← e3]
        clear * - hg4
        induction ax with
        | nil => rfl
        | cons b ax ih =>
          simp only [List.map_cons, tileTuples, (hg4 b (List.mem_cons_self ..)).facts.2.2.2.2.2.2,
            ih (fun a ha => hg4 a (List.mem_cons_of_mem _ ha))]
      rw [htt]
      dsimp only
      have hshape : (place p g devs).shape = (ax.map (fun a => [a.dh, a.dd, a.mh, a.md])).map List.prod := by
        show g = _
        rw [← e1, List.map_map]
        apply List.map_congr_left
        intro b hb
        obtain ⟨f1, f2, _⟩ := (hg4 b hb).facts
        simp only [Function.comp_apply, List.prod_cons, List.prod_nil, Nat.mul_one]
        rw [← f1, ← f2]; ring
      have := blocks_ok (w := 4) (m := m) hshape (by simp) hmpos hdvd
      rw [List.length_map, show ax.length = g.length by rw [← e1, List.length_map]] at this
      exact this
    · rw [hf] at hti; cases hti
  · rw [if_neg hti]
    have hgrp : o.devices.shape = (List.zipWith (fun x y => [x / y, y]) o.g o.m).map List.prod := by
      rw [hsh]
      have hmod : ∀ x ∈ List.zipWith (fun x y => x % y) o.g o.m, x = 0 := by rw [s1, s2]; exact s5 _ hm
      have hl2 : o.g.length = o.m.length := by rw [hgl, hml, hlen]; rfl
      clear * - hmod hl2
      generalize o.g = a at *
      generalize o.m = b at *
      induction a generalizing b with
      | nil => rfl
      | cons x a ih =>
        cases b with
        | nil => simp at hl2
        | cons y b =>
          have h1 : y ∣ x := Nat.dvd_of_mod_eq_zero (hmod _ (by simp))
          have h2 := ih b (fun z hz => hmod z (by simp only [List.zipWith_cons_cons]; exact List.mem_cons_of_mem _ hz)) (by simpa using hl2)
          simp [← h2, Nat.div_mul_cancel h1]
    have hglen : (List.zipWith (fun x y => [x / y, y]) o.g o.m).length = g.length := by
      rw [List.length_zipWith, hgl, hml, hlen]
      exact Nat.min_self _
    have := blocks_ok (w := 2) (m := o.m) hgrp (by
        intro t ht
        rw [List.mem_iff_getElem] at ht
        obtain ⟨k, hk, rfl⟩ := ht
        simp) (by rw [hmp]; exact hmpos) (by rw [hsh, hgp, hmp]; exact hdvd)
    rw [hglen] at this
    exact this

theorem v23_spec (n : Nat) : (∀ m, v23Submesh n = .ok m → m.length = 4 ∧ m.prod = n) ∧
    ((∃ m, v23Submesh n = .ok m) ↔ n ∈ [1, 2, 4, 8, 16]) := by
  unfold v23Submesh
  split
  all_goals first
    | exact ⟨fun m h => (by cases h; exact ⟨rfl, rfl⟩), ⟨fun _ => (by decide), fun _ => ⟨_, rfl⟩⟩⟩
    | skip
  rename_i h1 h2 h4 h8 h16
  refine ⟨fun m h => (by cases h), ⟨fun ⟨m, h⟩ => (by cases h), ?_⟩⟩
  intro h
  simp only [List.mem_cons, List.not_mem_nil, or_false] at h
  rcases h with h | h | h | h | h
  · exact absurd h h1
  · exact absurd h h2
  · exact absurd h h4
  · exact absurd h h8
  · exact absurd h h16

theorem v4_spec (b0 b2 n : Nat) : (∀ m, v4Submesh b0 b2 n = .ok m → m.length = 4 ∧ m.prod = n) ∧
    ((∃ m, v4Submesh b0 b2 n = .ok m) ↔ n ∈ [1, 2, 4, 8, 16]) := by
  unfold v4Submesh
  split
  all_goals try split
  all_goals try split
  all_goals try split
  all_goals first
    | exact ⟨fun m h => (by cases h; exact ⟨rfl, rfl⟩), ⟨fun _ => (by decide), fun _ => ⟨_, rfl⟩⟩⟩
    | skip
  rename_i h1 h2 h4 h8 h16
  refine ⟨fun m h => (by cases h), ⟨fun ⟨m, h⟩ => (by cases h), ?_⟩⟩
  intro h
  simp only [List.mem_cons, List.not_mem_nil, or_false] at h
  rcases h with h | h | h | h | h
  · exact absurd h h1
  · exact absurd h h2
  · exact absurd h h4
  · exact absurd h h8
  · exact absurd h h16

/-- C40: the submesh chosen by `default_mesh` has exactly `num_partitions` devices, and there is one exactly for 1, 2, 4, 8
and 16 partitions on the supported kinds of device. -/
theorem C40_default (k : Kind) (b : List Nat) (n : Nat) :
    (∀ m, defaultSubmesh k b n = .ok m → m.length = 4 ∧ m.prod = n) ∧
    ((∃ m, defaultSubmesh k b n = .ok m) ↔ n ∈ [1, 2, 4, 8, 16] ∧ (k = .v23 ∨ (k = .v4 ∧ b.getD 3 0 = 1))) := by
  unfold defaultSubmesh
  by_cases hk : k = .v23
  · rw [if_pos hk]
    refine ⟨(v23_spec n).1, (v23_spec n).2.trans ⟨fun h => ⟨h, Or.inl hk⟩, fun h => h.1⟩⟩
  · rw [if_neg hk]
    by_cases hk2 : k = .v4 ∧ b.getD 3 0 = 1
    · rw [if_pos hk2]
      exact ⟨(v4_spec _ _ n).1, (v4_spec _ _ n).2.trans ⟨fun h => ⟨h, Or.inr hk2⟩, fun h => h.1⟩⟩
    · rw [if_neg hk2]
      exact ⟨fun m h => (by cases h), ⟨fun ⟨m, h⟩ => (by cases h), fun h => absurd h.2 (by tauto)⟩⟩

section Example
/-! A 2 x 2 slice with one core per chip, two hosts of 2 x 1 chips. -/

def exDevs : List Dev := [⟨some [0, 0, 0], 0, 0, 0⟩, ⟨some [1, 0, 0], 0, 0, 1⟩, ⟨some [0, 1, 0], 0, 1, 2⟩, ⟨some [1, 1, 0], 0, 1, 3⟩]
def exLocals : List Dev := [⟨some [0, 0, 0], 0, 0, 0⟩, ⟨some [1, 0, 0], 0, 0, 1⟩]

theorem exTpu : Tpu ⟨2, 2⟩ exDevs exLocals [2, 2, 1, 1] [2, 1, 1, 1] := by
  refine ⟨?_, rfl, rfl, by decide, by decide, ⟨?_, by decide, ?_⟩, ⟨?_, by decide, ?_⟩⟩
  · intro d hd
    simp only [exDevs, exLocals, List.cons_append, List.nil_append, List.mem_cons, List.not_mem_nil, or_false] at hd
    rcases hd with rfl | rfl | rfl | rfl | rfl | rfl <;> exact ⟨_, _, _, rfl⟩
  · decide
  · intro i
    constructor
    · rintro ⟨d, hd, rfl⟩
      simp only [exDevs, List.cons_append, List.nil_append, List.mem_cons, List.not_mem_nil, or_false] at hd
      rcases hd with rfl | rfl | rfl | rfl <;> simp [getCoords, InBox]
    · intro hi
      obtain ⟨a, b, c, d, rfl, h1, h2, h3, h4⟩ := inBox4 hi
      obtain rfl : c = 0 := by omega
      obtain rfl : d = 0 := by omega
      obtain rfl | rfl : a = 0 ∨ a = 1 := by omega
      all_goals obtain rfl | rfl : b = 0 ∨ b = 1 := by omega
      all_goals simp [exDevs, getCoords]
  · decide
  · intro i
    constructor
    · rintro ⟨d, hd, rfl⟩
      simp only [exLocals, List.cons_append, List.nil_append, List.mem_cons, List.not_mem_nil, or_false] at hd
      rcases hd with rfl | rfl <;> simp [getCoords, InBox]
    · intro hi
      obtain ⟨a, b, c, d, rfl, h1, h2, h3, h4⟩ := inBox4 hi
      obtain rfl : b = 0 := by omega
      obtain rfl : c = 0 := by omega
      obtain rfl : d = 0 := by omega
      obtain rfl | rfl : a = 0 ∨ a = 1 := by omega
      all_goals simp [exLocals, getCoords]

theorem exHosts : HostBoxes ⟨2, 2⟩ exDevs [2, 1, 1, 1] := by
  unfold HostBoxes; decide

/-- Model parallelism over one chip: tiled by hosts, four rows. -/
example : ∃ e, getMesh ⟨2, 2⟩ [1, 1, 1, 1] exDevs exLocals true = .ok e ∧ e.shape = [4, 1] ∧
    e.get [0, 0] = some ⟨some [0, 0, 0], 0, 0, 0⟩ ∧ e.get [1, 0] = some ⟨some [1, 0, 0], 0, 0, 1⟩ := ⟨_, rfl, rfl, rfl, rfl⟩

/-- Model parallelism along y: reordered, not tiled. -/
example : ZMajor [2, 2, 1, 1] [1, 2, 1, 1] := ⟨2, 2, 1, 1, 1, 2, 1, 1, rfl, rfl, by omega⟩
example : ∃ e, getMesh ⟨2, 2⟩ [1, 2, 1, 1] exDevs exLocals true = .ok e ∧ e.shape = [2, 2] ∧
    e.get [0, 1] = some ⟨some [0, 1, 0], 0, 1, 2⟩ ∧ e.get [1, 0] = some ⟨some [1, 0, 0], 0, 0, 1⟩ := ⟨_, rfl, rfl, rfl, rfl⟩

end Example

end Verif.Mesh
