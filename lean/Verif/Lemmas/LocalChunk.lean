import Verif.Spec.LocalChunk
namespace Verif.LocalChunk
open Spec
variable {α H : Type} [DecidableEq α]

/-! Mixed radix numbers -/

theorem foldl_code (n c : α → Nat) (l : List α) (s : Nat) :
    l.foldl (fun s a => s * n a + c a) s = s * (l.map n).prod + blockNumber n c l := by
  induction l generalizing s with
  | nil => simp [blockNumber]
  | cons a l ih =>
    simp only [List.foldl_cons, ih, List.map_cons, List.prod_cons, blockNumber]
    ring

theorem code_eq (c : Chunker α) (l : List α) : code c l = blockNumber c.numChunks c.chunkIds l := by
  unfold code
  rw [foldl_code]
  simp

theorem blockNumber_lt (n c : α → Nat) : ∀ l : List α, (∀ a ∈ l, c a < n a) → blockNumber n c l < (l.map n).prod
  | [], _ => by simp [blockNumber]
  | a :: l, h => by
    have ih := blockNumber_lt n c l (fun b hb => h b (List.mem_cons_of_mem _ hb))
    have ha := h a List.mem_cons_self
    simp only [blockNumber, List.map_cons, List.prod_cons]
    calc c a * (l.map n).prod + blockNumber n c l < c a * (l.map n).prod + (l.map n).prod := by omega
      _ = (c a + 1) * (l.map n).prod := by ring
      _ ≤ n a * (l.map n).prod := Nat.mul_le_mul_right _ ha

theorem blockNumber_congr (n : α → Nat) {c c' : α → Nat} : ∀ l : List α, (∀ a ∈ l, c a = c' a) →
    blockNumber n c l = blockNumber n c' l
  | [], _ => rfl
  | a :: l, h => by
    simp only [blockNumber, h a List.mem_cons_self,
      blockNumber_congr n l (fun b hb => h b (List.mem_cons_of_mem _ hb))]

theorem blockNumber_inj (n c c' : α → Nat) : ∀ l : List α, (∀ a ∈ l, c a < n a) → (∀ a ∈ l, c' a < n a) →
    blockNumber n c l = blockNumber n c' l → ∀ a ∈ l, c a = c' a
  | [], _, _, _ => by intro a h; cases h
  | a :: l, h, h', e => by
    have l1 := blockNumber_lt n c l (fun b hb => h b (List.mem_cons_of_mem _ hb))
    have l2 := blockNumber_lt n c' l (fun b hb => h' b (List.mem_cons_of_mem _ hb))
    simp only [blockNumber] at e
    have ea : c a = c' a := by
      have d1 : (c a * (l.map n).prod + blockNumber n c l) / (l.map n).prod = c a := by
        rw [Nat.mul_comm, Nat.mul_add_div (by omega), Nat.div_eq_of_lt l1, Nat.add_zero]
      have d2 : (c' a * (l.map n).prod + blockNumber n c' l) / (l.map n).prod = c' a := by
        rw [Nat.mul_comm, Nat.mul_add_div (by omega), Nat.div_eq_of_lt l2, Nat.add_zero]
      rw [← d1, ← d2, e]
    have er : blockNumber n c l = blockNumber n c' l := by rw [ea] at e; omega
    intro b hb
    rcases List.mem_cons.mp hb with rfl | hb
    · exact ea
    · exact blockNumber_inj n c c' l (fun b hb => h b (List.mem_cons_of_mem _ hb))
        (fun b hb => h' b (List.mem_cons_of_mem _ hb)) er b hb

theorem blockNumber_surj (n : α → Nat) : ∀ (l : List α), l.Nodup → ∀ k, k < (l.map n).prod →
    ∃ c : α → Nat, (∀ a ∈ l, c a < n a) ∧ blockNumber n c l = k
  | [], _, k, hk => ⟨fun _ => 0, (by intro a h; cases h), (by simp at hk; simp [blockNumber, hk])⟩
  | a :: l, hn, k, hk => by
    rw [List.map_cons, List.prod_cons] at hk
    have hp : 0 < (l.map n).prod := Nat.pos_of_ne_zero (by intro e; rw [e] at hk; simp at hk)
    obtain ⟨c, h1, h2⟩ := blockNumber_surj n l (List.nodup_cons.mp hn).2 (k % (l.map n).prod) (Nat.mod_lt _ hp)
    have hne : ∀ b ∈ l, b ≠ a := fun b hb e => (List.nodup_cons.mp hn).1 (e ▸ hb)
    refine ⟨Function.update c a (k / (l.map n).prod), ?_, ?_⟩
    · intro b hb
      rcases List.mem_cons.mp hb with rfl | hb
      · rw [Function.update_self]
        exact Nat.div_lt_of_lt_mul (by rw [Nat.mul_comm]; exact hk)
      · rw [Function.update_of_ne (hne b hb)]; exact h1 b hb
    · simp only [blockNumber, Function.update_self]
      rw [blockNumber_congr n l (c' := c) (fun b hb => Function.update_of_ne (hne b hb) _ _), h2]
      exact Nat.div_add_mod' k _

theorem blockNumber_zero (n c : α → Nat) (l : List α) (h : ∀ a ∈ l, c a < n a) :
    blockNumber n c l = 0 ↔ ∀ a ∈ l, c a = 0 := by
  have hz : blockNumber n (fun _ => 0) l = 0 := by
    clear h
    induction l with
    | nil => rfl
    | cons a l ih => simp [blockNumber, ih]
  constructor
  · intro e
    exact blockNumber_inj n c (fun _ => 0) l h (fun a ha => by have := h a ha; omega) (by rw [e, hz])
  · intro e
    rw [← hz]
    exact blockNumber_congr n l e

/-! Equal boxes tiling a mesh are aligned -/

/-- Intervals of length `l` partitioning `[0, n)` start at multiples of `l`. -/
theorem interval_aligned {n l : Nat} (hl : 0 < l) (f : Nat → Nat) (h1 : ∀ x < n, f x ≤ x ∧ x < f x + l)
    (h3 : ∀ x < n, ∀ y < n, f x ≤ y → y < f x + l → f y = f x) : ∀ x < n, l ∣ f x := by
  have key : ∀ k, ∀ x < n, f x = k → l ∣ k := by
    intro k
    induction k using Nat.strong_induction_on with
    | _ k ih =>
      intro x hx e
      by_cases hk : k = 0
      · exact hk ▸ dvd_zero _
      have a1 := h1 x hx
      have hkn : k < n := by omega
      have fk : f k = k := by rw [h3 x hx k hkn (by omega) (by omega)]; exact e
      have b1 := h1 (k - 1) (by omega)
      have hle : ¬ k < f (k - 1) + l := by
        intro hlt
        have := h3 (k - 1) (by omega) k hkn (by omega) hlt
        omega
      have heq : k = f (k - 1) + l := by omega
      have := ih (f (k - 1)) (by omega) (k - 1) (by omega) rfl
      rw [heq]
      exact Nat.dvd_add this (dvd_refl l)
  intro x hx
  exact key _ x hx rfl

theorem Spec.Boxes.first_mem {m : Mesh α H} {l : α → Nat} {first : H → α → Nat} (hb : Boxes m l first) (h : H) :
    InMesh m (first h) ∧ m.owner (first h) = h := by
  have hi : InMesh m (first h) := fun a ha => by have := hb.inside h a ha; have := hb.pos a ha; omega
  exact ⟨hi, (hb.owns h _ hi).mpr (fun a ha => ⟨le_refl _, by have := hb.pos a ha; omega⟩)⟩

theorem Spec.Boxes.aligned {m : Mesh α H} {l : α → Nat} {first : H → α → Nat} (hb : Boxes m l first) (h : H) :
    ∀ a ∈ m.names, l a ∣ first h a := by
  intro a ha
  obtain ⟨hi, ho⟩ := hb.first_mem h
  let q : Nat → α → Nat := fun x => Function.update (first h) a x
  have hq : ∀ x < m.shape a, InMesh m (q x) := by
    intro x hx b hbm
    by_cases e : b = a
    · subst e; simp only [q, Function.update_self]; exact hx
    · simp only [q, Function.update_of_ne e]; exact hi b hbm
  have own : ∀ x < m.shape a, first (m.owner (q x)) a ≤ x ∧ x < first (m.owner (q x)) a + l a := by
    intro x hx
    have := (hb.owns _ _ (hq x hx)).mp rfl a ha
    simpa [q] using this
  have same : ∀ x < m.shape a, ∀ y < m.shape a, first (m.owner (q x)) a ≤ y → y < first (m.owner (q x)) a + l a →
      first (m.owner (q y)) a = first (m.owner (q x)) a := by
    intro x hx y hy h1 h2
    have : m.owner (q y) = m.owner (q x) := by
      refine (hb.owns _ _ (hq y hy)).mpr ?_
      intro b hbm
      by_cases e : b = a
      · subst e; simp only [q, Function.update_self]; exact ⟨h1, h2⟩
      · have := (hb.owns _ _ (hq x hx)).mp rfl b hbm
        simpa only [q, Function.update_of_ne e] using this
    rw [this]
  have := interval_aligned (hb.pos a ha) (fun x => first (m.owner (q x)) a) own same (first h a) (hi a ha)
  simp only [q, Function.update_eq_self, ho] at this
  exact this

theorem Spec.Boxes.divides {m : Mesh α H} {l : α → Nat} {first : H → α → Nat} (hb : Boxes m l first) (h : H) :
    ∀ a ∈ m.names, l a ∣ m.shape a := by
  intro a ha
  obtain ⟨hi, ho⟩ := hb.first_mem h
  have hs : 0 < m.shape a := by have := hi a ha; omega
  let q : α → Nat := Function.update (first h) a (m.shape a - 1)
  have hq : InMesh m q := by
    intro b hbm
    by_cases e : b = a
    · subst e; simp only [q, Function.update_self]; omega
    · simp only [q, Function.update_of_ne e]; exact hi b hbm
  have h1 := (hb.owns _ _ hq).mp rfl a ha
  simp only [q, Function.update_self] at h1
  have h2 := hb.inside (m.owner q) a ha
  have h3 := hb.aligned (m.owner q) a ha
  simp only [q] at h2 h3
  have : m.shape a = first (m.owner (Function.update (first h) a (m.shape a - 1))) a + l a := by omega
  rw [this]
  exact Nat.dvd_add h3 (dvd_refl _)

/-- The chunk coordinates of a host. -/
def chunk (l : α → Nat) (first : H → α → Nat) (h : H) (a : α) : Nat := first h a / l a

theorem Spec.Boxes.owner_iff {m : Mesh α H} {l : α → Nat} {first : H → α → Nat} (hb : Boxes m l first) (h : H)
    {p : α → Nat} (hp : InMesh m p) : m.owner p = h ↔ ∀ a ∈ m.names, p a / l a = chunk l first h a := by
  rw [hb.owns h p hp]
  refine forall_congr' fun a => forall_congr' fun ha => ?_
  obtain ⟨k, hk⟩ := hb.aligned h a ha
  have hl := hb.pos a ha
  unfold chunk
  rw [hk, Nat.mul_div_cancel_left _ hl, Nat.div_eq_iff hl]
  have e1 : k * l a = l a * k := Nat.mul_comm _ _
  rw [e1]
  omega

theorem Spec.Boxes.chunk_lt {m : Mesh α H} {l : α → Nat} {first : H → α → Nat} (hb : Boxes m l first) (h : H) :
    ∀ a ∈ m.names, chunk l first h a < m.shape a / l a := by
  intro a ha
  exact Nat.div_lt_div_of_lt_of_dvd (hb.divides h a ha) ((hb.first_mem h).1 a ha)

theorem Spec.Boxes.chunk_inj {m : Mesh α H} {l : α → Nat} {first : H → α → Nat} (hb : Boxes m l first) {h h' : H}
    (e : ∀ a ∈ m.names, chunk l first h a = chunk l first h' a) : h = h' := by
  obtain ⟨hi, ho⟩ := hb.first_mem h
  rw [← ho]
  exact (hb.owner_iff h' hi).mpr e

theorem Spec.Boxes.chunk_surj {m : Mesh α H} {l : α → Nat} {first : H → α → Nat} (hb : Boxes m l first) (h0 : H)
    (c : α → Nat) (hc : ∀ a ∈ m.names, c a < m.shape a / l a) : ∃ h, ∀ a ∈ m.names, chunk l first h a = c a := by
  have hi : InMesh m (fun a => c a * l a) := by
    intro a ha
    have := (Nat.lt_div_iff_mul_lt_of_dvd (Nat.pos_iff_ne_zero.mp (hb.pos a ha)) (hb.divides h0 a ha)).mp (hc a ha)
    exact this
  refine ⟨m.owner (fun a => c a * l a), fun a ha => ?_⟩
  have := (hb.owner_iff _ hi).mp rfl a ha
  rw [← this, Nat.mul_div_cancel _ (hb.pos a ha)]

end Verif.LocalChunk
