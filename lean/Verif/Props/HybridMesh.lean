import Verif.Model.HybridMesh
import Verif.Props.Mesh
import Verif.Props.LocalChunk
/-
C124: meshes of CPUs, GPUs and of several TPU slices, and the layout of data over the hosts of any mesh.
-/
namespace Verif.HybridMesh
open Verif.ND Verif.Mesh

variable {D : Type}

namespace Spec

/-- The array has every device of the list at exactly one position, and nothing else. -/
def Holds (shape : List Nat) (get : List Nat → D) (devs : List D) : Prop :=
  (∀ i, InBox shape i → get i ∈ devs) ∧ ∀ d ∈ devs, ∃! i, InBox shape i ∧ get i = d

/-- What is assumed of `create_device_mesh`: it arranges the devices in the given shape if their number is right, and fails otherwise. -/
structure Arranges (arrange : List Nat → List D → Option (NDArray D)) : Prop where
  ok : ∀ shape devs, devs.Nodup → shape.prod = devs.length → ∃ a, arrange shape devs = some a ∧ Holds shape a.get devs
  bad : ∀ shape devs, shape.prod ≠ devs.length → arrange shape devs = none

/-- Every position of the mesh holds a device, and every device is at exactly one position. -/
def Complete (e : NDArray (Option D)) (devs : List D) : Prop :=
  (∀ i, InBox e.shape i → ∃ d ∈ devs, e.get i = some d) ∧ ∀ d ∈ devs, ∃! i, InBox e.shape i ∧ e.get i = some d

end Spec
open Spec

/-! ### Index arithmetic -/

theorem box_split {dcn ici i : List Nat} (hl : ici.length = dcn.length) (h : InBox (List.zipWith (· * ·) dcn ici) i) :
    InBox dcn (List.zipWith (· / ·) i ici) ∧ InBox ici (List.zipWith (· % ·) i ici) := by
  induction dcn generalizing ici i with
  | nil => cases ici with
    | nil => cases h; exact ⟨.nil, .nil⟩
    | cons => simp at hl
  | cons n dcn ih =>
    cases ici with
    | nil => simp at hl
    | cons k ici =>
      cases h with
      | cons h1 h2 =>
        obtain ⟨a, b⟩ := ih (by simpa using hl) h2
        have hk : 0 < k := Nat.pos_of_ne_zero fun hk => by subst hk; simp at h1
        refine ⟨.cons ?_ a, .cons (Nat.mod_lt _ hk) b⟩
        exact Nat.div_lt_of_lt_mul (by rw [Nat.mul_comm]; exact h1)

/-- The position with block `q` and offset `r`. -/
def join (ici q r : List Nat) : List Nat := List.zipWith (· + ·) (List.zipWith (· * ·) q ici) r

theorem box_join {dcn ici q r : List Nat} (hq : InBox dcn q) (hr : InBox ici r) (hl : ici.length = dcn.length) :
    InBox (List.zipWith (· * ·) dcn ici) (join ici q r) ∧ List.zipWith (· / ·) (join ici q r) ici = q ∧
      List.zipWith (· % ·) (join ici q r) ici = r := by
  induction hq generalizing ici r with
  | nil =>
    cases hr with
    | nil => exact ⟨.nil, rfl, rfl⟩
    | cons => simp at hl
  | @cons a n q dcn h1 _ ih =>
    cases hr with
    | nil => simp at hl
    | @cons b k r ici h2 h3 =>
      obtain ⟨i1, i2, i3⟩ := ih h3 (by simpa using hl)
      have hk : 0 < k := by omega
      refine ⟨.cons ?_ i1, ?_, ?_⟩
      · show a * k + b < n * k
        calc a * k + b < a * k + k := by omega
          _ = (a + 1) * k := by ring
          _ ≤ n * k := Nat.mul_le_mul_right _ h1
      · show (a * k + b) / k :: _ = _
        rw [show (a * k + b) / k = a by rw [Nat.mul_comm, Nat.mul_add_div hk, Nat.div_eq_of_lt h2]; rfl]
        exact congrArg _ i2
      · show (a * k + b) % k :: _ = _
        rw [show (a * k + b) % k = b by rw [Nat.mul_comm, Nat.mul_add_mod, Nat.mod_eq_of_lt h2]]
        exact congrArg _ i3

theorem join_split {dcn ici i : List Nat} (hl : ici.length = dcn.length) (h : InBox (List.zipWith (· * ·) dcn ici) i) :
    join ici (List.zipWith (· / ·) i ici) (List.zipWith (· % ·) i ici) = i := by
  induction dcn generalizing ici i with
  | nil => cases ici with
    | nil => cases h; rfl
    | cons => simp at hl
  | cons n dcn ih =>
    cases ici with
    | nil => simp at hl
    | cons k ici =>
      cases h with
      | @cons a _ is _ h1 h2 =>
        show (a / k * k + a % k) :: join ici (List.zipWith (· / ·) is ici) (List.zipWith (· % ·) is ici) = _
        rw [Nat.div_add_mod']
        exact congrArg _ (ih (by simpa using hl) h2)

/-! ### Groups -/

theorem keys_perm (key : D → Nat) (devs : List D) : (keys key devs).Perm (devs.map key).dedup := List.perm_insertionSort _ _

theorem keys_nodup (key : D → Nat) (devs : List D) : (keys key devs).Nodup := (keys_perm key devs).nodup_iff.2 (List.nodup_dedup _)

theorem mem_keys (key : D → Nat) (devs : List D) (k : Nat) : k ∈ keys key devs ↔ ∃ d ∈ devs, key d = k := by
  rw [(keys_perm key devs).mem_iff, List.mem_dedup, List.mem_map]

theorem groups_length (key : D → Nat) (devs : List D) : (groups key devs).length = (devs.map key).dedup.length := by
  rw [groups, List.length_map, (keys_perm key devs).length_eq]

theorem arrangeAll_ok {arrange : List Nat → List D → Option (NDArray D)} {shape : List Nat} {gs : List (List D)} {as : List (NDArray D)}
    (h : arrangeAll arrange shape gs = some as) : List.Forall₂ (fun g a => arrange shape g = some a) gs as := by
  induction gs generalizing as with
  | nil => simp only [arrangeAll, Option.some.injEq] at h; subst h; exact .nil
  | cons g gs ih =>
    simp only [arrangeAll] at h
    cases h1 : arrange shape g with
    | none => simp [h1] at h
    | some a =>
      cases h2 : arrangeAll arrange shape gs with
      | none => simp [h1, h2] at h
      | some bs =>
        simp only [h1, h2, Option.some.injEq] at h
        subst h
        exact .cons h1 (ih h2)

theorem arrangeAll_iff (arrange : List Nat → List D → Option (NDArray D)) (shape : List Nat) (gs : List (List D)) :
    (∃ as, arrangeAll arrange shape gs = some as) ↔ ∀ g ∈ gs, ∃ a, arrange shape g = some a := by
  induction gs with
  | nil => simp [arrangeAll]
  | cons g gs ih =>
    simp only [arrangeAll, List.forall_mem_cons]
    rw [← ih]
    cases arrange shape g <;> cases arrangeAll arrange shape gs <;> simp

/-- **C124, several groups of devices**: `create_hybrid_device_mesh` succeeds exactly if the shapes have the same rank, there are as many groups as
`dcn_mesh_shape` says, and each has as many devices as `mesh_shape` says.  The mesh then has the product of the shapes as its shape, holds every device
exactly once, and the devices of each group are one aligned block of shape `mesh_shape`. -/
theorem C124_hybrid {arrange : List Nat → List D → Option (NDArray D)} (hA : Arranges arrange) (key : D → Nat) (ici dcn : List Nat) (devs : List D)
    (hn : devs.Nodup) :
    ((∃ e, hybrid arrange key ici dcn devs = .ok e) ↔
      ici.length = dcn.length ∧ (devs.map key).dedup.length = dcn.prod ∧ ∀ d ∈ devs, (devs.filter fun d' => key d' = key d).length = ici.prod) ∧
    ∀ e, hybrid arrange key ici dcn devs = .ok e →
      e.shape = List.zipWith (· * ·) dcn ici ∧ Complete e devs ∧
      ∀ i j d d', InBox e.shape i → InBox e.shape j → e.get i = some d → e.get j = some d' →
        (key d = key d' ↔ List.zipWith (· / ·) i ici = List.zipWith (· / ·) j ici) := by
  have hgood : (∀ g ∈ groups key devs, ∃ a, arrange ici g = some a) ↔ ∀ d ∈ devs, (devs.filter fun d' => key d' = key d).length = ici.prod := by
    constructor
    · intro h d hd
      obtain ⟨a, ha⟩ := h (devs.filter fun d' => key d' = key d) (List.mem_map.2 ⟨key d, (mem_keys key devs _).2 ⟨d, hd, rfl⟩, rfl⟩)
      by_contra hne
      rw [hA.bad _ _ (fun h => hne h.symm)] at ha
      cases ha
    · intro h g hg
      obtain ⟨k, hk, rfl⟩ := List.mem_map.1 hg
      obtain ⟨d, hd, rfl⟩ := (mem_keys key devs k).1 hk
      obtain ⟨a, ha, _⟩ := hA.ok ici _ (hn.filter _) (h d hd).symm
      exact ⟨a, ha⟩
  constructor
  · unfold hybrid
    by_cases h1 : ici.length = dcn.length
    · by_cases h2 : (groups key devs).length = dcn.prod
      · rw [if_neg (not_not.2 h1), if_neg (not_not.2 h2)]
        rw [← groups_length, ← hgood, ← arrangeAll_iff]
        cases arrangeAll arrange ici (groups key devs) with
        | none => simp
        | some as => simp [h1, h2]
      · rw [if_neg (not_not.2 h1), if_pos h2]
        refine ⟨fun ⟨e, h⟩ => (by cases h), fun h => absurd ?_ h2⟩
        rw [groups_length]
        exact h.2.1
    · rw [if_pos h1]
      exact ⟨fun ⟨e, h⟩ => (by cases h), fun h => absurd h.1 h1⟩
  · intro e h
    unfold hybrid at h
    by_cases h1 : ici.length = dcn.length
    · by_cases h2 : (groups key devs).length = dcn.prod
      · rw [if_neg (not_not.2 h1), if_neg (not_not.2 h2)] at h
        cases h3 : arrangeAll arrange ici (groups key devs) with
        | none => rw [h3] at h; cases h
        | some as =>
          simp only [h3, Except.ok.injEq] at h
          subst h
          have hf := arrangeAll_ok h3
          have hlen : as.length = dcn.prod := by rw [← h2, hf.length_eq]
          have hcnt := hgood.1 ((arrangeAll_iff arrange ici _).1 ⟨as, h3⟩)
          have hkl : (keys key devs).length = dcn.prod := by rw [← h2, groups, List.length_map]
          -- the block with number `n`
          have hblock : ∀ n (hn' : n < dcn.prod), Holds ici (as[n]'(by omega)).get (devs.filter fun d => key d = (keys key devs)[n]'(by omega)) := by
            intro n hn'
            have hg : (groups key devs)[n]'(by omega) = devs.filter fun d => key d = (keys key devs)[n]'(by omega) := by
              simp only [groups, List.getElem_map]
            have ha : arrange ici ((groups key devs)[n]'(by omega)) = some (as[n]'(by omega)) := by
              have := List.forall₂_iff_get.1 hf
              exact this.2 n (by omega) (by omega)
            have hmem : (keys key devs)[n]'(by omega) ∈ keys key devs := List.getElem_mem _
            obtain ⟨d, hd, hk⟩ := (mem_keys key devs _).1 hmem
            have hc := hcnt d hd
            rw [hk] at hc
            obtain ⟨a, ha', hh⟩ := hA.ok ici _ (hn.filter (fun d => key d = (keys key devs)[n]'(by omega))) hc.symm
            rw [hg, ha'] at ha
            cases ha
            exact hh
          have hget : ∀ i, InBox (List.zipWith (· * ·) dcn ici) i → ∃ hlt : ravel dcn (List.zipWith (· / ·) i ici) < dcn.prod,
              (as[ravel dcn (List.zipWith (· / ·) i ici)]?).map (fun a => a.get (List.zipWith (· % ·) i ici)) =
                some ((as[ravel dcn (List.zipWith (· / ·) i ici)]'(by omega)).get (List.zipWith (· % ·) i ici)) := by
            intro i hi
            have hlt := ravel_lt (box_split h1 hi).1
            exact ⟨hlt, by rw [List.getElem?_eq_getElem (by omega)]; rfl⟩
          have hkey : ∀ i d, InBox (List.zipWith (· * ·) dcn ici) i →
              (as[ravel dcn (List.zipWith (· / ·) i ici)]?).map (fun a => a.get (List.zipWith (· % ·) i ici)) = some d →
              d ∈ devs ∧ (keys key devs)[ravel dcn (List.zipWith (· / ·) i ici)]? = some (key d) := by
            intro i d hi hd
            obtain ⟨hlt, hg⟩ := hget i hi
            rw [hg, Option.some.injEq] at hd
            have hm := (hblock _ hlt).1 _ (box_split h1 hi).2
            rw [hd, List.mem_filter] at hm
            refine ⟨hm.1, ?_⟩
            rw [List.getElem?_eq_getElem (by omega)]
            exact congrArg some (of_decide_eq_true hm.2).symm
          refine ⟨rfl, ⟨?_, ?_⟩, ?_⟩
          · intro i hi
            obtain ⟨hlt, hg⟩ := hget i hi
            exact ⟨_, (hkey i _ hi hg).1, hg⟩
          · intro d hd
            obtain ⟨n, hn', hk⟩ := List.getElem_of_mem ((mem_keys key devs (key d)).2 ⟨d, hd, rfl⟩)
            have hnp : n < dcn.prod := by omega
            obtain ⟨r, ⟨hr, hrd⟩, hu⟩ := (hblock n hnp).2 d (List.mem_filter.2 ⟨hd, by simp [hk]⟩)
            have hq := unravel_inBox dcn n hnp
            obtain ⟨j1, j2, j3⟩ := box_join hq hr h1
            refine ⟨join ici (unravel dcn n) r, ⟨j1, ?_⟩, ?_⟩
            · show (as[ravel dcn (List.zipWith (· / ·) (join ici (unravel dcn n) r) ici)]?).map _ = some d
              rw [j2, j3, ravel_unravel dcn n hnp, List.getElem?_eq_getElem (by omega)]
              exact congrArg some hrd
            · rintro i ⟨hi, hid⟩
              have hi : InBox (List.zipWith (· * ·) dcn ici) i := hi
              have hkd := (hkey i d hi hid).2
              have hlt := ravel_lt (box_split h1 hi).1
              have hrn : ravel dcn (List.zipWith (· / ·) i ici) = n := by
                rw [List.getElem?_eq_getElem (by omega), Option.some.injEq, ← hk] at hkd
                exact (keys_nodup key devs).getElem_inj_iff.1 hkd
              have hdiv : List.zipWith (· / ·) i ici = unravel dcn n := by rw [← hrn, unravel_ravel (box_split h1 hi).1]
              have hmod : List.zipWith (· % ·) i ici = r := by
                refine hu _ ⟨(box_split h1 hi).2, ?_⟩
                have : (as[n]?).map (fun a => a.get (List.zipWith (· % ·) i ici)) = some d := by rw [← hrn]; exact hid
                rw [List.getElem?_eq_getElem (by omega)] at this
                exact Option.some.inj this
              rw [← join_split h1 hi, hdiv, hmod]
          · intro i j d d' hi hj hd hd'
            have hi : InBox (List.zipWith (· * ·) dcn ici) i := hi
            have hj : InBox (List.zipWith (· * ·) dcn ici) j := hj
            have a := (hkey i d hi hd).2
            have b := (hkey j d' hj hd').2
            constructor
            · intro hk
              rw [← hk, ← a] at b
              have hlt := ravel_lt (box_split h1 hi).1
              have hlt' := ravel_lt (box_split h1 hj).1
              rw [List.getElem?_eq_getElem (by omega), List.getElem?_eq_getElem (by omega), Option.some.injEq] at b
              exact (ravel_inj (box_split h1 hi).1 (box_split h1 hj).1).1 ((keys_nodup key devs).getElem_inj_iff.1 b.symm)
            · intro hd'
              rw [hd', b] at a
              exact (Option.some.inj a).symm
      · rw [if_neg (not_not.2 h1), if_pos h2] at h
        cases h
    · rw [if_pos h1] at h
      cases h

/-- **C124, several slices**: devices whose positions differ only along axes that `dcn_mesh_shape` does not split are in the same slice; with 1 for
the model axis no model replica needs the slow network. -/
theorem C124_slice {arrange : List Nat → List D → Option (NDArray D)} (hA : Arranges arrange) (key : D → Nat) (ici dcn : List Nat) (devs : List D)
    (hn : devs.Nodup) (e : NDArray (Option D)) (h : hybrid arrange key ici dcn devs = .ok e) (i j : List Nat) (d d' : D) (hi : InBox e.shape i)
    (hj : InBox e.shape j) (hd : e.get i = some d) (hd' : e.get j = some d') (hsame : ∀ k, dcn.getD k 1 ≠ 1 → i.getD k 0 = j.getD k 0) :
    key d = key d' := by
  obtain ⟨hs, _, hk⟩ := (C124_hybrid hA key ici dcn devs hn).2 e h
  have hl : ici.length = dcn.length := ((C124_hybrid hA key ici dcn devs hn).1.1 ⟨e, h⟩).1
  refine (hk i j d d' hi hj hd hd').2 ?_
  rw [hs] at hi hj
  clear hd hd' hs hk h hn
  induction dcn generalizing ici i j with
  | nil => cases ici with
    | nil => cases hi; cases hj; rfl
    | cons => simp at hl
  | cons n dcn ih =>
    cases ici with
    | nil => simp at hl
    | cons k ici =>
      cases hi with
      | @cons a _ is _ h1 h2 =>
        cases hj with
        | @cons b _ js _ h3 h4 =>
          have hrest := ih ici is js h2 h4 (fun q hq => hsame (q + 1) hq) (by simpa using hl)
          show (a / k) :: List.zipWith (· / ·) is ici = (b / k) :: List.zipWith (· / ·) js ici
          rw [hrest]
          by_cases hn1 : n = 1
          · subst hn1
            have h1 : a < k := by simpa using h1
            have h3 : b < k := by simpa using h3
            rw [Nat.div_eq_of_lt h1, Nat.div_eq_of_lt h3]
          · rw [show a = b from hsame 0 hn1]

/-! ### GPUs -/

/-- `processes` processes with `localCount` devices each. -/
structure Spec.Gpus (p : Platform) (devs : List Dev) : Prop where
  nodup : devs.Nodup
  processes : (devs.map Dev.process).dedup.length = p.processes
  each : ∀ d ∈ devs, (devs.filter fun d' => d'.process = d.process).length = p.localCount
  pos : 0 < p.processes
  localPos : 0 < p.localCount

/-- **C124, GPUs**: there is a mesh for `num_partitions` exactly if it divides the number of GPUs of a host, or is a multiple of it by a factor that
divides the number of hosts.  The model axis of the mesh then has `num_partitions` devices; every device occurs once.  In the first case each model
replica is on one host, in the second each host belongs to one model replica: the fast links within a host always carry the model axis. -/
theorem C124_gpu {arrange : List Nat → List Dev → Option (NDArray Dev)} (hA : Arranges arrange) (p : Platform) (devs : List Dev) (hg : Gpus p devs)
    (n : Nat) :
    ((∃ e, getGpuMesh p arrange devs n = .ok e) ↔ n ∣ p.localCount ∨ (0 < n ∧ p.localCount ∣ n ∧ n / p.localCount ∣ p.processes)) ∧
    ∀ e, getGpuMesh p arrange devs n = .ok e →
      (∃ rows, e.shape = [rows, n] ∧ rows * n = p.processes * p.localCount) ∧ Complete e devs ∧
      ∃ A B, A * B = p.localCount ∧ 0 < A ∧ 0 < B ∧ (n ∣ p.localCount → B = n) ∧ (p.localCount ∣ n → A = 1) ∧
        ∀ r c r' c' d d', InBox e.shape [r, c] → InBox e.shape [r', c'] → e.get [r, c] = some d → e.get [r', c'] = some d' →
          (d.process = d'.process ↔ r / A = r' / A ∧ c / B = c' / B) := by
  have hP := hg.pos
  have hL := hg.localPos
  rcases Nat.eq_zero_or_pos n with rfl | hn
  · have hz : getGpuMesh p arrange devs 0 = .error .zeroDivision := rfl
    rw [hz]
    refine ⟨⟨fun ⟨e, h⟩ => (by cases h), fun h => ?_⟩, fun e h => by cases h⟩
    rcases h with h | h
    · rw [zero_dvd_iff] at h; omega
    · omega
  have hmp : min n p.localCount ≠ 0 := by omega
  -- the two shapes
  have main : ∀ ici dcn, gpuShapes p n = .ok (ici, dcn) → getGpuMesh p arrange devs n = hybrid arrange Dev.process ici dcn devs := by
    intro ici dcn h
    simp only [getGpuMesh, h]
  have hprod : ∀ a b c d : Nat, ([a, b] : List Nat).prod = a * b ∧ List.zipWith (· * ·) [a, b] [c, d] = [a * c, b * d] := by
    intro a b c d
    simp
  by_cases h1 : n ∣ p.localCount
  · have hle : n ≤ p.localCount := Nat.le_of_dvd hL h1
    have hsh : gpuShapes p n = .ok ([p.localCount / n, n], [p.processes, 1]) := by
      simp only [gpuShapes]
      rw [if_neg hmp, min_eq_left hle, if_neg, Nat.div_self hn, Nat.div_one]
      rw [Nat.mod_self, not_or, not_not, not_not]
      exact ⟨Nat.mod_eq_zero_of_dvd h1, rfl⟩
    have key := C124_hybrid hA Dev.process [p.localCount / n, n] [p.processes, 1] devs hg.nodup
    rw [main _ _ hsh]
    refine ⟨⟨fun _ => Or.inl h1, fun _ => key.1.2 ⟨rfl, ?_, fun d hd => ?_⟩⟩, fun e he => ?_⟩
    · rw [hg.processes, (hprod _ _ 0 0).1, mul_one]
    · rw [hg.each d hd, (hprod _ _ 0 0).1, Nat.div_mul_cancel h1]
    · obtain ⟨k1, k2, k3⟩ := key.2 e he
      rw [(hprod _ _ _ _).2, one_mul] at k1
      refine ⟨⟨_, k1, ?_⟩, k2, p.localCount / n, n, Nat.div_mul_cancel h1, Nat.div_pos hle hn, hn, fun _ => rfl, fun h2 => ?_, ?_⟩
      · rw [mul_assoc, Nat.div_mul_cancel h1]
      · rw [Nat.dvd_antisymm h1 h2, Nat.div_self hL]
      · intro r c r' c' d d' hi hj hd hd'
        rw [k3 _ _ d d' hi hj hd hd']
        simp
  · by_cases h2 : p.localCount ∣ n
    · have hle : p.localCount ≤ n := Nat.le_of_dvd hn h2
      have hsh : gpuShapes p n = .ok ([1, p.localCount], [p.processes / (n / p.localCount), n / p.localCount]) := by
        simp only [gpuShapes]
        rw [if_neg hmp, min_eq_right hle, if_neg, Nat.div_self hL]
        rw [Nat.mod_self, not_or, not_not, not_not]
        exact ⟨rfl, Nat.mod_eq_zero_of_dvd h2⟩
      have hq : 0 < n / p.localCount := Nat.div_pos hle hL
      have key := C124_hybrid hA Dev.process [1, p.localCount] [p.processes / (n / p.localCount), n / p.localCount] devs hg.nodup
      rw [main _ _ hsh]
      have hcond : ([p.processes / (n / p.localCount), n / p.localCount] : List Nat).prod = p.processes ↔ n / p.localCount ∣ p.processes := by
        rw [(hprod _ _ 0 0).1]
        exact ⟨fun h => ⟨_, by rw [mul_comm] at h; exact h.symm⟩, Nat.div_mul_cancel⟩
      refine ⟨⟨fun h => Or.inr ⟨hn, h2, ?_⟩, fun h => key.1.2 ⟨rfl, ?_, fun d hd => ?_⟩⟩, fun e he => ?_⟩
      · have := (key.1.1 h).2.1
        rw [hg.processes] at this
        exact hcond.1 this.symm
      · rw [hg.processes]
        rcases h with h | h
        · exact absurd h h1
        · exact (hcond.2 h.2.2).symm
      · rw [hg.each d hd, (hprod _ _ 0 0).1, one_mul]
      · obtain ⟨k1, k2, k3⟩ := key.2 e he
        have hdv : n / p.localCount ∣ p.processes := by
          have := (key.1.1 ⟨e, he⟩).2.1
          rw [hg.processes] at this
          exact hcond.1 this.symm
        rw [(hprod _ _ _ _).2, mul_one, Nat.div_mul_cancel h2] at k1
        refine ⟨⟨_, k1, ?_⟩, k2, 1, p.localCount, one_mul _, one_pos, hL, fun h => absurd h h1, fun _ => rfl, ?_⟩
        · conv_lhs => rw [← Nat.div_mul_cancel h2, Nat.mul_div_cancel _ hL, ← mul_assoc, Nat.div_mul_cancel hdv]
        · intro r c r' c' d d' hi hj hd hd'
          rw [k3 _ _ d d' hi hj hd hd']
          simp
    · have hsh : gpuShapes p n = .error .factor := by
        simp only [gpuShapes]
        rw [if_neg hmp, if_pos]
        rcases Nat.le_total n p.localCount with h | h
        · rw [min_eq_left h]
          exact Or.inl fun h => h1 (Nat.dvd_of_mod_eq_zero h)
        · rw [min_eq_right h]
          exact Or.inr fun h => h2 (Nat.dvd_of_mod_eq_zero h)
      have he : getGpuMesh p arrange devs n = .error .factor := by simp only [getGpuMesh, hsh]
      rw [he]
      exact ⟨⟨fun ⟨e, h⟩ => (by cases h), fun h => by rcases h with h | h; exacts [absurd h h1, absurd h.2.1 h2]⟩, fun e h => by cases h⟩

/-! ### From meshes of devices to hosts -/

/-- The processes of the devices. -/
def Spec.Host (devs : List Dev) : Type := {q : Nat // ∃ d ∈ devs, d.process = q}

/-- The mesh as seen by `LocalChunker`: named axes, sizes, and the process of the device at each position. -/
structure Spec.Seen (e : NDArray (Option Dev)) (devs : List Dev) (m : LocalChunk.Spec.Mesh Axis (Host devs)) : Prop where
  names : m.names = [.data, .model]
  shape : e.shape = [m.shape .data, m.shape .model]
  owner : ∀ q, LocalChunk.Spec.InMesh m q → ∃ d ∈ devs, e.get [q .data, q .model] = some d ∧ (m.owner q).1 = d.process

theorem inBox2 {a b r c : Nat} : InBox [a, b] [r, c] ↔ r < a ∧ c < b := by
  constructor
  · intro h
    cases h with
    | cons h1 h2 => cases h2 with
      | cons h3 _ => exact ⟨h1, h3⟩
  · intro h
    exact .cons h.1 (.cons h.2 .nil)

theorem boxes_of (e : NDArray (Option Dev)) (devs : List Dev) (R C A B : Nat) (hs : e.shape = [R, C]) (hc : Complete e devs) (hne : devs ≠ [])
    (hA : 0 < A) (hB : 0 < B) (hAR : A ∣ R) (hBC : B ∣ C)
    (hp : ∀ r c r' c' d d', InBox e.shape [r, c] → InBox e.shape [r', c'] → e.get [r, c] = some d → e.get [r', c'] = some d' →
      (d.process = d'.process ↔ r / A = r' / A ∧ c / B = c' / B)) :
    ∃ (m : LocalChunk.Spec.Mesh Axis (Host devs)) (l : Axis → Nat) (first : Host devs → Axis → Nat), Seen e devs m ∧ l .data = A ∧ l .model = B ∧
      LocalChunk.Spec.Boxes m l first := by
  classical
  rw [hs] at hp
  obtain ⟨c1, c2⟩ := hc
  rw [hs] at c1 c2
  -- the position of one device of each host
  have hpos : ∀ h : Host devs, ∃ rc : Nat × Nat, (rc.1 < R ∧ rc.2 < C) ∧ ∃ d ∈ devs, e.get [rc.1, rc.2] = some d ∧ d.process = h.1 := by
    intro h
    obtain ⟨q, d, hd, hq⟩ := h
    obtain ⟨i, ⟨hi, hid⟩, _⟩ := c2 d hd
    cases hi with
    | @cons r _ is _ h1 h2 => cases h2 with
      | @cons c _ js _ h3 h4 =>
        cases h4
        exact ⟨(r, c), ⟨h1, h3⟩, d, hd, hid, hq⟩
  choose pos hpos1 dev hdev1 hdev2 hdev3 using hpos
  obtain ⟨d0, hd0⟩ := List.exists_mem_of_ne_nil _ hne
  have hown : ∀ q : Axis → Nat, ∃ h : Host devs, q .data < R → q .model < C → ∃ d ∈ devs, e.get [q .data, q .model] = some d ∧ h.1 = d.process := by
    intro q
    by_cases hq : q .data < R ∧ q .model < C
    · obtain ⟨d, hd, hg⟩ := c1 [q .data, q .model] (inBox2.2 hq)
      exact ⟨⟨d.process, d, hd, rfl⟩, fun _ _ => ⟨d, hd, hg, rfl⟩⟩
    · exact ⟨⟨d0.process, d0, hd0, rfl⟩, fun h1 h2 => absurd ⟨h1, h2⟩ hq⟩
  choose owner howner using hown
  let sh : Axis → Nat := fun a => if a = .data then R else C
  let l : Axis → Nat := fun a => if a = .data then A else B
  let first : Host devs → Axis → Nat := fun h a => if a = .data then (pos h).1 / A * A else (pos h).2 / B * B
  have hin : ∀ q : Axis → Nat, (∀ a ∈ [Axis.data, Axis.model], q a < sh a) ↔ q .data < R ∧ q .model < C := by
    intro q
    simp [sh]
  refine ⟨⟨[.data, .model], sh, owner⟩, l, first, ⟨rfl, by rw [hs]; rfl, fun q hq => ?_⟩, rfl, rfl, ⟨by simp, ?_, ?_, ?_⟩⟩
  · have := (hin q).1 hq
    exact howner q this.1 this.2
  · intro a ha
    simp only [List.mem_cons, List.not_mem_nil, or_false] at ha
    rcases ha with rfl | rfl
    · exact hA
    · exact hB
  · intro h a ha
    have key : ∀ x k n : Nat, x < n → 0 < k → k ∣ n → x / k * k + k ≤ n := by
      intro x k n hx hk hd
      obtain ⟨t, rfl⟩ := hd
      have : x / k < t := Nat.div_lt_of_lt_mul hx
      calc x / k * k + k = (x / k + 1) * k := by ring
        _ ≤ t * k := Nat.mul_le_mul_right _ this
        _ = k * t := by ring
    simp only [List.mem_cons, List.not_mem_nil, or_false] at ha
    rcases ha with rfl | rfl
    · exact key _ _ _ (hpos1 h).1 hA hAR
    · exact key _ _ _ (hpos1 h).2 hB hBC
  · intro h q hq
    obtain ⟨hq1, hq2⟩ := (hin q).1 hq
    obtain ⟨d, hd, hg, ho⟩ := howner q hq1 hq2
    have key : ∀ x y k : Nat, 0 < k → (x / k = y / k ↔ y / k * k ≤ x ∧ x < y / k * k + k) := by
      intro x y k hk
      rw [Nat.div_eq_iff hk]
      omega
    have e1 : owner q = h ↔ d.process = (dev h).process := by
      rw [hdev3, ← ho]
      exact Subtype.ext_iff
    show owner q = h ↔ _
    rw [e1, hp _ _ _ _ d (dev h) (inBox2.2 ⟨hq1, hq2⟩) (inBox2.2 (hpos1 h)) hg (hdev2 h), key _ _ _ hA, key _ _ _ hB]
    simp only [List.forall_mem_cons, List.not_mem_nil, false_implies, implies_true, and_true]
    exact Iff.rfl

/-- **C124, hosts of a GPU mesh**: the devices of every host are one rectangle of the mesh.  So everything said about `LocalChunker` (C41) and
`get_data_layout` (C42) holds for GPU meshes. -/
theorem C124_gpu_hosts {arrange : List Nat → List Dev → Option (NDArray Dev)} (hA : Arranges arrange) (p : Platform) (devs : List Dev) (hg : Gpus p devs)
    (n : Nat) (e : NDArray (Option Dev)) (h : getGpuMesh p arrange devs n = .ok e) :
    ∃ (m : LocalChunk.Spec.Mesh Axis (Host devs)) (l : Axis → Nat) (first : Host devs → Axis → Nat), Seen e devs m ∧
      l .data * l .model = p.localCount ∧ LocalChunk.Spec.Boxes m l first := by
  obtain ⟨hiff, hall⟩ := C124_gpu hA p devs hg n
  obtain ⟨⟨rows, hs, hrows⟩, hc, A, B, hAB, hA0, hB0, hB1, hA1, hp⟩ := hall e h
  have hne : devs ≠ [] := by
    rintro rfl
    have h1 := hg.processes
    have h2 := hg.pos
    simp only [List.map_nil, List.dedup_nil, List.length_nil] at h1
    omega
  have hdv : A ∣ rows ∧ B ∣ n := by
    rcases hiff.1 ⟨e, h⟩ with h1 | ⟨h0, h2, _⟩
    · have := hB1 h1
      subst this
      refine ⟨?_, dvd_rfl⟩
      rw [← hAB, ← mul_assoc] at hrows
      exact ⟨p.processes, by rw [Nat.eq_of_mul_eq_mul_right hB0 hrows, mul_comm]⟩
    · have := hA1 h2
      subst this
      rw [one_mul] at hAB
      exact ⟨one_dvd _, hAB ▸ h2⟩
  obtain ⟨m, l, first, k1, k2, k3, k4⟩ := boxes_of e devs rows n A B hs hc hne hA0 hB0 hdv.1 hdv.2 hp
  exact ⟨m, l, first, k1, by rw [k2, k3, hAB], k4⟩

/-- **C124, hosts of a TPU mesh** (the same consequence of C40). -/
theorem C124_tpu_hosts {p : Platform} {m g l : List Nat} {devs locals : List Dev} {e : NDArray (Option Dev)} (ht : Mesh.Spec.Tpu p devs locals g l)
    (hlen : m.length = g.length) (hhost : Mesh.Spec.HostBoxes p devs l) (hz : Mesh.Spec.ZMajor g m → l.getD 2 0 = 1 ∧ l.getD 3 0 = g.getD 3 0)
    (h : getMesh p m devs locals true = .ok e) :
    ∃ (mm : LocalChunk.Spec.Mesh Axis (Host devs)) (ll : Axis → Nat) (first : Host devs → Axis → Nat), Seen e devs mm ∧
      ll .data * ll .model = l.prod ∧ LocalChunk.Spec.Boxes mm ll first := by
  obtain ⟨A, B, hAB, hAR, hBC, hp⟩ := Mesh.C40_hosts ht hlen hhost hz h
  obtain ⟨hs, c1, c2⟩ := Mesh.C40_mesh (Or.inl ht) h
  have hA0 : 0 < A := Nat.pos_of_ne_zero fun h0 => by have := ht.lpos; rw [← hAB, h0, zero_mul] at this; omega
  have hB0 : 0 < B := Nat.pos_of_ne_zero fun h0 => by have := ht.lpos; rw [← hAB, h0, mul_zero] at this; omega
  have hc : Complete e devs := by
    constructor
    · intro i hi
      rw [hs] at hi
      cases hi with
      | @cons r _ is _ h1 h2 => cases h2 with
        | @cons c _ js _ h3 h4 =>
          cases h4
          exact c1 r c h1 h3
    · intro d hd
      obtain ⟨⟨r, c⟩, ⟨a1, a2, a3⟩, hu⟩ := c2 d hd
      refine ⟨[r, c], ⟨by rw [hs]; exact inBox2.2 ⟨a1, a2⟩, a3⟩, ?_⟩
      rintro i ⟨hi, hid⟩
      rw [hs] at hi
      cases hi with
      | @cons r' _ is _ h1 h2 => cases h2 with
        | @cons c' _ js _ h3 h4 =>
          cases h4
          have := hu (r', c') ⟨h1, h3, hid⟩
          cases this
          rfl
  have hne : devs ≠ [] := by
    rintro rfl
    have h0 := (ht.fills.mem (unravel g 0)).2 (unravel_inBox g 0 ht.pos)
    obtain ⟨d, hd, _⟩ := h0
    simp at hd
  have hp' : ∀ r c r' c' d d', InBox e.shape [r, c] → InBox e.shape [r', c'] → e.get [r, c] = some d → e.get [r', c'] = some d' →
      (d.process = d'.process ↔ r / A = r' / A ∧ c / B = c' / B) := by
    intro r c r' c' d d' hi hj hd hd'
    rw [hs] at hi hj
    have hi := inBox2.1 hi
    have hj := inBox2.1 hj
    have m1 : d ∈ devs := by
      obtain ⟨x, hx, hxe⟩ := c1 r c hi.1 hi.2
      rw [hd] at hxe
      cases hxe
      exact hx
    have m2 : d' ∈ devs := by
      obtain ⟨x, hx, hxe⟩ := c1 r' c' hj.1 hj.2
      rw [hd'] at hxe
      cases hxe
      exact hx
    exact hp d d' m1 m2 r c r' c' hi.1 hi.2 hj.1 hj.2 hd hd'
  obtain ⟨mm, ll, first, k1, k2, k3, k4⟩ := boxes_of e devs _ _ A B hs hc hne hA0 hB0 hAR hBC hp'
  exact ⟨mm, ll, first, k1, by rw [k2, k3, hAB], k4⟩

/-! ### CPUs, and `default_mesh` -/

theorem foldl_coords (p : Platform) (devs : List Dev) (h : ∀ d ∈ devs, d.coords = none) (i : List Nat) (acc : Option Dev) :
    devs.foldl (fun acc d => if [d.process, d.id % p.localCount] = i then some d else acc) acc =
      devs.foldl (fun acc d => if getCoords p d = i then some d else acc) acc := by
  induction devs generalizing acc with
  | nil => rfl
  | cons d ds ih =>
    have hd : getCoords p d = [d.process, d.id % p.localCount] := by simp [getCoords, h d (by simp)]
    simp only [List.foldl_cons, hd]
    exact ih (fun x hx => h x (by simp [hx])) _

/-- **C124, CPUs**: the mesh has a row per process and a column per local device, and every device once. -/
theorem C124_cpu (p : Platform) (devs : List Dev) (hc : ∀ d ∈ devs, d.coords = none) (hf : Mesh.Spec.Fills p devs [p.processes, p.localCount]) :
    ∃ e, getCpuMesh p devs = .ok e ∧ e.shape = [p.processes, p.localCount] ∧ Complete e devs ∧
      ∀ r c d, InBox e.shape [r, c] → e.get [r, c] = some d → d.process = r := by
  have hco : ∀ d ∈ devs, getCoords p d = [d.process, d.id % p.localCount] := fun d hd => by simp [getCoords, hc d hd]
  have hin : ∀ d ∈ devs, InBox [p.processes, p.localCount] [d.process, d.id % p.localCount] := fun d hd => (hf.mem _).1 ⟨d, hd, hco d hd⟩
  have hany : devs.any (fun d => !(d.process < p.processes && d.id % p.localCount < p.localCount)) = false := by
    rw [List.any_eq_false]
    intro d hd
    have := inBox2.1 (hin d hd)
    simp [this.1, this.2]
  have he := hf.enumerates
  have hget : ∀ i, devs.foldl (fun acc d => if [d.process, d.id % p.localCount] = i then some d else acc) none =
      (place p [p.processes, p.localCount] devs).get i := fun i => foldl_coords p devs hc i none
  refine ⟨_, by unfold getCpuMesh; rw [if_neg (by rw [hany]; exact Bool.false_ne_true)], rfl, ⟨?_, ?_⟩, ?_⟩
  · intro i hi
    obtain ⟨d, hd, h⟩ := he.holds i hi
    exact ⟨d, hd, (hget i).trans h⟩
  · intro d hd
    obtain ⟨i, ⟨h1, h2⟩, hu⟩ := he.once d hd
    exact ⟨i, ⟨h1, (hget i).trans h2⟩, fun j hj => hu j ⟨hj.1, (hget j).symm.trans hj.2⟩⟩
  · intro r c d hi hd
    have key : ∀ (l : List Dev) (acc : Option Dev), l.foldl (fun acc d => if [d.process, d.id % p.localCount] = [r, c] then some d else acc) acc = some d →
        acc = some d ∨ [d.process, d.id % p.localCount] = [r, c] := by
      intro l
      induction l with
      | nil => intro acc h; exact Or.inl h
      | cons x xs ih =>
        intro acc h
        rcases ih _ h with h | h
        · beta_reduce at h
          by_cases hx : [x.process, x.id % p.localCount] = [r, c]
          · rw [if_pos hx] at h
            cases h
            exact Or.inr hx
          · rw [if_neg hx] at h
            exact Or.inl h
        · exact Or.inr h
    rcases key devs none hd with h | h
    · cases h
    · simp only [List.cons.injEq] at h
      exact h.1

/-- **C124, the default mesh**: unless both mesh shapes are given, the axes are 'data' and 'model'.  Without a submesh, the model axis of GPUs and TPUs
has `num_partitions` devices; for CPUs `num_partitions` is ignored (a finding): the model axis has all local devices.  Given both mesh shapes, there
is a 'replica' axis, and the rest is ignored. -/
theorem C124_default {arrange : List Nat → List Dev → Option (NDArray Dev)} (hA : Arranges arrange) (p : Platform) (slice : Dev → Nat)
    (devs locals : List Dev) (n : Nat) (ici dcn : Option (List Nat)) (hnone : ici = none ∨ dcn = none) (names : List Axis) (e : NDArray (Option Dev)) :
    (∀ g l k, Mesh.Spec.Topology p devs locals g l → defaultMesh p (.tpu k) arrange slice devs locals n none ici dcn = .ok (names, e) →
      names = [.data, .model] ∧ e.shape = [g.prod / n, n] ∧ Complete e devs) ∧
    (Gpus p devs → defaultMesh p .gpu arrange slice devs locals n none ici dcn = .ok (names, e) →
      names = [.data, .model] ∧ e.shape = [p.processes * p.localCount / n, n] ∧ Complete e devs) ∧
    (defaultMesh p .cpu arrange slice devs locals n none ici dcn = .ok (names, e) →
      names = [.data, .model] ∧ e.shape = [p.processes, p.localCount] ∧
        ∀ n', defaultMesh p .cpu arrange slice devs locals n' none ici dcn = .ok (names, e)) ∧
    (∀ hw sub i d, defaultMesh p hw arrange slice devs locals n sub (some i) (some d) = .ok (names, e) →
      names = [.replica, .data, .model] ∧ hybrid arrange slice i d devs = .ok e ∧ i.length = 3) := by
  have hred : ∀ hw n, defaultMesh p hw arrange slice devs locals n none ici dcn =
      defaultMesh p hw arrange slice devs locals n none none none := by
    intro hw n
    unfold defaultMesh
    cases devs.getLast? with
    | none => rfl
    | some last =>
      rcases hnone with rfl | rfl
      · rfl
      · cases ici <;> rfl
  refine ⟨fun g l k ht h => ?_, fun hg h => ?_, fun h => ?_, fun hw sub i d h => ?_⟩
  · rw [hred] at h
    unfold defaultMesh at h
    cases hl : devs.getLast? with
    | none => rw [hl] at h; cases h
    | some last =>
      simp only [hl] at h
      cases hm : defaultSubmesh k (bounds p last) n with
      | error x => rw [hm] at h; cases h
      | ok m =>
        simp only [hm] at h
        cases hg : getMesh p m devs locals true with
        | error x => rw [hg] at h; cases h
        | ok e' =>
          rw [hg] at h
          simp only [Except.mapError, Except.map, Except.ok.injEq, Prod.mk.injEq] at h
          obtain ⟨rfl, rfl⟩ := h
          have hmn := ((C40_default k (bounds p last) n).1 m hm).2
          obtain ⟨hs, c1, c2⟩ := Mesh.C40_mesh ht hg
          rw [hmn] at hs c1 c2
          refine ⟨rfl, hs, ?_, ?_⟩
          · intro i hi
            rw [hs] at hi
            cases hi with
            | @cons r _ is _ h1 h2 => cases h2 with
              | @cons c _ js _ h3 h4 =>
                cases h4
                exact c1 r c h1 h3
          · intro d hd
            obtain ⟨⟨r, c⟩, ⟨a1, a2, a3⟩, hu⟩ := c2 d hd
            refine ⟨[r, c], ⟨by rw [hs]; exact inBox2.2 ⟨a1, a2⟩, a3⟩, ?_⟩
            rintro i ⟨hi, hid⟩
            rw [hs] at hi
            cases hi with
            | @cons r' _ is _ h1 h2 => cases h2 with
              | @cons c' _ js _ h3 h4 =>
                cases h4
                have := hu (r', c') ⟨h1, h3, hid⟩
                cases this
                rfl
  · rw [hred] at h
    unfold defaultMesh at h
    cases hl : devs.getLast? with
    | none => rw [hl] at h; cases h
    | some last =>
      simp only [hl] at h
      cases hm : getGpuMesh p arrange devs n with
      | error x => rw [hm] at h; cases h
      | ok e' =>
        rw [hm] at h
        simp only [Except.map, Except.ok.injEq, Prod.mk.injEq] at h
        obtain ⟨rfl, rfl⟩ := h
        obtain ⟨⟨rows, hs, hr⟩, hc, _⟩ := (C124_gpu hA p devs hg n).2 e' hm
        have hn : 0 < n := Nat.pos_of_ne_zero fun h0 => by
          have h1 := hg.pos
          have h2 := hg.localPos
          rw [h0, mul_zero] at hr
          exact absurd hr (Nat.mul_pos h1 h2).ne
        refine ⟨rfl, ?_, hc⟩
        rw [hs, ← hr, Nat.mul_div_cancel _ hn]
  · have hn : ∀ n', defaultMesh p .cpu arrange slice devs locals n' none ici dcn = defaultMesh p .cpu arrange slice devs locals n none ici dcn := by
      intro n'
      rw [hred, hred]
      rfl
    refine ⟨?_, ?_, fun n' => (hn n').trans h⟩ <;>
    · rw [hred] at h
      unfold defaultMesh at h
      cases hl : devs.getLast? with
      | none => rw [hl] at h; cases h
      | some last =>
        simp only [hl] at h
        unfold getCpuMesh at h
        split_ifs at h
        · cases h
        · simp only [Except.map, Except.ok.injEq, Prod.mk.injEq] at h
          obtain ⟨rfl, rfl⟩ := h
          rfl
  · unfold defaultMesh at h
    cases hl : devs.getLast? with
    | none => rw [hl] at h; cases h
    | some last =>
      simp only [hl] at h
      cases hm : hybrid arrange slice i d devs with
      | error x => rw [hm] at h; cases h
      | ok e' =>
        simp only [hm] at h
        by_cases h3 : i.length = 3
        · rw [if_neg (not_not.2 h3)] at h
          cases h
          exact ⟨rfl, rfl, h3⟩
        · rw [if_pos h3] at h
          cases h

/-! ### Witnesses -/

/-- Devices in row-major order. -/
def exArrange [Inhabited D] (shape : List Nat) (devs : List D) : Option (NDArray D) :=
  if shape.prod = devs.length then some ⟨shape, fun i => devs.getD (ravel shape i) default⟩ else none

theorem exArranges [Inhabited D] : Arranges (exArrange (D := D)) where
  ok := by
    intro shape devs hn hl
    refine ⟨_, if_pos hl, fun i hi => ?_, fun d hd => ?_⟩
    · have := ravel_lt hi
      show devs.getD (ravel shape i) default ∈ devs
      rw [List.getD_eq_getElem _ _ (by omega)]
      exact List.getElem_mem _
    · obtain ⟨k, hk, hkd⟩ := List.getElem_of_mem hd
      refine ⟨unravel shape k, ⟨unravel_inBox _ _ (by omega), ?_⟩, ?_⟩
      · show devs.getD (ravel shape (unravel shape k)) default = d
        rw [ravel_unravel _ _ (by omega), List.getD_eq_getElem _ _ hk, hkd]
      · rintro i ⟨hi, hid⟩
        have hlt := ravel_lt hi
        have hid : devs.getD (ravel shape i) default = d := hid
        rw [List.getD_eq_getElem _ _ (by omega), ← hkd] at hid
        rw [← hn.getElem_inj_iff.1 hid, unravel_ravel hi]
  bad := fun _ _ h => if_neg h

instance : Inhabited Dev := ⟨⟨none, 0, 0, 0⟩⟩

/-- Two hosts with four GPUs each. -/
def exGpus : List Dev := (List.range 8).map fun k => ⟨none, 0, k / 4, k⟩

theorem exGpus_ok : Gpus ⟨2, 4⟩ exGpus := ⟨by decide, by decide, by decide, by decide, by decide⟩

def shapeOf : Except Err (NDArray (Option Dev)) → Option (List Nat)
  | .ok e => some e.shape
  | .error _ => none

def procAt (r c : Nat) : Except Err (NDArray (Option Dev)) → Option Nat
  | .ok e => (e.get [r, c]).map Dev.process
  | .error _ => none

/-- 2 partitions: four rows, each on one host; 8 partitions: one row over both hosts; 3 or 16 partitions: no mesh. -/
example : shapeOf (getGpuMesh ⟨2, 4⟩ exArrange exGpus 2) = some [4, 2] ∧ procAt 1 1 (getGpuMesh ⟨2, 4⟩ exArrange exGpus 2) = some 0 ∧
    procAt 2 0 (getGpuMesh ⟨2, 4⟩ exArrange exGpus 2) = some 1 ∧ shapeOf (getGpuMesh ⟨2, 4⟩ exArrange exGpus 8) = some [1, 8] ∧
    procAt 0 5 (getGpuMesh ⟨2, 4⟩ exArrange exGpus 8) = some 1 := by decide
example : shapeOf (getGpuMesh ⟨2, 4⟩ exArrange exGpus 3) = none ∧ shapeOf (getGpuMesh ⟨2, 4⟩ exArrange exGpus 16) = none := by decide

/-- Two slices of two by two devices, split along a replica axis. -/
example : shapeOf (hybrid exArrange Dev.process [1, 2, 2] [2, 1, 1] exGpus) = some [2, 2, 2] := by decide

/-- The same devices as CPUs: the model axis has four devices, whatever `num_partitions` is. -/
example : shapeOf ((defaultMesh ⟨2, 4⟩ .cpu exArrange Dev.process exGpus exGpus 1 none none none).map Prod.snd) = some [2, 4] := by decide
example : (∀ d ∈ exGpus, d.coords = none) ∧ Mesh.Spec.Fills ⟨2, 4⟩ exGpus [2, 4] := by
  refine ⟨by decide, by decide, by decide, fun i => ⟨?_, ?_⟩⟩
  · rintro ⟨d, hd, rfl⟩
    have : ∀ d ∈ exGpus, d.process < 2 ∧ d.id % 4 < 4 ∧ d.coords = none := by decide
    obtain ⟨a, b, c⟩ := this d hd
    simp only [getCoords, c]
    exact inBox2.2 ⟨a, b⟩
  · intro hi
    cases hi with
    | @cons r _ is _ h1 h2 => cases h2 with
      | @cons c _ js _ h3 h4 =>
        cases h4
        have : ∀ r < 2, ∀ c < 4, ∃ d ∈ exGpus, getCoords ⟨2, 4⟩ d = [r, c] := by decide
        exact this r h1 c h3

/-- `C124_tpu_hosts` on the slice of the example of C40. -/
example : ∃ e, getMesh ⟨2, 2⟩ [1, 2, 1, 1] Mesh.exDevs Mesh.exLocals true = .ok e ∧ ∃ (mm : LocalChunk.Spec.Mesh Axis (Host Mesh.exDevs)) (ll : Axis → Nat) (first : Host Mesh.exDevs → Axis → Nat), Seen e Mesh.exDevs mm ∧
      ll .data * ll .model = 2 ∧ LocalChunk.Spec.Boxes mm ll first :=
  ⟨_, rfl, C124_tpu_hosts (m := [1, 2, 1, 1]) Mesh.exTpu rfl Mesh.exHosts (fun _ => by decide) rfl⟩

end Verif.HybridMesh
