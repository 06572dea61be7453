import Verif.Model.MoeMesh
import Verif.Props.Mesh
namespace Verif.MoeMesh
open Verif.ND Verif.Mesh Verif.Mesh.Spec

theorem expertAxis_spec (data : Nat) : ∀ n, 1 ≤ n → ∃ e, expertAxis data n = some e ∧ 1 ≤ e ∧ e ≤ n ∧ e ∣ data ∧
    ∀ k, k ∣ data → k ≤ n → k ≤ e
  | 0, h => by omega
  | n + 1, _ => by
    simp only [expertAxis]
    by_cases hd : data % (n + 1) = 0
    · rw [if_neg (by simpa using hd)]
      exact ⟨n + 1, rfl, by omega, le_refl _, Nat.dvd_of_mod_eq_zero hd, fun k _ hk => hk⟩
    · rw [if_pos hd]
      have hn : 1 ≤ n := by
        by_contra hc
        have : n = 0 := by omega
        subst this
        exact hd (Nat.mod_one _)
      obtain ⟨e, h1, h2, h3, h4, h5⟩ := expertAxis_spec data n hn
      refine ⟨e, h1, h2, by omega, h4, fun k hk hkn => ?_⟩
      rcases Nat.lt_or_ge k (n + 1) with hlt | hge
      · exact h5 k hk (by omega)
      · have : k = n + 1 := by omega
        subst this
        exact absurd (Nat.mod_eq_zero_of_dvd hk) hd

/-- **C43** (expert axis).  From a base mesh of shape (data, model) and at least one expert partition, the result has shape
(data / e, e, model) where `e` is the largest divisor of the data axis not above the requested number, and the device at
(d, x, m) is the one the base mesh has at (d * e + x, m). -/
theorem C43_axis {D : Type} (base : NDArray D) (data model n : Nat) (hs : base.shape = [data, model]) (hd : 0 < data)
    (hm : 0 < model) (hn : 1 ≤ n) :
    ∃ e r, defaultMoeMesh base n = .ok r ∧ r.shape = [data / e, e, model] ∧
      e ∣ data ∧ 1 ≤ e ∧ e ≤ n ∧ (∀ k, k ∣ data → k ≤ n → k ≤ e) ∧
      ∀ d x m, d < data / e → x < e → m < model → d * e + x < data ∧ r.get [d, x, m] = base.get [d * e + x, m] := by
  obtain ⟨e, h1, h2, h3, h4, h5⟩ := expertAxis_spec data n hn
  obtain ⟨q, hq⟩ := h4
  have hem : 0 < e * model := Nat.mul_pos h2 hm
  have hprod : base.shape.prod = q * (e * model) := by rw [hs, hq]; simp; ring
  have hdiv : data / e = q := by rw [hq, Nat.mul_div_cancel_left _ h2]
  refine ⟨e, ⟨[q, e, model], fun i => base.get (unravel base.shape (ravel [q, e, model] i))⟩, ?_, ?_, ⟨q, hq⟩, h2, h3, h5, ?_⟩
  · unfold defaultMoeMesh
    rw [hs]
    dsimp only
    rw [h1]
    dsimp only
    rw [← hs, hprod, if_neg (by rw [Nat.mul_mod_left]; omega), Nat.mul_div_cancel _ hem]
    unfold reshape
    rw [if_pos (by rw [hprod]; simp)]
  · simp only [hdiv]
  · intro d x m hd' hx hm'
    rw [hdiv] at hd'
    have hlt : d * e + x < data := by
      rw [hq]
      calc d * e + x < d * e + e := by omega
        _ = e * (d + 1) := by ring
        _ ≤ e * q := Nat.mul_le_mul_left _ hd'
    refine ⟨hlt, ?_⟩
    show base.get (unravel base.shape (ravel [q, e, model] [d, x, m])) = _
    have : ravel [q, e, model] [d, x, m] = ravel base.shape [d * e + x, m] := by
      rw [hs]
      simp [ravel]
      ring
    rw [this, unravel_ravel]
    rw [hs]
    exact .cons hlt (.cons hm' .nil)

/-- **C43** (all devices).  On every topology for which the base mesh exists, the mixture-of-experts mesh for at least one
expert partition exists, every position holds a device, and every device is at exactly one position. -/
theorem C43_devices {p : Platform} {m g l : List Nat} {devs locals : List Dev} {tile : Bool} {base : NDArray (Option Dev)}
    (ht : Topology p devs locals g l) (h : getMesh p m devs locals tile = .ok base) (hgm : 0 < g.prod / m.prod) (hm : 0 < m.prod)
    (n : Nat) (hn : 1 ≤ n) :
    ∃ e r, defaultMoeMesh base n = .ok r ∧ r.shape = [g.prod / m.prod / e, e, m.prod] ∧
      (∀ d x c, d < g.prod / m.prod / e → x < e → c < m.prod → ∃ dev ∈ devs, r.get [d, x, c] = some dev) ∧
      ∀ dev ∈ devs, ∃! i : Nat × Nat × Nat, i.1 < g.prod / m.prod / e ∧ i.2.1 < e ∧ i.2.2 < m.prod ∧
        r.get [i.1, i.2.1, i.2.2] = some dev := by
  obtain ⟨hs, hpos, huniq⟩ := C40_mesh ht h
  obtain ⟨e, r, h1, h2, ⟨q, hq⟩, h4, h5, h6, h7⟩ := C43_axis base _ _ n hs hgm hm hn
  have hdiv : g.prod / m.prod / e = q := by rw [hq, Nat.mul_div_cancel_left _ h4]
  refine ⟨e, r, h1, h2, ?_, ?_⟩
  · intro d x c hd hx hc
    obtain ⟨k1, k2⟩ := h7 d x c hd hx hc
    rw [k2]
    exact hpos _ _ k1 hc
  · intro dev hdev
    obtain ⟨⟨r0, c0⟩, ⟨b1, b2, b3⟩, b4⟩ := huniq dev hdev
    dsimp only at b1 b2 b3
    rw [hdiv] at h7 ⊢
    have hr0 : r0 / e < q := Nat.div_lt_of_lt_mul (by rw [← hq]; exact b1)
    have hr1 : r0 % e < e := Nat.mod_lt _ h4
    refine ⟨(r0 / e, r0 % e, c0), ⟨hr0, hr1, b2, ?_⟩, ?_⟩
    · dsimp only
      rw [(h7 _ _ _ hr0 hr1 b2).2, Nat.div_add_mod' r0 e]
      exact b3
    · rintro ⟨d, x, c⟩ ⟨k1, k2, k3, k4⟩
      dsimp only at k1 k2 k3 k4
      obtain ⟨j1, j2⟩ := h7 d x c k1 k2 k3
      rw [j2] at k4
      have := b4 (d * e + x, c) ⟨j1, k3, k4⟩
      cases this
      have e1 : (d * e + x) / e = d := by
        rw [Nat.mul_comm, Nat.mul_add_div h4, Nat.div_eq_of_lt k2, Nat.add_zero]
      have e2 : (d * e + x) % e = x := by
        rw [Nat.mul_comm, Nat.mul_add_mod, Nat.mod_eq_of_lt k2]
      rw [e1, e2]

/-- **C43** (no expert partition).  Zero expert partitions end in a ZeroDivisionError. -/
theorem C43_zero {D : Type} (base : NDArray D) (data model : Nat) (hs : base.shape = [data, model]) :
    defaultMoeMesh base 0 = .error .zeroDivision := by
  unfold defaultMoeMesh
  rw [hs]
  rfl

/-- A base mesh of shape (12, 2) with at most 8 expert partitions: the expert axis is 6. -/
example : ∃ r, defaultMoeMesh (⟨[12, 2], fun i => i⟩ : NDArray (List Nat)) 8 = .ok r ∧ r.shape = [2, 6, 2] ∧
    r.get [1, 3, 1] = [9, 1] := ⟨_, rfl, rfl, rfl⟩

/-- Four chips of two hosts, one chip per model replica: the hypotheses of `C43_devices` are met. -/
example : ∃ base, Topology ⟨2, 2⟩ exDevs exLocals [2, 2, 1, 1] [2, 1, 1, 1] ∧
    getMesh ⟨2, 2⟩ [1, 1, 1, 1] exDevs exLocals true = .ok base ∧
    0 < [2, 2, 1, 1].prod / [1, 1, 1, 1].prod ∧ 0 < [1, 1, 1, 1].prod :=
  ⟨_, Or.inl exTpu, rfl, by decide, by decide⟩

end Verif.MoeMesh
