import Verif.Spec.Calm
namespace Verif.Calm
open Spec
variable {H C G : Type}

/-- Layers below `k` have been run, the others not. -/
def mix (M : Net H C G) (h0 : H) (c : Nat → C) (k : Nat) : Nat → C := fun i => if i < k then kv M h0 c i else c i

theorem runLayers_spec (M : Net H C G) (h0 : H) (c : Nat → C) (n a : Nat) :
    runLayers M n a (hid M h0 c a) (mix M h0 c a) = (hid M h0 c (a + n), mix M h0 c (a + n)) := by
  induction n generalizing a with
  | zero => rfl
  | succ n ih =>
    have hc : mix M h0 c a a = c a := by simp [mix]
    have hu : upd (mix M h0 c a) a (M.layer a (hid M h0 c a) (c a)).2 = mix M h0 c (a + 1) := by
      funext j
      simp only [upd, mix]
      split_ifs with h1 h2 h3 h4 h5
      · subst h1; rfl
      · omega
      · rfl
      · omega
      · omega
      · rfl
    rw [runLayers, hc, hu]
    have := ih (a + 1)
    rw [show a + 1 + n = a + (n + 1) by omega] at this
    exact this

theorem mix_zero (M : Net H C G) (h0 : H) (c : Nat → C) : mix M h0 c 0 = c := by
  funext i; simp [mix]

theorem runLayers_start (M : Net H C G) (h0 : H) (c : Nat → C) (n : Nat) :
    runLayers M n 0 h0 c = (hid M h0 c n, mix M h0 c n) := by
  have := runLayers_spec M h0 c n 0
  rw [mix_zero, Nat.zero_add] at this
  exact this

theorem propLayers_spec (M : Net H C G) (n a : Nat) (h : H) (c : Nat → C) :
    propLayers M n a h c = fun i => if a ≤ i ∧ i < a + n then M.prop i h (c i) else c i := by
  induction n generalizing a c with
  | zero => funext i; simp [propLayers]
  | succ n ih =>
    rw [propLayers, ih]
    funext i
    by_cases hi : i = a
    · subst hi
      rw [if_neg (by omega), if_pos (by omega)]
      simp [upd]
    · simp only [upd, if_neg hi]
      by_cases h2 : a + 1 ≤ i ∧ i < a + 1 + n
      · rw [if_pos h2, if_pos (by omega)]
      · rw [if_neg h2, if_neg (by omega)]

/-- The number of exits after the first. -/
def exits (cfg : Cfg) (L : Nat) : Nat := (L - (cfg.firstExit + 1) + cfg.exitInterval - 1) / cfg.exitInterval

theorem lt_exits {cfg : Cfg} {L k : Nat} (he : 1 ≤ cfg.exitInterval) :
    k < exits cfg L ↔ cfg.firstExit + 1 + cfg.exitInterval * k < L := by
  have hd : k < exits cfg L ↔ k + 1 ≤ (L - (cfg.firstExit + 1) + cfg.exitInterval - 1) / cfg.exitInterval := Iff.rfl
  rw [hd, Nat.le_div_iff_mul_le he]
  have : (k + 1) * cfg.exitInterval = cfg.exitInterval * k + cfg.exitInterval := by ring
  rw [this]
  omega

theorem keepInds_length (cfg : Cfg) (L : Nat) : (keepInds cfg L).length = exits cfg L := by
  simp [keepInds, pyRange, exits]

theorem keepInds_get (cfg : Cfg) (L k : Nat) (h : k < exits cfg L) :
    (keepInds cfg L)[k]? = some (cfg.firstExit + 1 + cfg.exitInterval * k) := by
  have h' : k < (L - (cfg.firstExit + 1) + cfg.exitInterval - 1) / cfg.exitInterval := h
  simp [keepInds, pyRange, h']

theorem exitAt_lt {cfg : Cfg} {L k : Nat} (he : 1 ≤ cfg.exitInterval) : exitAt cfg L k < L ↔ k < exits cfg L := by
  rw [lt_exits he, exitAt]; omega

theorem exitAt_of_lt {cfg : Cfg} {L k : Nat} (he : 1 ≤ cfg.exitInterval) (h : k < exits cfg L) :
    exitAt cfg L k = cfg.firstExit + 1 + cfg.exitInterval * k := by
  have := (lt_exits he).1 h
  rw [exitAt]; omega

theorem compIntervals_length (cfg : Cfg) (L : Nat) : (compIntervals cfg L).length = exits cfg L + 1 := by
  simp only [compIntervals, List.length_cons, List.length_zip, List.length_append, List.length_drop, keepInds_length, List.length_nil]
  omega

theorem compIntervals_get (cfg : Cfg) (L k : Nat) (he : 1 ≤ cfg.exitInterval) (h : k < exits cfg L) :
    (compIntervals cfg L)[k + 1]? = some (exitAt cfg L k, exitAt cfg L (k + 1)) := by
  have h2 : ((keepInds cfg L).drop 1 ++ [L])[k]? = some (exitAt cfg L (k + 1)) := by
    by_cases hk : k + 1 < exits cfg L
    · rw [List.getElem?_append_left (by rw [List.length_drop, keepInds_length]; omega), List.getElem?_drop, Nat.add_comm,
        keepInds_get cfg L (k + 1) hk, exitAt_of_lt he hk]
    · have hl : ((keepInds cfg L).drop 1).length = k := by rw [List.length_drop, keepInds_length]; omega
      rw [List.getElem?_append_right (by omega), hl, Nat.sub_self]
      have := (exitAt_lt (L := L) (k := k + 1) he).not.2 hk
      have h3 : exitAt cfg L (k + 1) ≤ L := by rw [exitAt]; omega
      simp only [List.getElem?_cons_zero]
      congr 1; omega
  simp only [compIntervals, List.getElem?_cons_succ, List.getElem?_zip_eq_some]
  refine ⟨?_, h2⟩
  rw [keepInds_get cfg L k h, exitAt_of_lt he h]

/-- The loop state at exit `k`. -/
def stateAt (M : Net H C G) (cfg : Cfg) (h0 : H) (c : Nat → C) (k : Nat) : State H C :=
  ⟨hid M h0 c (exitAt cfg M.numLayers k), mix M h0 c (exitAt cfg M.numLayers k), confAt M cfg h0 c k, k + 1, (exitAt cfg M.numLayers k : Int)⟩

theorem init_eq (M : Net H C G) (cfg : Cfg) (h0 : H) (c : Nat → C) (hf : cfg.firstExit + 1 ≤ M.numLayers) :
    initState M cfg h0 c = stateAt M cfg h0 c 0 := by
  have : exitAt cfg M.numLayers 0 = cfg.firstExit + 1 := by rw [exitAt]; omega
  simp only [initState, stateAt, confAt, runLayers_start, this]
  rfl

theorem exitAt_succ (cfg : Cfg) (L k : Nat) : exitAt cfg L (k + 1) = min (exitAt cfg L k + cfg.exitInterval) L := by
  simp only [exitAt, Nat.mul_add, Nat.mul_one]; omega

theorem segment (M : Net H C G) (cfg : Cfg) (h0 : H) (c : Nat → C) (k : Nat) (he : 1 ≤ cfg.exitInterval)
    (hk : k < exits cfg M.numLayers) :
    (switch (compIntervals cfg M.numLayers) (k + 1)).getD (0, 0) = (exitAt cfg M.numLayers k, exitAt cfg M.numLayers (k + 1)) ∧
      runLayers M (exitAt cfg M.numLayers (k + 1) - exitAt cfg M.numLayers k) (exitAt cfg M.numLayers k)
        (hid M h0 c (exitAt cfg M.numLayers k)) (mix M h0 c (exitAt cfg M.numLayers k)) =
        (hid M h0 c (exitAt cfg M.numLayers (k + 1)), mix M h0 c (exitAt cfg M.numLayers (k + 1))) := by
  constructor
  · rw [switch, compIntervals_length, show min (k + 1) (exits cfg M.numLayers + 1 - 1) = k + 1 by omega, compIntervals_get cfg _ k he hk]
    rfl
  · rw [runLayers_spec]
    have : exitAt cfg M.numLayers k ≤ exitAt cfg M.numLayers (k + 1) := by
      rw [exitAt_succ]; have : exitAt cfg M.numLayers k ≤ M.numLayers := by (rw [exitAt]; omega)
      omega
    rw [show exitAt cfg M.numLayers k + (exitAt cfg M.numLayers (k + 1) - exitAt cfg M.numLayers k) = exitAt cfg M.numLayers (k + 1) by omega]

theorem body_eq (M : Net H C G) (cfg : Cfg) (h0 : H) (c : Nat → C) (k : Nat) (he : 1 ≤ cfg.exitInterval)
    (hk : k < exits cfg M.numLayers) : body M cfg (stateAt M cfg h0 c k) = stateAt M cfg h0 c (k + 1) := by
  obtain ⟨h1, h2⟩ := segment M cfg h0 c k he hk
  simp only [body, stateAt, h1, h2, confAt]
  congr 1
  rw [exitAt_succ]; push_cast; rfl

theorem propagate_eq (M : Net H C G) (cfg : Cfg) (h0 h : H) (c : Nat → C) (k : Nat) (he : 1 ≤ cfg.exitInterval)
    (hf : cfg.firstExit + 1 ≤ M.numLayers) (hk : k ≤ exits cfg M.numLayers) :
    propagate M cfg h (k + 1) (mix M h0 c (exitAt cfg M.numLayers k)) = fun i =>
      if i < exitAt cfg M.numLayers k then kv M h0 c i else if i < M.numLayers then M.prop i h (c i) else c i := by
  rw [propagate]
  have hlen : ((compIntervals cfg M.numLayers).map (fun iv => (iv.1, M.numLayers)) ++
      [(((compIntervals cfg M.numLayers).getLast?.getD (0, 0)).2, ((compIntervals cfg M.numLayers).getLast?.getD (0, 0)).2)]).length =
      exits cfg M.numLayers + 2 := by
    simp [compIntervals_length]
  rw [switch, hlen, show min (k + 1) (exits cfg M.numLayers + 2 - 1) = k + 1 by omega]
  have hle : exitAt cfg M.numLayers k ≤ M.numLayers := by rw [exitAt]; omega
  by_cases hk' : k < exits cfg M.numLayers
  · rw [List.getElem?_append_left (by rw [List.length_map, compIntervals_length]; omega), List.getElem?_map, compIntervals_get cfg _ k he hk']
    simp only [Option.map_some, Option.getD_some]
    rw [propLayers_spec]
    funext i
    simp only [mix]
    by_cases h1 : i < exitAt cfg M.numLayers k
    · rw [if_neg (by omega), if_pos h1, if_pos h1]
    · by_cases h2 : i < M.numLayers
      · rw [if_pos (by omega), if_neg h1, if_neg h1, if_pos h2]
      · rw [if_neg (by omega), if_neg h1, if_neg h1, if_neg h2]
  · have hkK : k = exits cfg M.numLayers := by omega
    have hE : exitAt cfg M.numLayers k = M.numLayers := by
      have := (exitAt_lt (L := M.numLayers) (k := k) he).not.2 hk'; omega
    rw [List.getElem?_append_right (by rw [List.length_map, compIntervals_length]; omega), List.length_map, compIntervals_length,
      show k + 1 - (exits cfg M.numLayers + 1) = 0 by omega]
    simp only [List.getElem?_cons_zero, Option.getD_some, Nat.sub_self, propLayers, hE]
    funext i
    simp only [mix]
    by_cases h1 : i < M.numLayers
    · rw [if_pos h1, if_pos h1]
    · rw [if_neg h1, if_neg h1, if_neg h1]

/-- A while loop whose states are `st k, st (k+1), …` as long as the condition holds. -/
theorem while_run {S : Type} (cnd : S → Bool) (bdy : S → S) (st : Nat → S) (K : Nat) (hb : ∀ k < K, cnd (st k) = true → bdy (st k) = st (k + 1))
    (hK : ∀ k, K ≤ k → cnd (st k) = false) (fuel k : Nat) (hf : K ≤ k + fuel) (hkK : k ≤ K) :
    ∃ m, k ≤ m ∧ m ≤ K ∧ while_ cnd bdy fuel (st k) = some (st m) ∧ cnd (st m) = false ∧ ∀ j, k ≤ j → j < m → cnd (st j) = true := by
  induction fuel generalizing k with
  | zero =>
    have hc := hK k (by omega)
    exact ⟨k, le_refl _, hkK, by simp [while_, hc], hc, fun j h1 h2 => by omega⟩
  | succ n ih =>
    by_cases hc : cnd (st k) = true
    · have hkK' : k < K := by
        by_contra h
        rw [hK k (by omega)] at hc; cases hc
      obtain ⟨m, h1, h2, h3, h4, h5⟩ := ih (k + 1) (by omega) hkK'
      refine ⟨m, by omega, h2, ?_, h4, fun j hj hm => ?_⟩
      · rw [while_, if_pos hc, hb k hkK' hc, h3]
      · rcases Nat.lt_or_eq_of_le hj with h | h
        · exact h5 j h hm
        · subst h; exact hc
    · have hc' : cnd (st k) = false := by simpa using hc
      exact ⟨k, le_refl _, hkK, by rw [while_, if_neg hc], hc', fun j h1 h2 => by omega⟩

theorem cond_iff (M : Net H C G) (cfg : Cfg) (h0 : H) (c : Nat → C) (k : Nat) (hm : cfg.minExit ≤ M.numLayers) :
    cond M cfg (stateAt M cfg h0 c k) = false ↔ Stops M cfg h0 c k := by
  have hle : exitAt cfg M.numLayers k ≤ M.numLayers := by rw [exitAt]; omega
  simp only [cond, stateAt, Stops, Bool.or_eq_false_iff, Bool.and_eq_false_iff, List.any_eq_false, decide_eq_true_eq,
    decide_eq_false_iff_not, not_lt, Nat.cast_lt, Nat.cast_le]
  constructor
  · rintro ⟨h1, h2⟩
    exact ⟨h2, h1.imp_right (fun h => by omega)⟩
  · rintro ⟨h1, h2⟩
    exact ⟨h2.imp_right (fun h => by omega), h1⟩

theorem stops_exits (M : Net H C G) (cfg : Cfg) (h0 : H) (c : Nat → C) (hv : Valid M cfg) (k : Nat) (hk : exits cfg M.numLayers ≤ k) :
    Stops M cfg h0 c k := by
  have hE : exitAt cfg M.numLayers k = M.numLayers := by
    have := (exitAt_lt (L := M.numLayers) (k := k) hv.interval).not.2 (by omega)
    have hle : exitAt cfg M.numLayers k ≤ M.numLayers := by rw [exitAt]; omega
    omega
  exact ⟨by rw [hE]; exact hv.min, Or.inr hE⟩

theorem exits_le (cfg : Cfg) (L : Nat) (he : 1 ≤ cfg.exitInterval) : exits cfg L ≤ L := by
  by_contra h
  have h1 := (lt_exits (L := L) (k := exits cfg L - 1) he).1 (by omega)
  have h2 : exits cfg L - 1 ≤ cfg.exitInterval * (exits cfg L - 1) := Nat.le_mul_of_pos_left _ he
  omega

end Verif.Calm
