import Verif.Lemmas.Calm
/-
C65: early exit decoding takes the first exit at which every example is confident, and is the full model if there is none.
C66: the caches of the layers that were not run.
-/
namespace Verif.Calm
open Spec
variable {H C G : Type}

/-- C65: the call ends; it returns the logits of the first exit that is allowed (`minExit`) and at which every example of the batch reaches the
threshold, or of the last layer; reports that exit and its confidences; and leaves the caches of the layers run as all layers would.  The skipped
layers get the hidden state of the FIRST exit (see C66). -/
theorem C65_exit (M : Net H C G) (cfg : Cfg) (hv : Valid M cfg) (h0 : H) (c : Nat → C) (fuel : Nat) (hfuel : M.numLayers ≤ fuel) :
    ∃ k, Stops M cfg h0 c k ∧ (∀ j < k, ¬ Stops M cfg h0 c j) ∧
      earlyExit M cfg fuel h0 c = some
        { logits := M.logits (hid M h0 c (exitAt cfg M.numLayers k))
          cache := fun i => if i < exitAt cfg M.numLayers k then kv M h0 c i
            else if i < M.numLayers then M.prop i (hid M h0 c (cfg.firstExit + 1)) (c i) else c i
          conf := confAt M cfg h0 c k
          layer := exitAt cfg M.numLayers k } := by
  obtain ⟨k, _, hk, h1, h2, h3⟩ := while_run (cond M cfg) (body M cfg) (stateAt M cfg h0 c) (exits cfg M.numLayers)
    (fun k hk _ => body_eq M cfg h0 c k hv.interval hk)
    (fun k hk => (cond_iff M cfg h0 c k hv.min).2 (stops_exits M cfg h0 c hv k hk)) fuel 0
    (by have := exits_le cfg M.numLayers hv.interval; omega) (Nat.zero_le _)
  refine ⟨k, (cond_iff M cfg h0 c k hv.min).1 h2, fun j hj hs => ?_, ?_⟩
  · have := (cond_iff M cfg h0 c j hv.min).2 hs
    rw [h3 j (Nat.zero_le _) hj] at this; cases this
  · have h0e : exitAt cfg M.numLayers 0 = cfg.firstExit + 1 := by have := hv.first; rw [exitAt]; omega
    simp only [earlyExit, earlyExitWith, init_eq M cfg h0 c hv.first, h1, Option.map_some]
    congr 1
    have := propagate_eq M cfg h0 (hid M h0 c (cfg.firstExit + 1)) c k hv.interval hv.first hk
    simp only [stateAt, h0e, this]

/-- C65: if at every exit before the last layer some example is not confident, the result is that of the whole model: logits and all caches. -/
theorem C65_all_layers (M : Net H C G) (cfg : Cfg) (hv : Valid M cfg) (h0 : H) (c : Nat → C) (fuel : Nat) (hfuel : M.numLayers ≤ fuel)
    (hn : ∀ k, exitAt cfg M.numLayers k < M.numLayers → ∃ x ∈ confAt M cfg h0 c k, x < cfg.threshold) :
    ∃ o, earlyExit M cfg fuel h0 c = some o ∧ o.logits = M.logits (runLayers M M.numLayers 0 h0 c).1 ∧
      o.cache = (runLayers M M.numLayers 0 h0 c).2 ∧ o.layer = M.numLayers := by
  obtain ⟨k, hs, _, he⟩ := C65_exit M cfg hv h0 c fuel hfuel
  have hE : exitAt cfg M.numLayers k = M.numLayers := by
    rcases hs.2 with h | h
    · have hle : exitAt cfg M.numLayers k ≤ M.numLayers := by rw [exitAt]; omega
      rcases Nat.lt_or_eq_of_le hle with hlt | h'
      · obtain ⟨x, hx, hlt'⟩ := hn k hlt
        exact absurd (h x hx) (not_le.2 hlt')
      · exact h'
    · exact h
  refine ⟨_, he, ?_, ?_, ?_⟩
  · dsimp only; rw [runLayers_start, hE]
  · dsimp only; rw [runLayers_start, hE]
    funext i
    simp only [mix]
    split_ifs <;> rfl
  · dsimp only; rw [hE]

/-- C65: nothing above the minimal exit is skipped: with `min_exit` equal to the number of layers the result is that of the whole model. -/
theorem C65_min_exit (M : Net H C G) (cfg : Cfg) (hv : Valid M cfg) (hm : cfg.minExit = M.numLayers) (h0 : H) (c : Nat → C) (fuel : Nat)
    (hfuel : M.numLayers ≤ fuel) :
    ∃ o, earlyExit M cfg fuel h0 c = some o ∧ o.logits = M.logits (runLayers M M.numLayers 0 h0 c).1 ∧
      o.cache = (runLayers M M.numLayers 0 h0 c).2 ∧ o.layer = M.numLayers := by
  obtain ⟨k, hs, _, he⟩ := C65_exit M cfg hv h0 c fuel hfuel
  have hE : exitAt cfg M.numLayers k = M.numLayers := by
    have := hs.1
    have hle : exitAt cfg M.numLayers k ≤ M.numLayers := by rw [exitAt]; omega
    omega
  refine ⟨_, he, ?_, ?_, ?_⟩
  · dsimp only; rw [runLayers_start, hE]
  · dsimp only; rw [runLayers_start, hE]
    funext i
    simp only [mix]
    split_ifs <;> rfl
  · dsimp only; rw [hE]

theorem softmax_bounds (x : List ℝ) (hx : 2 ≤ x.length) : ∀ p ∈ softmax x, 0 < p ∧ p < 1 := by
  intro p hp
  simp only [softmax, List.mem_map] at hp
  obtain ⟨a, ha, rfl⟩ := hp
  have hs : Real.exp a + ((x.erase a).map Real.exp).sum = (x.map Real.exp).sum := List.sum_map_erase Real.exp ha
  have hpos : 0 < ((x.erase a).map Real.exp).sum := by
    apply List.sum_pos
    · intro y hy
      obtain ⟨z, _, rfl⟩ := List.mem_map.1 hy
      exact Real.exp_pos z
    · intro h
      have h1 : (x.erase a).length = x.length - 1 := List.length_erase_of_mem ha
      have h2 := congrArg List.length h
      rw [List.length_map, h1, List.length_nil] at h2
      omega
  have he := Real.exp_pos a
  rw [← hs]
  constructor
  · positivity
  · rw [div_lt_one (by positivity)]; linarith

/-- C65: the confidence `softmax_max` of an example lies strictly between 0 and 1. -/
theorem C65_softmax_max (x : List ℝ) (hx : 2 ≤ x.length) : 0 < softmaxMax x ∧ softmaxMax x < 1 := by
  have hb := softmax_bounds x hx
  have hne : softmax x ≠ [] := by
    intro h; have := congrArg List.length h; simp only [softmax, List.length_map, List.length_nil] at this; omega
  rw [softmaxMax]
  generalize softmax x = l at hb hne
  have key : ∀ (l : List ℝ) (a : ℝ), (∀ p ∈ l, 0 < p ∧ p < 1) → a < 1 → l.foldl max a < 1 ∧ a ≤ l.foldl max a := by
    intro l
    induction l with
    | nil => intro a _ ha; exact ⟨ha, le_refl _⟩
    | cons p l ih =>
      intro a hl ha
      have h1 := ih (max a p) (fun q hq => hl q (List.mem_cons_of_mem _ hq)) (max_lt ha (hl p List.mem_cons_self).2)
      exact ⟨h1.1, le_trans (le_max_left _ _) h1.2⟩
  cases l with
  | nil => exact absurd rfl hne
  | cons p l =>
    have hp := hb p List.mem_cons_self
    have h1 := key l (max 0 p) (fun q hq => hb q (List.mem_cons_of_mem _ hq)) (max_lt zero_lt_one hp.2)
    exact ⟨lt_of_lt_of_le (lt_of_lt_of_le hp.1 (le_max_right _ _)) h1.2, h1.1⟩

/-- C65: so does `softmax_diff`, except that it may be 0. -/
theorem C65_softmax_diff (x : List ℝ) (hx : 2 ≤ x.length) : 0 ≤ softmaxDiff x ∧ softmaxDiff x < 1 := by
  rw [softmaxDiff]
  have hlen : (x.mergeSort (fun a b => decide (b ≤ a))).length = x.length := List.length_mergeSort _
  have hsorted : (x.mergeSort (fun a b => decide (b ≤ a))).Pairwise (fun a b => decide (b ≤ a)) :=
    List.pairwise_mergeSort (fun a b c h1 h2 => by simp only [decide_eq_true_eq] at *; exact le_trans h2 h1)
      (fun a b => by simp only [Bool.or_eq_true, decide_eq_true_eq]; exact le_total b a) x
  generalize x.mergeSort (fun a b => decide (b ≤ a)) = l at hlen hsorted
  have hb := softmax_bounds l (by omega)
  match l, hlen with
  | a :: b :: l, _ =>
    have hab : b ≤ a := by
      have := (List.pairwise_cons.1 hsorted).1 b List.mem_cons_self
      simpa using this
    generalize hS : ((a :: b :: l).map Real.exp).sum = S
    have h1 : softmax (a :: b :: l) = (Real.exp a / S) :: (Real.exp b / S) :: l.map (fun y => Real.exp y / S) := by
      simp only [softmax, hS]; rfl
    rw [h1] at hb ⊢
    have ha := hb _ List.mem_cons_self
    have hb' := hb (Real.exp b / S) (List.mem_cons_of_mem _ List.mem_cons_self)
    have hSp : 0 < S := by
      rw [← hS]
      apply List.sum_pos
      · intro y hy; obtain ⟨z, _, rfl⟩ := List.mem_map.1 hy; exact Real.exp_pos z
      · simp
    have hle : Real.exp b / S ≤ Real.exp a / S := div_le_div_of_nonneg_right (Real.exp_le_exp.2 hab) hSp.le
    simp only [List.getD_cons_zero, List.getD_cons_succ]
    exact ⟨by linarith, by linarith [ha.2, hb'.1]⟩
  | [_], h => simp only [List.length_singleton] at h; omega
  | [], h => simp only [List.length_nil] at h; omega

/-- C65: with a threshold of at least 1 (the default) and confidences by softmax, early exit decoding is the whole model, for a vocabulary of at
least two tokens. -/
theorem C65_threshold_one (M : Net H C (List (List ℝ))) (cfg : Cfg) (hv : Valid M cfg) (ht : 1 ≤ cfg.threshold)
    (hconf : (M.conf = fun _ h => (M.logits h).map softmaxMax) ∨ (M.conf = fun _ h => (M.logits h).map softmaxDiff))
    (hb : ∀ h, M.logits h ≠ []) (hV : ∀ h, ∀ row ∈ M.logits h, 2 ≤ row.length)
    (h0 : H) (c : Nat → C) (fuel : Nat) (hfuel : M.numLayers ≤ fuel) :
    ∃ o, earlyExit M cfg fuel h0 c = some o ∧ o.logits = M.logits (runLayers M M.numLayers 0 h0 c).1 ∧
      o.cache = (runLayers M M.numLayers 0 h0 c).2 ∧ o.layer = M.numLayers := by
  apply C65_all_layers M cfg hv h0 c fuel hfuel
  have key : ∀ g h, ∃ x ∈ M.conf g h, x < cfg.threshold := by
    intro g h
    obtain ⟨row, hrow⟩ := List.exists_mem_of_ne_nil _ (hb h)
    rcases hconf with hc | hc
    · exact ⟨softmaxMax row, by rw [hc]; exact List.mem_map_of_mem hrow, lt_of_lt_of_le (C65_softmax_max row (hV h row hrow)).2 ht⟩
    · exact ⟨softmaxDiff row, by rw [hc]; exact List.mem_map_of_mem hrow, lt_of_lt_of_le (C65_softmax_diff row (hV h row hrow)).2 ht⟩
  intro k _
  cases k with
  | zero => exact key _ _
  | succ k => exact key _ _

/-- C65, oracle: with `oracle_tok_consistency` the predicted token is that of the whole model. -/
theorem C65_oracle {T : Type} [DecidableEq T] (M : Net H C G) (cfg : Cfg) (argmax : G → T) (hf : cfg.firstExit + 1 ≤ M.numLayers)
    (he : 1 ≤ cfg.exitInterval) (h0 : H) (c : Nat → C) (fuel : Nat) (hfuel : M.numLayers ≤ fuel) :
    ∃ o, oracleTok M cfg argmax fuel h0 c = some o ∧ argmax o.logits = argmax (M.logits (runLayers M M.numLayers 0 h0 c).1) := by
  have hEnd : ∀ k, exits cfg M.numLayers ≤ k → exitAt cfg M.numLayers k = M.numLayers := fun k hk => by
    have := (exitAt_lt (L := M.numLayers) (k := k) he).not.2 (by omega)
    have hle : exitAt cfg M.numLayers k ≤ M.numLayers := by rw [exitAt]; omega
    omega
  obtain ⟨k, _, hk, h1, h2, h3⟩ := while_run
    (fun s : State H C => decide (argmax (M.logits s.hidden) ≠ argmax (M.logits (runLayers M M.numLayers 0 h0 c).1)) &&
      decide (s.layer < M.numLayers)) (body M cfg) (stateAt M cfg h0 c) (exits cfg M.numLayers)
    (fun k hk _ => body_eq M cfg h0 c k he hk)
    (fun k hk => by simp [stateAt, hEnd k hk]) fuel 0
    (by have := exits_le cfg M.numLayers he; omega) (Nat.zero_le _)
  refine ⟨_, by simp only [oracleTok, earlyExitWith, init_eq M cfg h0 c hf, h1, Option.map_some]; rfl, ?_⟩
  dsimp only [stateAt]
  rw [Bool.and_eq_false_iff, decide_eq_false_iff_not, decide_eq_false_iff_not, not_not, not_lt] at h2
  rcases h2 with h2 | h2
  · exact h2
  · have : exitAt cfg M.numLayers k = M.numLayers := by
      have hle : exitAt cfg M.numLayers k ≤ M.numLayers := by rw [exitAt]; omega
      have : (M.numLayers : Int) ≤ (exitAt cfg M.numLayers k : Int) := h2
      omega
    rw [this, runLayers_start]

/-- C65, finding: a minimal exit beyond the last layer never ends. -/
theorem C65_min_exit_hangs (M : Net H C G) (cfg : Cfg) (hf : cfg.firstExit + 1 ≤ M.numLayers) (hm : M.numLayers < cfg.minExit) (h0 : H)
    (c : Nat → C) (fuel : Nat) : earlyExit M cfg fuel h0 c = none := by
  have key : ∀ fuel (s : State H C), s.layer ≤ M.numLayers → while_ (cond M cfg) (body M cfg) fuel s = none := by
    intro fuel
    induction fuel with
    | zero =>
      intro s hs
      have : cond M cfg s = true := by
        simp only [cond, Bool.or_eq_true, decide_eq_true_eq]; right; omega
      simp [while_, this]
    | succ n ih =>
      intro s hs
      have : cond M cfg s = true := by
        simp only [cond, Bool.or_eq_true, decide_eq_true_eq]; right; omega
      rw [while_, if_pos this]
      exact ih _ (min_le_right _ _)
  rw [earlyExit, earlyExitWith, key _ _ (by simp only [initState]; omega)]
  rfl

/-- C65, finding: `position_adjusted_threshold` has no effect, since the position is always 0. -/
theorem C65_position_ignored (threshold temp : ℝ) (maxLen : Nat) : positionThreshold threshold temp maxLen 0 = threshold := by
  simp only [positionThreshold, Nat.cast_zero, mul_zero, zero_div, Real.exp_zero]; ring

/-- C66 (partial): if the first exit is taken, every skipped layer's cache is updated from the hidden state of the last layer run.  Missing: later
exits, where it is false (`C66_wrong_state`). -/
theorem C66_propagation_partial (M : Net H C G) (cfg : Cfg) (hv : Valid M cfg) (h0 : H) (c : Nat → C) (fuel : Nat) (hfuel : M.numLayers ≤ fuel)
    (hs : Stops M cfg h0 c 0) :
    ∃ o, earlyExit M cfg fuel h0 c = some o ∧ o.layer = cfg.firstExit + 1 ∧
      (∀ i < cfg.firstExit + 1, o.cache i = kv M h0 c i) ∧
      ∀ i, cfg.firstExit + 1 ≤ i → i < M.numLayers → o.cache i = M.prop i (hid M h0 c (cfg.firstExit + 1)) (c i) := by
  obtain ⟨k, _, hj, he⟩ := C65_exit M cfg hv h0 c fuel hfuel
  have hk : k = 0 := by
    by_contra h
    exact hj 0 (by omega) hs
  subst hk
  have h0e : exitAt cfg M.numLayers 0 = cfg.firstExit + 1 := by have := hv.first; rw [exitAt]; omega
  refine ⟨_, he, by simp only [h0e]; push_cast; rfl, fun i hi => ?_, fun i h1 h2 => ?_⟩
  · dsimp only; rw [if_pos (by omega)]
  · dsimp only; rw [if_neg (by omega), if_pos h2]

/-- A network whose layers count: the hidden state is the number of layers run, a cache is the hidden state it was last updated from. -/
noncomputable def exNet (L : Nat) (conf : Nat → ℝ) : Net Nat Nat Nat :=
  { numLayers := L
    layer := fun _ h _ => (h + 1, h)
    prop := fun _ h _ => h
    logits := fun h => h
    conf := fun _ h => [conf h] }

theorem exNet_hid (L : Nat) (conf : Nat → ℝ) (c : Nat → Nat) (k : Nat) : hid (exNet L conf) 0 c k = k := by
  induction k with
  | zero => rfl
  | succ k ih => simp only [hid, ih]; rfl

/-- C66, finding: if the exit is not the first one, the skipped layers do not get the hidden state of the last layer run (as the comment in lines
830-834 says), but that of the first exit: three layers, exit after two, and the third layer's cache is made from the state after one. -/
theorem C66_wrong_state :
    ∃ (M : Net Nat Nat Nat) (cfg : Cfg) (c : Nat → Nat) (o : Out Nat Nat), Valid M cfg ∧ earlyExit M cfg 3 0 c = some o ∧ o.layer = 2 ∧
      o.logits = M.logits (hid M 0 c 2) ∧ o.cache 2 = M.prop 2 (hid M 0 c 1) (c 2) ∧ o.cache 2 ≠ M.prop 2 (hid M 0 c 2) (c 2) := by
  let M := exNet 3 (fun h => if h = 1 then 0 else 1)
  let cfg : Cfg := ⟨1, 0, 0, 1⟩
  have hv : Valid M cfg := ⟨by decide, by decide, by decide⟩
  obtain ⟨k, hs, hj, he⟩ := C65_exit M cfg hv 0 (fun _ => 0) 3 (le_refl _)
  have h0 : ¬ Stops M cfg 0 (fun _ => 0) 0 := by
    rintro ⟨_, h | h⟩
    · have := h 0 (by simp [confAt, M, exNet, exitAt, cfg, hid])
      norm_num [cfg] at this
    · exact absurd h (by decide)
  have h1 : Stops M cfg 0 (fun _ => 0) 1 := by
    refine ⟨by decide, Or.inl ?_⟩
    intro x hx
    simp only [confAt] at hx
    rw [exNet_hid, exNet_hid] at hx
    have : exitAt cfg M.numLayers (0 + 1) = 2 := rfl
    rw [this] at hx
    simp only [M, exNet, List.mem_singleton] at hx
    rw [hx]; norm_num [cfg]
  have hk : k = 1 := by
    have h2 : ¬ 1 < k := fun h => hj 1 h h1
    have h3 : k ≠ 0 := fun h => h0 (h ▸ hs)
    omega
  subst hk
  refine ⟨M, cfg, fun _ => 0, _, hv, he, rfl, rfl, rfl, ?_⟩
  decide

/-- C66 (partial): with `oracle_cache` and an exit interval of 1, all caches are those of the whole model.  Missing: longer intervals, where it is
false (`C66_oracle_reruns`). -/
theorem C66_oracle_cache_partial (M : Net H C G) (cfg : Cfg) (hv : Valid M cfg) (hone : cfg.exitInterval = 1) (h0 : H) (c : Nat → C) (fuel : Nat)
    (hfuel : M.numLayers ≤ fuel) :
    ∃ o, oracleCache M cfg fuel h0 c = some o ∧ o.cache = (runLayers M M.numLayers 0 h0 c).2 := by
  obtain ⟨k, _, hk, h1, h2, h3⟩ := while_run (cond M cfg) (body M cfg) (stateAt M cfg h0 c) (exits cfg M.numLayers)
    (fun k hk _ => body_eq M cfg h0 c k hv.interval hk)
    (fun k hk => (cond_iff M cfg h0 c k hv.min).2 (stops_exits M cfg h0 c hv k hk)) fuel 0
    (by have := exits_le cfg M.numLayers hv.interval; omega) (Nat.zero_le _)
  have hf := hv.first
  have hEx : exits cfg M.numLayers = M.numLayers - (cfg.firstExit + 1) := by
    simp only [exits, hone]; omega
  have hAt : ∀ j, exitAt cfg M.numLayers j = min (cfg.firstExit + 1 + j) M.numLayers := fun j => by simp only [exitAt, hone]; omega
  -- the second loop runs through the states of the first, with the counter one behind
  obtain ⟨m, hm1, hm2, hm3, hm4, _⟩ := while_run (fun s : State H C => decide (s.layer < (M.numLayers : Int) - 1)) (body M cfg)
    (fun j => { stateAt M cfg h0 c j with layer := (exitAt cfg M.numLayers j : Int) - 1 }) (exits cfg M.numLayers)
    (fun j hj _ => by
      have hb := body_eq M cfg h0 c j hv.interval hj
      have hl : min ((exitAt cfg M.numLayers j : Int) - 1 + 1) M.numLayers = (exitAt cfg M.numLayers (j + 1) : Int) - 1 := by
        rw [hAt, hAt]; omega
      simp only [body, stateAt, hone, State.mk.injEq] at hb ⊢
      exact ⟨hb.1, hb.2.1, hb.2.2.1, trivial, by simpa [hone] using hl⟩)
    (fun j hj => by
      simp only [decide_eq_false_iff_not, not_lt]
      rw [hAt]; omega)
    fuel k (by have := exits_le cfg M.numLayers hv.interval; omega) hk
  have hm : m = exits cfg M.numLayers := by
    simp only [decide_eq_false_iff_not, not_lt] at hm4
    rw [hAt] at hm4
    omega
  have hl : ({ stateAt M cfg h0 c k with layer := (stateAt M cfg h0 c k).layer - (cfg.exitInterval : Int) } : State H C) =
      { stateAt M cfg h0 c k with layer := (exitAt cfg M.numLayers k : Int) - 1 } := by
    simp only [stateAt, hone, Nat.cast_one]
  refine ⟨_, by simp only [oracleCache, init_eq M cfg h0 c hv.first, h1, hl, hm3, Option.map_some]; rfl, ?_⟩
  dsimp only [stateAt]
  rw [runLayers_start, hm]
  have : exitAt cfg M.numLayers (exits cfg M.numLayers) = M.numLayers := by rw [hAt]; omega
  rw [this]

/-- C66, finding: with an exit interval of 2 `oracle_cache` runs the last layers twice: three layers, exit after one, and the other layers'
caches are updated two times. -/
theorem C66_oracle_reruns :
    ∃ (M : Net Nat Nat Nat) (cfg : Cfg), Valid M cfg ∧ (runLayers M M.numLayers 0 0 (fun _ => 0)).2 2 = 1 ∧
      (oracleCache M cfg 5 0 (fun _ => 0)).map (fun o => o.cache 2) = some 2 := by
  let M : Net Nat Nat Nat := ⟨3, fun _ h c => (h + 1, c + 1), fun _ _ c => c, fun h => h, fun _ _ => [1]⟩
  let cfg : Cfg := ⟨1, 0, 0, 2⟩
  have hc : cond M cfg (initState M cfg 0 (fun _ => 0)) = false := by
    simp [cond, initState, M, cfg, runLayers]
  have hw : while_ (cond M cfg) (body M cfg) 5 (initState M cfg 0 (fun _ => 0)) = some (initState M cfg 0 (fun _ => 0)) := by
    rw [while_, hc]; rfl
  refine ⟨M, cfg, ⟨by decide, by decide, by decide⟩, rfl, ?_⟩
  have h1 : compIntervals cfg 3 = [(0, 1), (1, 3)] := by decide
  have h2 : ∀ i, switch (compIntervals cfg M.numLayers) (i + 1) = some (1, 3) := by
    intro i; simp [switch, M, h1]
  rw [oracleCache, hw]
  simp [while_, body, initState, h2, runLayers, M, cfg, upd]

/-- C65: the sampled sequences and their log-probabilities are those of the ordinary sampler with the logits of the early exits. -/
theorem C65_decodes {σ P : Type} [AddCommMonoid P] (eos : Int) (call : Sampling.St σ P → (σ × (Nat → Int × P)) × List ℝ × Int) (fuel n : Nat)
    (inps : List Sampling.Inp) (model : σ) :
    (calmSample eos call fuel n inps model).1 = Sampling.singleTrial eos (fun s => (call s).1) fuel inps model := by
  have key : ∀ fuel (s : Sampling.St (Records σ) P), (Sampling.loop eos (calmNext call) fuel s).rows =
      (Sampling.loop eos (fun s => (call s).1) fuel ⟨s.rows, s.aux.model⟩).rows := by
    intro fuel
    induction fuel with
    | zero => intro s; rfl
    | succ f ih =>
      intro s
      rw [Sampling.loop, Sampling.loop]
      have he : Sampling.allEnded (⟨s.rows, s.aux.model⟩ : Sampling.St σ P) = Sampling.allEnded s := rfl
      rw [he]
      by_cases h : Sampling.allEnded s
      · rw [if_pos h, if_pos h]
      · rw [if_neg h, if_neg h, ih]; rfl
  simp only [calmSample, Sampling.singleTrial, key]
  rfl

/-- The sampling loop of the ordinary sampler after `t` iterations. -/
def Spec.after {σ P : Type} [AddCommMonoid P] (eos : Int) (call : Sampling.St σ P → (σ × (Nat → Int × P)) × List ℝ × Int) (inps : List Sampling.Inp)
    (model : σ) : Nat → Sampling.St σ P
  | 0 => Sampling.initSt eos inps model
  | t + 1 => Sampling.body eos (fun s => (call s).1) (Spec.after eos call inps model t)

theorem foldl_set_same {α : Type} (idx : List Nat) (t : Nat) (x : α) (row : List α) (h : ∀ j ∈ idx, j = t) (hne : idx ≠ []) :
    idx.foldl (fun r j => r.set j x) row = row.set t x := by
  induction idx generalizing row with
  | nil => exact absurd rfl hne
  | cons j idx ih =>
    have hj := h j List.mem_cons_self
    subst hj
    rw [List.foldl_cons]
    by_cases hn : idx = []
    · subst hn; rfl
    · rw [ih _ (fun i hi => h i (List.mem_cons_of_mem _ hi)) hn, List.set_set]

theorem record_same {α : Type} (table : List (List α)) (idx : List Nat) (t : Nat) (v : List α) (h : ∀ j ∈ idx, j = t) (hl : table.length = idx.length) :
    record table idx v = List.zipWith (fun row x => row.set t x) table v := by
  by_cases hne : idx = []
  · subst hne
    have : table = [] := List.length_eq_zero_iff.1 hl
    subst this; rfl
  · rw [record]
    congr 1
    funext row x
    exact foldl_set_same idx t x row h hne

/-- C65: when decoding from scratch, the loop calls the model `T` times, until all rows have ended, and the returned tables hold for every row
and every call the layer of exit and the row's confidence, and -1 behind. -/
theorem C65_records {σ P : Type} [AddCommMonoid P] (eos : Int) (call : Sampling.St σ P → (σ × (Nat → Int × P)) × List ℝ × Int) (fuel n : Nat)
    (inps : List Sampling.Inp) (model : σ) (hn : 1 ≤ n) (hfuel : n ≤ fuel)
    (hin : ∀ r ∈ inps, r.toks.length = n ∧ r.initialIndex = none ∧ r.maxSteps = none)
    (hconf : ∀ t, (call (Spec.after eos call inps model t)).2.1.length = inps.length) :
    ∃ T ≤ n, Sampling.allEnded (Spec.after eos call inps model T) ∧ (∀ t < T, ¬ Sampling.allEnded (Spec.after eos call inps model t)) ∧
      (∀ b < inps.length, ∀ t < n, ((calmSample eos call fuel n inps model).2.2[b]?.bind (·[t]?)) =
        some (if t < T then (call (Spec.after eos call inps model t)).2.2 else -1)) ∧
      (∀ b < inps.length, ∀ t < n, ((calmSample eos call fuel n inps model).2.1[b]?.bind (·[t]?)) =
        if t < T then (call (Spec.after eos call inps model t)).2.1[b]? else some (-1)) := by
  -- the rows after `t` iterations
  have hrows : ∀ t ≤ n, (Spec.after eos call inps model t).rows.length = inps.length ∧
      ∀ r ∈ (Spec.after eos call inps model t).rows, r.curIndex = t ∧ r.maxLen = n ∧ (t = n → r.ended = true) := by
    intro t
    induction t with
    | zero =>
      intro _
      refine ⟨by simp [Spec.after, Sampling.initSt], fun r hr => ?_⟩
      simp only [Spec.after, Sampling.initSt, List.mem_map] at hr
      obtain ⟨i, hi, rfl⟩ := hr
      obtain ⟨h1, h2, h3⟩ := hin i hi
      refine ⟨by simp [Sampling.initRow, h2], by simp [Sampling.initRow, Sampling.maxDecodeLen, h3, h1], fun h => by omega⟩
    | succ t ih =>
      intro ht
      obtain ⟨hl, hr⟩ := ih (by omega)
      refine ⟨by simp [Spec.after, Sampling.body, hl], fun r hr' => ?_⟩
      simp only [Spec.after, Sampling.body] at hr'
      obtain ⟨b, hb, rfl⟩ := List.mem_mapIdx.1 hr'
      obtain ⟨h1, h2, _⟩ := hr _ (List.getElem_mem hb)
      refine ⟨?_, ?_, ?_⟩
      · simp only [Sampling.stepRow, h1, h2]; omega
      · simp only [Sampling.stepRow, h2]
      · intro h
        simp only [Sampling.stepRow, h1, h2, Bool.or_eq_true, decide_eq_true_eq]
        right; omega
  have hend : Sampling.allEnded (Spec.after eos call inps model n) = true := by
    rw [Sampling.allEnded, List.all_eq_true]
    intro r hr
    exact ((hrows n (le_refl _)).2 r hr).2.2 rfl
  -- the tables after `t` iterations
  let tab : Nat → Sampling.St (Records σ) P := fun t => ⟨(Spec.after eos call inps model t).rows,
    ⟨(Spec.after eos call inps model t).aux,
      (List.range inps.length).map (fun b => (List.range n).map fun j =>
        if j < t then ((call (Spec.after eos call inps model j)).2.1[b]?).getD (-1) else -1),
      (List.range inps.length).map (fun _ => (List.range n).map fun j => if j < t then (call (Spec.after eos call inps model j)).2.2 else -1)⟩⟩
  have htab0 : Sampling.initSt eos inps
      (⟨model, List.replicate inps.length (List.replicate n (-1)), List.replicate inps.length (List.replicate n (-1))⟩ : Records σ) = tab 0 := by
    simp [tab, Sampling.initSt, Spec.after, List.map_const']
  have hset : ∀ {α : Type} (f : Nat → α) (d : α) (t : Nat), t < n →
      ((List.range n).map fun j => if j < t then f j else d).set t (f t) = (List.range n).map fun j => if j < t + 1 then f j else d := by
    intro α f d t ht
    apply List.ext_getElem?
    intro j
    rw [List.getElem?_set]
    by_cases hj : j < n
    · by_cases hjt : t = j
      · subst hjt
        simp [hj]
      · rw [if_neg hjt]
        simp only [List.getElem?_map, List.getElem?_range hj, Option.map_some]
        congr 1
        by_cases h : j < t
        · rw [if_pos h, if_pos (by omega)]
        · rw [if_neg h, if_neg (by omega)]
    · rw [if_neg (by omega)]
      simp [hj]
  have hstep : ∀ t < n, Sampling.body eos (calmNext call) (tab t) = tab (t + 1) := by
    intro t ht
    obtain ⟨hl, hr⟩ := hrows t (by omega)
    have hidx : ∀ j ∈ (Spec.after eos call inps model t).rows.map (fun row => min row.curIndex row.maxLen), j = t := by
      intro j hj
      obtain ⟨r, hr', rfl⟩ := List.mem_map.1 hj
      obtain ⟨h1, h2, _⟩ := hr r hr'
      rw [h1, h2]; omega
    have hsame : (⟨(tab t).rows, (tab t).aux.model⟩ : Sampling.St σ P) = Spec.after eos call inps model t := rfl
    simp only [Sampling.body, calmNext, hsame]
    rw [show (tab t).rows = (Spec.after eos call inps model t).rows from rfl]
    have hc := hconf t
    simp only [tab, Spec.after, Sampling.body, Sampling.St.mk.injEq, Records.mk.injEq, true_and]
    refine ⟨?_, ?_⟩
    · rw [record_same _ _ t _ hidx (by simp [hl])]
      apply List.ext_getElem?
      intro b
      rw [List.getElem?_zipWith]
      by_cases hb : b < inps.length
      · have hb' : b < (call (Spec.after eos call inps model t)).2.1.length := by omega
        simp only [List.getElem?_map, List.getElem?_range hb, Option.map_some, List.getElem?_eq_getElem hb']
        congr 1
        have := hset (fun j => ((call (Spec.after eos call inps model j)).2.1[b]?).getD (-1)) (-1) t ht
        simp only [List.getElem?_eq_getElem hb', Option.getD_some] at this
        exact this
      · simp [hb]
    · rw [record_same _ _ t _ hidx (by simp [hl])]
      apply List.ext_getElem?
      intro b
      rw [List.getElem?_zipWith]
      by_cases hb : b < inps.length
      · simp only [List.getElem?_map, List.getElem?_range hb, Option.map_some, List.getElem?_replicate, hl, if_pos hb]
        congr 1
        exact hset (fun j => (call (Spec.after eos call inps model j)).2.2) (-1) t ht
      · simp [hb]
  have hloop : ∀ f t, t ≤ n → n ≤ t + f → ∃ T, t ≤ T ∧ T ≤ n ∧ Sampling.allEnded (Spec.after eos call inps model T) = true ∧
      (∀ t', t ≤ t' → t' < T → ¬ Sampling.allEnded (Spec.after eos call inps model t') = true) ∧ Sampling.loop eos (calmNext call) f (tab t) = tab T := by
    intro f
    induction f with
    | zero =>
      intro t h1 h2
      have : t = n := by omega
      subst this
      exact ⟨t, le_refl _, le_refl _, hend, fun t' h3 h4 => by omega, rfl⟩
    | succ f ih =>
      intro t h1 h2
      by_cases he : Sampling.allEnded (Spec.after eos call inps model t) = true
      · exact ⟨t, le_refl _, h1, he, fun t' h3 h4 => by omega, by rw [Sampling.loop]; exact if_pos he⟩
      · have htn : t < n := by
          rcases Nat.lt_or_eq_of_le h1 with h | h
          · exact h
          · subst h; exact absurd hend he
        obtain ⟨T, h3, h4, h5, h6, h7⟩ := ih (t + 1) htn (by omega)
        refine ⟨T, by omega, h4, h5, fun t' h8 h9 => ?_, ?_⟩
        · rcases Nat.lt_or_eq_of_le h8 with h | h
          · exact h6 t' h h9
          · subst h; exact he
        · rw [Sampling.loop, ← h7, ← hstep t htn]
          exact if_neg he
  obtain ⟨T, _, h4, h5, h6, h7⟩ := hloop fuel 0 (Nat.zero_le _) (by omega)
  refine ⟨T, h4, h5, fun t ht => h6 t (Nat.zero_le _) ht, fun b hb t ht => ?_, fun b hb t ht => ?_⟩
  · simp only [calmSample, htab0, h7]
    simp only [tab, List.getElem?_map, List.getElem?_range hb, Option.map_some, Option.bind_some, List.getElem?_range ht]
  · simp only [calmSample, htab0, h7]
    simp only [tab, List.getElem?_map, List.getElem?_range hb, Option.map_some, Option.bind_some, List.getElem?_range ht]
    have hb' : b < (call (Spec.after eos call inps model t)).2.1.length := by rw [hconf t]; exact hb
    by_cases h : t < T
    · rw [if_pos h, if_pos h, List.getElem?_eq_getElem hb']; rfl
    · rw [if_neg h, if_neg h]

/-- C65, finding: with a prefilled cache (rows at different positions) a row's record at an earlier position is overwritten: row 0 is at position
1, row 1 at position 0, and row 0 loses its confidence of position 0. -/
theorem C65_prefilled_mixes : ∃ (table : List (List ℝ)) (idx : List Nat) (v : List ℝ), idx[0]? = some 1 ∧
    (table[0]?.bind (·[0]?)) = some 7 ∧ ((record table idx v)[0]?.bind (·[0]?)) = some 5 :=
  ⟨[[7, -1], [-1, -1]], [1, 0], [5, 6], rfl, rfl, rfl⟩

/-- Beside `C65_exit`: twelve layers, exits after 2, 5, 8, 11 and 12, the minimal exit 4. -/
example : Valid (exNet 12 (fun h => h / 12)) ⟨1 / 2, 4, 1, 3⟩ := ⟨by decide, by decide, by decide⟩
example : (List.range 5).map (exitAt ⟨1 / 2, 4, 1, 3⟩ 12) = [2, 5, 8, 11, 12] := by decide

/-- Beside `C65_all_layers`: a model that is never confident before the last layer. -/
example : ∀ k, exitAt ⟨1, 0, 0, 1⟩ 4 k < 4 → ∃ x ∈ confAt (exNet 4 (fun h => h / 4)) ⟨1, 0, 0, 1⟩ 0 (fun _ => 0) k, x < (1 : ℝ) := by
  intro k hk
  have key : ∀ g : Option Nat, ∃ x ∈ (exNet 4 (fun h => h / 4)).conf g (hid (exNet 4 (fun h => h / 4)) 0 (fun _ => 0) (exitAt ⟨1, 0, 0, 1⟩ 4 k)), x < (1 : ℝ) := by
    intro g
    refine ⟨_, List.mem_singleton.2 rfl, ?_⟩
    rw [exNet_hid]
    rw [div_lt_one (by norm_num)]
    exact_mod_cast hk
  cases k with
  | zero => exact key _
  | succ k => exact key _

/-- Beside `C65_threshold_one`: a network with a batch of one example and two tokens. -/
noncomputable example : Net Nat Nat (List (List ℝ)) :=
  { numLayers := 2, layer := fun _ h _ => (h + 1, h), prop := fun _ h _ => h, logits := fun h => [[(h : ℝ), 1]], conf := fun _ h => [[(h : ℝ), 1]].map softmaxMax }

/-- Beside `C66_propagation_partial`: the first exit is taken. -/
example : Stops (exNet 4 (fun _ => 1)) ⟨1, 0, 0, 1⟩ 0 (fun _ => 0) 0 := by
  refine ⟨by decide, Or.inl ?_⟩
  intro x hx
  simp only [confAt, exNet, List.mem_singleton] at hx
  rw [hx]

/-- Beside `C65_records`: two rows of length 3. -/
example : ∀ r ∈ ([⟨[0, 0, 0], none, none⟩, ⟨[0, 5, 0], none, none⟩] : List Sampling.Inp),
    r.toks.length = 3 ∧ r.initialIndex = none ∧ r.maxSteps = none := by decide

end Verif.Calm
