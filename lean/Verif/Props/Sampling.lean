import Verif.Lemmas.Sampling
/-
Property C06: temperature sampling.
-/
namespace Verif.Sampling
open Spec
variable {P σ : Type} [AddCommMonoid P]

/-- The loop state after `k` iterations. -/
abbrev stateAt (eos : Int) (next : St σ P → σ × (Nat → Int × P)) (s0 : St σ P) (k : Nat) : St σ P :=
  (body eos next)^[k] s0

theorem row_stateAt (eos : Int) (next : St σ P → σ × (Nat → Int × P)) (inps : List Inp) (aux : σ)
    (b : Nat) (r : Inp) (hb : inps[b]? = some r) (k : Nat) :
    (stateAt eos next (initSt eos inps aux) k).rows[b]? =
      some (rowRun eos r (fun k => (next (stateAt eos next (initSt eos inps aux) k)).2 b) k) := by
  induction k with
  | zero => show (inps.map (initRow eos))[b]? = _; simp [rowRun, hb]
  | succ k ih =>
    rw [stateAt, Function.iterate_succ_apply']
    simp only [body, List.getElem?_mapIdx]
    rw [ih]
    rfl

theorem rows_length (eos : Int) (next : St σ P → σ × (Nat → Int × P)) (s0 : St σ P) (k : Nat) :
    (stateAt eos next s0 k).rows.length = s0.rows.length := by
  induction k with
  | zero => rfl
  | succ k ih =>
    rw [stateAt, Function.iterate_succ_apply']
    simp only [body, List.length_mapIdx]
    exact ih

theorem run_maxLen (eos : Int) (r : Inp) (s : Nat → Int × P) (n : Nat) :
    (rowRun eos r s n).maxLen = maxDecodeLen r := by
  induction n with
  | zero => rfl
  | succ n ih => exact ih

theorem run_cur (eos : Int) (r : Inp) (s : Nat → Int × P) (n : Nat) :
    min n (maxDecodeLen r) ≤ (rowRun eos r s n).curIndex := by
  induction n with
  | zero => simp
  | succ n ih =>
    show _ ≤ min (rowRun eos r s n).curIndex (rowRun eos r s n).maxLen + 1
    rw [run_maxLen]
    omega

theorem run_ended (eos : Int) (r : Inp) (s : Nat → Int × P) (n : Nat) (h1 : 1 ≤ n) (h : maxDecodeLen r ≤ n) :
    (rowRun eos r s n).ended = true := by
  cases n with
  | zero => omega
  | succ n =>
    show ((rowRun eos r s n).ended || _ || decide (min (rowRun eos r s n).curIndex (rowRun eos r s n).maxLen + 1 ≥
      (rowRun eos r s n).maxLen)) = true
    rw [run_maxLen]
    have := run_cur eos r s n
    have h2 : min (rowRun eos r s n).curIndex (maxDecodeLen r) + 1 ≥ maxDecodeLen r := by omega
    rw [decide_eq_true h2, Bool.or_true]

/-- C06, termination: for every model, sampling policy and batch, the loop stops after at most
`max 1 width` iterations, at the first state in which all rows have ended. -/
theorem C06_termination (eos : Int) (next : St σ P → σ × (Nat → Int × P)) (inps : List Inp) (aux : σ)
    (width : Nat) (hw : ∀ r ∈ inps, r.toks.length ≤ width) :
    ∃ n ≤ max 1 width, allEnded (stateAt eos next (initSt eos inps aux) n) = true ∧
      (∀ k < n, allEnded (stateAt eos next (initSt eos inps aux) k) = false) ∧
      ∀ fuel ≥ n, loop eos next fuel (initSt eos inps aux) = stateAt eos next (initSt eos inps aux) n := by
  set s0 : St σ P := initSt eos inps aux with hs0
  have hend : allEnded (stateAt eos next s0 (max 1 width)) = true := by
    unfold allEnded
    rw [List.all_eq_true]
    intro row hrow
    obtain ⟨b, hb⟩ := List.getElem?_of_mem hrow
    have hlt : b < inps.length := by
      rw [List.getElem?_eq_some_iff] at hb
      have := hb.1
      rw [rows_length, hs0] at this
      simpa [initSt] using this
    have hr : inps[b]? = some inps[b] := by simp [hlt]
    rw [hs0, row_stateAt eos next inps aux b inps[b] hr] at hb
    cases hb
    have h1 := maxLen_le inps[b]
    have h2 := hw inps[b] (List.getElem_mem hlt)
    exact run_ended eos _ _ _ (by omega) (by omega)
  have hex : ∃ n, allEnded (stateAt eos next s0 n) = true := ⟨_, hend⟩
  refine ⟨Nat.find hex, Nat.find_min' hex hend, Nat.find_spec hex, fun k hk => by simpa using Nat.find_min hex hk, ?_⟩
  have key : ∀ n fuel (s : St σ P), n ≤ fuel → allEnded (stateAt eos next s n) = true →
      (∀ k < n, allEnded (stateAt eos next s k) = false) → loop eos next fuel s = stateAt eos next s n := by
    intro n
    induction n with
    | zero =>
      intro fuel s _ h _
      cases fuel with
      | zero => rfl
      | succ f =>
        unfold loop
        exact if_pos h
    | succ n ih =>
      intro fuel s hf h hk
      cases fuel with
      | zero => omega
      | succ f =>
        unfold loop
        have h0 := hk 0 (by omega)
        rw [if_neg (by rw [show s = stateAt eos next s 0 from rfl, h0]; simp)]
        rw [ih f (body eos next s) (by omega)]
        · rfl
        · exact h
        · intro k hk'
          exact hk (k + 1) (by omega)
  intro fuel hf
  exact key _ fuel s0 hf (Nat.find_spec hex) (fun k hk => by simpa using Nat.find_min hex hk)

theorem row_output (eos : Int) (he : eos ≠ 0) (r : Inp) (s : Nat → Int × P) (p : Nat) (hp : RightPadded r.toks p)
    (him : r.initialIndex.getD 0 < maxDecodeLen r) (n : Nat) (hn : (rowRun eos r s n).ended = true) :
    RowOutput r.toks p (r.initialIndex.getD 0) (maxDecodeLen r) eos s (output (rowRun eos r s n)).1 ∧
      (rowRun eos r s n).logProb = sampledLogProb p (r.initialIndex.getD 0) (maxDecodeLen r) eos s := by
  have hinv := inv_run eos he r s p hp _ _ rfl rfl him n
  set i0 := r.initialIndex.getD 0 with hi0
  set m := maxDecodeLen r with hm
  have hmL : m ≤ r.toks.length := maxLen_le r
  have hpm : p ≤ m := le_maxLen r hp
  have hended := hinv.ended.1 hn
  set row := rowRun eos r s n with hrow
  have hlen : (output row).1.length = r.toks.length := by
    simp [output, hinv.len]
  have hget : ∀ j, j < r.toks.length → (output row).1.getD j 0 = row.seq.getD (j + 1) 0 := by
    intro j hj
    simp only [output, List.getD]
    rw [List.getElem?_dropLast]
    rw [if_pos (by rw [List.length_drop, hinv.len]; omega), List.getElem?_drop]
    congr 2
    omega
  have hout : ∀ j, r.toks.length ≤ j → (output row).1.getD j 0 = 0 := by
    intro j hj
    rw [List.getD, List.getElem?_eq_none (by rw [hlen]; exact hj)]; rfl
  -- closed form
  have hval : ∀ j, j < r.toks.length → (output row).1.getD j 0 = row.seq.getD (j + 1) 0 := hget
  have hother : ∀ j, (p < j → ¬ (i0 < j ∧ j ≤ m ∧ ¬ EosBefore p i0 eos s j)) → j < r.toks.length + 2 →
      row.seq.getD j 0 = r.toks.getD j 0 := by
    intro j h hj
    rw [hinv.seq j hj, if_neg (fun hc => h hc.2.2.2.1 ⟨hc.1, hc.2.2.1, hc.2.2.2.2⟩), pad_getD hp]
  have hsampled : ∀ k, p ≤ i0 + k → i0 + k < m → ¬ EosBefore p i0 eos s (i0 + k + 1) →
      row.seq.getD (i0 + k + 1) 0 = (s k).1 := by
    intro k h1 h2 h3
    have hk : i0 + k + 1 - 1 - i0 = k := by omega
    have hle : i0 + k + 1 ≤ i0 + n := by
      rcases hended with h | ⟨k', h4, h5, h6⟩
      · omega
      · by_contra hc
        exact h3 ⟨k', h4, by omega, h6⟩
    rw [hinv.seq _ (by omega), if_pos ⟨by omega, hle, by omega, by omega, h3⟩, hk]
  refine ⟨⟨hlen, ?_, ?_, ?_, ?_, ?_⟩, ?_⟩
  · intro j hj
    have := hp.lt
    rw [hval j (by omega), hother (j + 1) (by intro h; omega) (by omega)]
  · intro k h1 h2 h3
    rw [hval _ (by omega)]
    apply hsampled k h1 h2
    rintro ⟨k', h4, h5, h6⟩
    exact h3 k' (by omega) (by omega) h6
  · intro k j h1 h2 h3 h4
    by_cases hj : j < r.toks.length
    · rw [hval j hj, hother (j + 1) _ (by omega), hp.pad _ (by omega)]
      intro _ hc
      exact hc.2.2 ⟨k, by omega, by omega, h3⟩
    · exact hout j (by omega)
  · intro j h1 h2
    by_cases hj : j < r.toks.length
    · rw [hval j hj, hother (j + 1) (by intro _ hc; omega) (by omega), hp.pad _ (by omega)]
    · exact hout j (by omega)
  · intro j h1 h2
    by_cases hj : j < r.toks.length
    · rw [hval j hj, hother (j + 1) (by intro _ hc; omega) (by omega), hp.pad _ (by omega)]
    · exact hout j (by omega)
  · rw [hinv.logp, sampledLogProb]
    have hE : ∀ k, ¬ EosBefore p i0 eos s (i0 + k + 1) ↔ ∀ k' < k, p ≤ i0 + k' → (s k').1 ≠ eos := by
      intro k
      constructor
      · intro h k' h1 h2 h3
        exact h ⟨k', by omega, by omega, h3⟩
      · rintro h ⟨k', h1, h2, h3⟩
        exact h k' (by omega) (by omega) h3
    classical
    have e1 : ∀ k, (p < i0 + k + 1 ∧ i0 + k + 1 ≤ m ∧ ¬ EosBefore p i0 eos s (i0 + k + 1)) ↔
        (k < m - i0 ∧ p ≤ i0 + k ∧ ∀ k' < k, p ≤ i0 + k' → (s k').1 ≠ eos) := by
      intro k
      rw [hE k]
      constructor
      · rintro ⟨a, b, c⟩; exact ⟨by omega, by omega, c⟩
      · rintro ⟨a, b, c⟩; exact ⟨by omega, by omega, c⟩
    -- both sums equal the sum over a common large range
    have big : ∀ a, (∀ k, (p < i0 + k + 1 ∧ i0 + k + 1 ≤ m ∧ ¬ EosBefore p i0 eos s (i0 + k + 1)) → k < a) →
        ∀ c, a ≤ c → ∑ k ∈ Finset.range a,
          (if p < i0 + k + 1 ∧ i0 + k + 1 ≤ m ∧ ¬ EosBefore p i0 eos s (i0 + k + 1) then (s k).2 else 0) =
        ∑ k ∈ Finset.range c,
          (if p < i0 + k + 1 ∧ i0 + k + 1 ≤ m ∧ ¬ EosBefore p i0 eos s (i0 + k + 1) then (s k).2 else 0) := by
      intro a ha c hac
      apply Finset.sum_subset
      · intro x hx; rw [Finset.mem_range] at *; omega
      · intro x _ hx
        rw [if_neg]
        intro hc
        exact hx (Finset.mem_range.2 (ha x hc))
    have h1 := big n (by
      rintro k ⟨a, b, c⟩
      rcases hended with h | ⟨k', h4, h5, h6⟩
      · omega
      · by_contra hc
        exact c ⟨k', h4, by omega, h6⟩) (max n (m - i0)) (le_max_left _ _)
    have h2 := big (m - i0) (by rintro k ⟨a, b, c⟩; omega) (max n (m - i0)) (le_max_right _ _)
    rw [h1, ← h2]
    apply Finset.sum_congr rfl
    intro k hk
    rw [Finset.mem_range] at hk
    by_cases hc : (p ≤ i0 + k ∧ ∀ k' < k, p ≤ i0 + k' → (s k').1 ≠ eos)
    · rw [if_pos hc, if_pos ((e1 k).2 ⟨hk, hc⟩)]
    · rw [if_neg hc, if_neg (fun h => hc ((e1 k).1 h).2)]

/-- C06: for every model, sampling policy and batch, each row of the result consists of the
row's prompt, then the model's samples for that row up to the first sampled end
marker (or the length limit), then padding; its log probability is the sum of those samples'
log probabilities.  Rows do not depend on how long the other rows take.
Sample `k` of row `b` is the one drawn in iteration `k`. -/
theorem C06_rows (eos : Int) (he : eos ≠ 0) (next : St σ P → σ × (Nat → Int × P)) (inps : List Inp) (aux : σ)
    (width : Nat) (hw : ∀ r ∈ inps, r.toks.length ≤ width) (fuel : Nat) (hf : max 1 width ≤ fuel)
    (b : Nat) (r : Inp) (hb : inps[b]? = some r) (p : Nat) (hp : RightPadded r.toks p)
    (hi : r.initialIndex.getD 0 < maxDecodeLen r) :
    ∃ out lp, (singleTrial eos next fuel inps aux)[b]? = some (out, lp) ∧
      RowOutput r.toks p (r.initialIndex.getD 0) (maxDecodeLen r) eos
        (fun k => (next (stateAt eos next (initSt eos inps aux) k)).2 b) out ∧
      lp = sampledLogProb p (r.initialIndex.getD 0) (maxDecodeLen r) eos
        (fun k => (next (stateAt eos next (initSt eos inps aux) k)).2 b) := by
  obtain ⟨n, hn, h1, _, h3⟩ := C06_termination eos next inps aux width hw
  unfold singleTrial
  rw [h3 fuel (by omega), List.getElem?_map]
  have hrow := row_stateAt eos next inps aux b r hb n
  rw [hrow]
  have hmem := List.mem_of_getElem? hrow
  unfold allEnded at h1
  rw [List.all_eq_true] at h1
  have := row_output eos he r _ p hp hi n (h1 _ hmem)
  exact ⟨_, _, rfl, this.1, this.2⟩

theorem expand_get {α : Type} (d : Nat) (l : List α) (b t : Nat) (ht : t < d) :
    (expand d l)[b * d + t]? = l[b]? := by
  unfold expand
  induction l generalizing b with
  | nil => simp
  | cons x l ih =>
    rw [List.flatMap_cons]
    cases b with
    | zero => simp [List.getElem?_append, ht, List.getElem?_replicate]
    | succ b =>
      rw [List.getElem?_append_right (by simp; nlinarith)]
      have : (b + 1) * d + t - (List.replicate d x).length = b * d + t := by
        simp; rw [Nat.succ_mul]; omega
      rw [this, ih b]; simp

theorem expand_length {α : Type} (d : Nat) (l : List α) : (expand d l).length = l.length * d := by
  unfold expand
  induction l with
  | nil => simp
  | cons x l ih => rw [List.flatMap_cons, List.length_append, ih, List.length_replicate, List.length_cons, Nat.succ_mul]; omega

theorem singleTrial_length (eos : Int) (next : St σ P → σ × (Nat → Int × P)) (fuel : Nat) (inps : List Inp) (aux : σ) :
    (singleTrial eos next fuel inps aux).length = inps.length := by
  unfold singleTrial
  rw [List.length_map]
  have : ∀ n (s : St σ P), (loop eos next n s).rows.length = s.rows.length := by
    intro n
    induction n with
    | zero => intro s; rfl
    | succ n ih =>
      intro s
      unfold loop
      split
      · rfl
      · rw [ih]; simp [body]
  rw [this]; simp [initSt]

/-- C06, several decodes per example: for each example, the returned decodes are the results of
its `d` own copies, in some order, paired with their log probabilities, which are in increasing order. -/
theorem C06_num_decodes [LinearOrder P] (eos : Int) (next : St σ P → σ × (Nat → Int × P)) (inps : List Inp) (aux : σ)
    (d : Nat) (fuel : Nat) (b : Nat) (hb : b < inps.length) :
    (∀ t < d, (expand d inps)[b * d + t]? = inps[b]?) ∧
    ∃ (order : List Nat) (decodes : List (List Int)) (lps : List P), order.Perm (List.range d) ∧
      (temperatureSample eos next fuel inps d aux)[b]? = some (decodes, lps) ∧
      decodes.length = d ∧ lps.length = d ∧ lps.Pairwise (· ≤ ·) ∧
      ∀ t k : Nat, order[t]? = some k → ∃ o lp, decodes[t]? = some o ∧ lps[t]? = some lp ∧
        (singleTrial eos next fuel (expand d inps) aux)[b * d + k]? = some (o, lp) := by
  refine ⟨fun t ht => expand_get d inps b t ht, ?_⟩
  set flat := singleTrial eos next fuel (expand d inps) aux with hflat
  have hlen : flat.length = inps.length * d := by rw [hflat, singleTrial_length, expand_length]
  set g := group d b flat with hg
  have hbd : b * d + d ≤ inps.length * d := by nlinarith
  have hglen : g.length = d := by
    rw [hg, group, List.length_take, List.length_drop, hlen]; omega
  have hget : ∀ k < d, g[k]? = flat[b * d + k]? := by
    intro k hk
    rw [hg, group, List.getElem?_take, if_pos hk, List.getElem?_drop]
  set idx := argsort (g.map (·.2)) with hidx
  have hperm : idx.Perm (List.range d) := by
    have := List.perm_insertionSort (fun a b => (g.map (·.2)).getD a 0 ≤ (g.map (·.2)).getD b 0) (List.range (g.map (·.2)).length)
    rw [List.length_map, hglen] at this
    rw [hidx, argsort, List.length_map, hglen]
    exact this
  have hmem : ∀ k ∈ idx, k < d := by
    intro k hk
    exact List.mem_range.1 (hperm.mem_iff.1 hk)
  have hfm : ∀ {β : Type} (f : List Int × P → β), idx.filterMap (fun k => (g.map f)[k]?) =
      idx.attach.map (fun k => f (g[k.1]'(by rw [hglen]; exact hmem _ k.2))) := by
    intro β f
    conv_lhs => rw [← List.attach_map_subtype_val idx, List.filterMap_map]
    conv_rhs => rw [← List.filterMap_eq_map]
    apply List.filterMap_congr
    intro k _
    have : k.1 < g.length := by rw [hglen]; exact hmem _ k.2
    simp [this]
  have hsortedIdx : idx.Pairwise (fun a b => (g.map (·.2)).getD a 0 ≤ (g.map (·.2)).getD b 0) := by
    haveI : Std.Total (fun a b => (g.map (·.2)).getD a 0 ≤ (g.map (·.2)).getD b 0) := ⟨fun a b => le_total _ _⟩
    haveI : IsTrans Nat (fun a b => (g.map (·.2)).getD a 0 ≤ (g.map (·.2)).getD b 0) := ⟨fun a b c h1 h2 => le_trans h1 h2⟩
    exact List.pairwise_insertionSort _ _
  have hlenidx : idx.length = d := by rw [hperm.length_eq, List.length_range]
  refine ⟨idx, idx.filterMap (fun k => (g.map (·.1))[k]?), idx.filterMap (fun k => (g.map (·.2))[k]?),
    hperm, ?_, ?_, ?_, ?_, ?_⟩
  · unfold temperatureSample
    rw [List.getElem?_map, List.getElem?_range hb]
    rfl
  · rw [hfm (·.1), List.length_map, List.length_attach, hlenidx]
  · rw [hfm (·.2), List.length_map, List.length_attach, hlenidx]
  · rw [hfm (·.2), List.pairwise_map]
    have := hsortedIdx
    rw [← List.attach_map_subtype_val idx, List.pairwise_map] at this
    refine this.imp ?_
    intro x y hxy
    have hx : x.1 < g.length := by rw [hglen]; exact hmem _ x.2
    have hy : y.1 < g.length := by rw [hglen]; exact hmem _ y.2
    simpa [List.getD, hx, hy] using hxy
  · intro t k hk
    have hkd := hmem k (List.mem_of_getElem? hk)
    have hkg : k < g.length := by rw [hglen]; exact hkd
    refine ⟨g[k].1, g[k].2, ?_, ?_, ?_⟩
    · rw [hfm (·.1), List.getElem?_map, List.getElem?_attach]
      obtain ⟨ht, hk'⟩ := List.getElem?_eq_some_iff.1 hk
      simp [ht, hk']
    · rw [hfm (·.2), List.getElem?_map, List.getElem?_attach]
      obtain ⟨ht, hk'⟩ := List.getElem?_eq_some_iff.1 hk
      simp [ht, hk']
    · rw [← hget k hkd]
      simp [hkg]

/-- Limit of C06: a prompt with padding inside can lose its later tokens, because an end marker
sampled in the gap ends the row while other rows go on. -/
theorem C06_gap_prompt_lost : ∃ (next : St Unit Int → Unit × (Nat → Int × Int)),
    (singleTrial 1 next 10 [⟨[0, 5, 0, 7, 0], none, none⟩, ⟨[0, 5, 0, 0, 0], none, none⟩] ())[0]? =
      some ([5, 1, 0, 0, 0], 0) :=
  ⟨fun _ => ((), fun b => (if b = 0 then 1 else 9, 0)), by decide⟩

/-- Limit of C06: with a prefilled prompt and `max_decode_steps = 0` one token is still generated. -/
theorem C06_zero_steps : ∃ (next : St Unit Int → Unit × (Nat → Int × Int)),
    singleTrial 1 next 10 [⟨[0, 5, 0, 0], some 1, some 0⟩] () = [([5, 9, 0, 0], -3)] :=
  ⟨fun _ => ((), fun _ => (9, -3)), by decide⟩

/-- A batch of two rows; the "model" samples the number of tokens so far plus 6, and an end
marker for the first row in iteration 3. -/
def demoNext : St Nat Int → Nat × (Nat → Int × Int) :=
  fun s => (s.aux + 1, fun b => if b = 0 ∧ s.aux = 3 then (1, -2) else (6 + s.aux, -1))

def demoInps : List Inp := [⟨[0, 5, 0, 0, 0, 0], none, none⟩, ⟨[0, 8, 4, 0, 0, 0], some 2, some 3⟩]

example : singleTrial 1 demoNext 6 demoInps 0 = [([5, 7, 8, 1, 0, 0], -4), ([8, 4, 6, 7, 8, 0], -3)] := by decide
example : RightPadded [0, 5, 0, 0, 0, 0] 1 where
  lt := by decide
  prompt := by intro j h1 h2; obtain rfl : j = 1 := by omega
               decide
  pad := by
    intro j hj
    rcases j with _ | _ | _ | _ | _ | _ | _ <;> first | omega | rfl
example : (⟨[0, 8, 4, 0, 0, 0], some 2, some 3⟩ : Inp).initialIndex.getD 0 <
    maxDecodeLen ⟨[0, 8, 4, 0, 0, 0], some 2, some 3⟩ := by decide

end Verif.Sampling
