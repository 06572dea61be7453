import Verif.Lemmas.BeamOpt
import Mathlib.Data.Fintype.Card
import Mathlib.Data.Fintype.BigOperators
import Mathlib.Tactic.IntervalCases
import Mathlib.Tactic.NormNum
/-
Property C99: how good the result of beam search is.
-/
namespace Verif.Beam
open Verif.TopK Verif.TopK.Spec Spec

variable {K C : Type} [Field K] [LinearOrder K] [IsStrictOrderedRing K]

section opt
variable (c : Cfg K) (hc : Good c) (ins : List RowIn) (firsts : List (ℕ × C)) (o : Oracle K C) (i : ℕ) (inp : RowIn)
  (first : ℕ) (ch : C) (st : Step K C)
  (h1 : ins[i]? = some inp) (h2 : firsts[i]? = some (first, ch))
  (ho : ∀ (s : State K C) r, s.rows[i]? = some r → (o s)[i]? = some (decoder st s.cur r))
  (hst : ValidStep c st) (p : ℕ) (hp : Prompt c.eos inp.inputs p) (heos : c.eos ≠ 0)
  (hstep : c.maxStep ≤ 0) (hmin : c.minLogProb ≤ c.negInf) (fuel : ℕ) (hfuel : c.maxLen ≤ fuel)
include hc h1 h2 ho hst hp heos hstep hmin hfuel

/-- C99: take any finished sequence s of row i, with EOS at position t, tokens in the vocabulary and a likelihood and score
above NEG_INF.  If at every position before t fewer than k other unfinished sequences are at least as likely as s so
far, and at t at most k are as likely as s, then beam search returns, as the best beam of row i, a finished sequence whose
score is at least that of s, however early the search stopped and whatever the other rows are. -/
theorem C99_found (s : List ℕ) (t : ℕ) (hF : Finished c.eos c.maxLen first inp.inputs p t s)
    (hw : ∀ j, p < j → j ≤ t → s.getD j 0 < c.vocab) (hval : c.negInf < value st ch s p t)
    (hsc : c.negInf < value st ch s p t / c.bp (inp.initialIndex + t)) (hit : inp.initialIndex + t < c.maxLen)
    (hbefore : ∀ m, p < m → m < t → ∀ L : List (List ℕ), L.Nodup → (∀ u ∈ L, Rival c inp first ch st p s m u) → L.length < c.k)
    (hat : ∀ L : List (List ℕ), L.Nodup → (∀ u ∈ L, Rival c inp first ch st p s t u) → L.length ≤ c.k) :
    ∃ r f, (loop c ins o fuel (init c firsts)).rows[i]? = some r ∧ r.fin.getLast? = some f ∧ f.2.2 = true ∧
      value st ch s p t / c.bp (inp.initialIndex + t) ≤ f.1 := by
  apply search_found c hc ins firsts o i inp first ch st h1 h2 ho hst p hp heos hstep hmin fuel hfuel s t hF hw hval hsc hit
  intro n hpn hnt L hL _ hu
  by_cases he : n + 1 = t
  · rw [if_pos he]
    have := hat L hL (fun u h => by rw [← he]; exact (hu u h).1)
    omega
  · rw [if_neg he]
    exact hbefore (n + 1) (by omega) (by omega) L hL (fun u h => (hu u h).1)

/-- C99, one beam: let s follow the most likely token other than EOS up to position t - 1 (strictly most likely), and let EOS
at t be one of the two most likely tokens.  Then beam search with one beam returns a finished sequence whose score is at least
that of s.  In particular, if greedy decoding ends with EOS, then one beam is at least as good. -/
theorem C99_one_beam (hk : c.k = 1) (s : List ℕ) (t : ℕ) (hF : Finished c.eos c.maxLen first inp.inputs p t s)
    (hw : ∀ j, p < j → j ≤ t → s.getD j 0 < c.vocab) (hval : c.negInf < value st ch s p t)
    (hsc : c.negInf < value st ch s p t / c.bp (inp.initialIndex + t)) (hit : inp.initialIndex + t < c.maxLen)
    (hgreedy : ∀ n, p ≤ n → n + 1 < t → ∀ w, w < c.vocab → w ≠ c.eos → w ≠ s.getD (n + 1) 0 →
      logProbOf st ch s n w < logProbOf st ch s n (s.getD (n + 1) 0))
    (htwo : ∃ w₀, ∀ w, w < c.vocab → w ≠ c.eos → w ≠ w₀ → logProbOf st ch s (t - 1) w < logProbOf st ch s (t - 1) c.eos) :
    ∃ r f, (loop c ins o fuel (init c firsts)).rows[i]? = some r ∧ r.fin.getLast? = some f ∧ f.2.2 = true ∧
      value st ch s p t / c.bp (inp.initialIndex + t) ≤ f.1 := by
  obtain ⟨hpt, htm⟩ := hF.inRange
  apply search_found c hc ins firsts o i inp first ch st h1 h2 ho hst p hp heos hstep hmin fuel hfuel s t hF hw hval hsc hit
  intro n hpn hnt L hL hex hu
  obtain ⟨l, hl, _, hls⟩ := hex
  have hlen := (inv2_iter c hc inp first ch st hst p hp heos n (by omega) (by omega)).base.liveLen
  rw [hk] at hlen ⊢
  have hone : ∀ l' ∈ (rowIter c inp first ch (decoder st) n).live, l' = l := by
    obtain ⟨a, ha⟩ := List.length_eq_one_iff.1 hlen
    rw [ha] at hl ⊢
    intro l' hl'
    rw [List.mem_singleton.1 hl, List.mem_singleton.1 hl']
  -- a rival differs in the last token only
  have key : ∀ u ∈ L, (∀ j, j ≤ n → u.getD j 0 = s.getD j 0) ∧ u.getD (n + 1) 0 ≠ s.getD (n + 1) 0 ∧
      u.getD (n + 1) 0 < c.vocab ∧ u.getD (n + 1) 0 ≠ c.eos ∧ (∀ j, n + 1 < j → u.getD j 0 = 0) ∧ u.length = c.maxLen ∧
      logProbOf st ch s n (s.getD (n + 1) 0) ≤ logProbOf st ch s n (u.getD (n + 1) 0) := by
    intro u hul
    obtain ⟨⟨pre, ⟨j, hj, hne⟩, hlik⟩, l', hl', _, hag⟩ := hu u hul
    rw [hone l' hl'] at hag
    have hag' : ∀ j, j ≤ n → u.getD j 0 = s.getD j 0 := fun j hj => by rw [hag j hj, hls j hj]
    refine ⟨hag', ?_, (pre.body (n + 1) (by omega) le_rfl).2, (pre.body (n + 1) (by omega) le_rfl).1, pre.pad, pre.length, ?_⟩
    · intro he
      rcases Nat.lt_or_ge n j with h | h
      · have : j = n + 1 := by omega
        subst this; exact hne he
      · exact hne (hag' j h)
    · rw [value_succ _ _ _ _ _ hpn, value_succ _ _ _ _ _ hpn, value_congr st ch u s p n hag'] at hlik
      have e1 : tokenLogProb st ch s n = logProbOf st ch s n (s.getD (n + 1) 0) := rfl
      have e2 : tokenLogProb st ch u n = logProbOf st ch s n (u.getD (n + 1) 0) := by
        unfold tokenLogProb logProbOf
        rw [hag' n le_rfl, cacheAfter_congr st ch u s n (fun j hj => hag' j (by omega))]
      rw [e1, e2] at hlik
      linarith
  by_cases he : n + 1 = t
  · rw [if_pos he]
    obtain ⟨w₀, hw₀⟩ := htwo
    have hn : t - 1 = n := by omega
    rw [hn] at hw₀
    have hlast : s.getD (n + 1) 0 = c.eos := by rw [he]; exact hF.last
    have hall : ∀ u ∈ L, u.getD (n + 1) 0 = w₀ := by
      intro u hul
      obtain ⟨_, _, k3, k4, _, _, k5⟩ := key u hul
      by_contra hne
      have := hw₀ _ k3 k4 hne
      rw [hlast] at k5
      linarith
    match L, hL, key, hall with
    | [], _, _, _ => simp
    | [_], _, _, _ => simp
    | u :: v :: L', hL, key, hall =>
      exfalso
      have huv : u = v := by
        obtain ⟨a1, _, _, _, a5, a6, _⟩ := key u (by simp)
        obtain ⟨b1, _, _, _, b5, b6, _⟩ := key v (by simp)
        apply ext_getD _ _ (by rw [a6, b6])
        intro j
        rcases Nat.lt_trichotomy j (n + 1) with h | h | h
        · rw [a1 j (by omega), b1 j (by omega)]
        · rw [h, hall u (by simp), hall v (by simp)]
        · rw [a5 j h, b5 j h]
      rw [List.nodup_cons] at hL
      exact hL.1 (by rw [huv]; simp)
  · rw [if_neg he]
    match L, key with
    | [], _ => simp
    | u :: _, key =>
      exfalso
      obtain ⟨_, k2, k3, k4, _, _, k5⟩ := key u (by simp)
      have := hgreedy n hpn (by omega) _ k3 k4 k2
      linarith

omit hc h1 h2 ho hst hp heos hstep hmin hfuel [IsStrictOrderedRing K] [Field K] [LinearOrder K] in
/-- There are at most (V - 1)^(m - p) unfinished sequences of m tokens. -/
theorem prefix_count (eos vocab maxLen first : ℕ) (inputs : List ℕ) (p m : ℕ) (hpm : p ≤ m) (hE : eos < vocab)
    (L : List (List ℕ)) (hL : L.Nodup) (hu : ∀ u ∈ L, Prefix eos vocab maxLen first inputs p m u) :
    L.length ≤ (vocab - 1) ^ (m - p) := by
  classical
  let T := {w : Fin vocab // w.val ≠ eos}
  have hT : Fintype.card T = vocab - 1 := by
    have : Fintype.card {w : Fin vocab // w ≠ ⟨eos, hE⟩} = vocab - 1 := by
      rw [Fintype.card_subtype_compl]
      simp
    rw [← this]
    apply Fintype.card_congr
    exact Equiv.subtypeEquivRight (fun w => by rw [ne_eq, ne_eq, Fin.ext_iff])
  let g : {u : List ℕ // u ∈ L} → (Fin (m - p) → T) := fun u j =>
    ⟨⟨u.1.getD (p + 1 + j) 0, ((hu u.1 u.2).body (p + 1 + j) (by omega) (by omega)).2⟩,
      ((hu u.1 u.2).body (p + 1 + j) (by omega) (by omega)).1⟩
  have hg : Function.Injective g := by
    intro u v huv
    apply Subtype.ext
    have a := hu u.1 u.2
    have b := hu v.1 v.2
    apply ext_getD _ _ (by rw [a.length, b.length])
    intro j
    rcases Nat.eq_zero_or_pos j with rfl | hj
    · rw [a.head, b.head]
    · rcases Nat.lt_or_ge p j with h | h
      · rcases Nat.lt_or_ge m j with h' | h'
        · rw [a.pad j h', b.pad j h']
        · have := congrFun huv ⟨j - (p + 1), by omega⟩
          have := congrArg (fun w : T => w.val.val) this
          simp only [g] at this
          rwa [show p + 1 + (j - (p + 1)) = j by omega] at this
      · rw [a.prompt j hj h, b.prompt j hj h]
  have h1 := Fintype.card_le_of_injective g hg
  rw [Fintype.card_fun, hT, Fintype.card_fin] at h1
  have h2 : Fintype.card {u : List ℕ // u ∈ L} = L.length := by
    rw [Fintype.card_of_subtype L.toFinset (fun x => List.mem_toFinset), List.toFinset_card_of_nodup hL]
  omega

/-- C99, exhaustive search: with one initial index for all rows and k at least (V - 1)^(maxLen - 1 - p), nothing is ever
pruned: the best beam of row i is a finished sequence, its score is its own, and no finished sequence has a better score. -/
theorem C99_exhaustive (hE : c.eos < c.vocab) (a : ℕ) (ha : ∀ inp ∈ ins, inp.initialIndex = a)
    (hk : (c.vocab - 1) ^ (c.maxLen - 1 - p) ≤ c.k) :
    ∃ r f, (loop c ins o fuel (init c firsts)).rows[i]? = some r ∧ r.fin.getLast? = some f ∧
      (f.2.2 = true → c.negInf / c.bp c.maxLen < f.1 → ∃ t, Finished c.eos c.maxLen first inp.inputs p t f.2.1 ∧
        f.1 = value st ch f.2.1 p t / c.bp (a + t)) ∧
      ∀ (s : List ℕ) (t : ℕ), Finished c.eos c.maxLen first inp.inputs p t s → (∀ j, p < j → j ≤ t → s.getD j 0 < c.vocab) →
        c.negInf < value st ch s p t → c.negInf < value st ch s p t / c.bp (a + t) → a + t < c.maxLen →
        f.2.2 = true ∧ value st ch s p t / c.bp (a + t) ≤ f.1 := by
  have hia : inp.initialIndex = a := ha inp (List.mem_of_getElem? h1)
  have hV : 1 ≤ c.vocab - 1 := by have := hc.vocab; omega
  obtain ⟨n, e1, e2⟩ := C08_length c ins firsts o fuel a ha (List.ne_nil_of_mem (List.mem_of_getElem? h1))
  have hrow := iter_decoder c ins firsts o i inp first ch st h1 h2 ho n
  obtain ⟨f, f1, f2, f3⟩ := fin_last c inp first ch hc (decoder st) n
  refine ⟨_, f, by rw [e1]; exact hrow, f1, ?_, ?_⟩
  · intro hfl hg
    rcases e2 with rfl | e2
    · simp only [rowIter, initRow, List.mem_replicate] at f2
      rw [f2.2] at hfl; cases hfl
    · rcases Nat.eq_zero_or_pos c.maxLen with hm | hm
      · have : n = 0 := by omega
        subst this
        simp only [rowIter, initRow, List.mem_replicate] at f2
        rw [f2.2] at hfl; cases hfl
      · obtain ⟨t, _, g1, g2⟩ := C55_finished_score c hc inp first ch st hst p hp heos n (by omega) (by rw [hia]; omega) f f2 hfl hg
        exact ⟨t, g1, by rw [← hia]; exact g2⟩
  · intro s t hF hw hval hsc hit
    obtain ⟨hpt, htm⟩ := hF.inRange
    have hpow : ∀ m, m ≤ t → (c.vocab - 1) ^ (m - p) ≤ c.k := fun m hm =>
      le_trans (Nat.pow_le_pow_right hV (by omega)) hk
    rw [← hia] at hsc hit ⊢
    obtain ⟨r', f', g1, g2, g3, g4⟩ := C99_found c hc ins firsts o i inp first ch st h1 h2 ho hst p hp heos hstep hmin fuel hfuel
      s t hF hw hval hsc hit (by
        intro m hpm hmt L hL hu
        -- s itself, cut at m, is one more
        have hcut : Prefix c.eos c.vocab c.maxLen first inp.inputs p m (s.take (m + 1) ++ List.replicate (c.maxLen - (m + 1)) 0) := by
          have hl : (s.take (m + 1)).length = m + 1 := by rw [List.length_take, hF.length]; omega
          have hget : ∀ j, j ≤ m → (s.take (m + 1) ++ List.replicate (c.maxLen - (m + 1)) 0).getD j 0 = s.getD j 0 := by
            intro j hj
            rw [List.getD_eq_getElem?_getD, List.getElem?_append_left (by omega), List.getElem?_take_of_lt (by omega),
              List.getD_eq_getElem?_getD]
          refine ⟨?_, ?_, ?_, ?_, ?_⟩
          · rw [List.length_append, hl, List.length_replicate]; omega
          · rw [hget 0 (by omega)]; exact hF.head
          · intro j q1 q2; rw [hget j (by omega)]; exact hF.prompt j q1 q2
          · intro j q1 q2; rw [hget j q2]; exact ⟨hF.body j q1 (by omega), hw j q1 (by omega)⟩
          · intro j hj
            rw [List.getD_eq_getElem?_getD, List.getElem?_append_right (by omega), List.getElem?_replicate]
            split_ifs <;> rfl
        have hnot : (s.take (m + 1) ++ List.replicate (c.maxLen - (m + 1)) 0) ∉ L := by
          intro hin
          obtain ⟨_, ⟨j, hj, hne⟩, _⟩ := hu _ hin
          apply hne
          rw [List.getD_eq_getElem?_getD, List.getElem?_append_left (by rw [List.length_take, hF.length]; omega),
            List.getElem?_take_of_lt (by omega), List.getD_eq_getElem?_getD]
        have := prefix_count c.eos c.vocab c.maxLen first inp.inputs p m (by omega) hE _ (List.nodup_cons.2 ⟨hnot, hL⟩) (by
          intro u hin
          rcases List.mem_cons.1 hin with rfl | hin
          · exact hcut
          · exact (hu u hin).pre)
        have := hpow m (by omega)
        rw [List.length_cons] at *
        omega)
      (by
        intro L hL hu
        exact le_trans (prefix_count c.eos c.vocab c.maxLen first inp.inputs p t (by omega) hE L hL (fun u h => (hu u h).pre))
          (hpow t le_rfl))
    rw [e1, hrow] at g1
    obtain rfl := Option.some.inj g1
    rw [f1] at g2
    obtain rfl := Option.some.inj g2
    exact ⟨g3, g4⟩
end opt

/-- The decoder of a network applied to all rows. -/
def stepOracle {C : Type} (st : Step ℚ C) : Oracle ℚ C := fun s => s.rows.map (decoder st s.cur)

/-- Best beam of a search over a single row without prompt. -/
def bestOf {C : Type} (c : Cfg ℚ) (st : Step ℚ C) (ch : C) : List (Option (ℚ × List ℕ × Bool)) :=
  (loop c [⟨[0, 0, 0, 0], 0⟩] (stepOracle st) c.maxLen (init c [(0, ch)])).rows.map (fun r => r.fin.getLast?)

/-- A decoder in which the second best first token looks better for a while and then leads nowhere; the cache remembers the
token of position 1. -/
def trapStep : Step ℚ ℕ := fun n tok ch =>
  if n = 0 then ([-100, -100, -1, -3/2], ch)
  else if n = 1 then (if tok = 2 then [-100, -100, -3, -100] else [-100, -100, -1, -1], tok)
  else (if ch = 2 then [-100, 0, -100, -100] else [-50, -50, -50, -50], ch)

def trapCfg (k : ℕ) : Cfg ℚ := ⟨k, 4, 1, 4, -1000, fun _ => 1, -1000, 0⟩

/-- A decoder whose best first token ends badly, while EOS comes second. -/
def lateStep : Step ℚ ℕ := fun n _ ch => if n = 0 then ([-100, -2, -1, -100], ch) else ([-100, -10, -100, -100], ch)

/-- C99, the limits: more beams can be worse (two beams return -52.5 where one beam returns -4), and one beam is not greedy
decoding (it returns EOS at once with -2 where the greedy sequence has -11). -/
theorem C99_not_monotone :
    bestOf (trapCfg 1) trapStep 0 = [some (-4, [0, 2, 2, 1], true)] ∧
    bestOf (trapCfg 2) trapStep 0 = [some (-105/2, [0, 3, 3, 1], true)] ∧
    bestOf (trapCfg 1) lateStep 0 = [some (-2, [0, 1, 0, 0], true)] ∧ value lateStep 0 [0, 2, 1, 0] 0 2 = -11 := by
  refine ⟨?_, ?_, ?_, ?_⟩ <;> decide +kernel

section examples

theorem trap_good (k : ℕ) (hk : 0 < k) : Good (trapCfg k) :=
  ⟨hk, by simp [trapCfg], by norm_num [trapCfg], fun _ => by norm_num [trapCfg], fun _ _ _ => by norm_num [trapCfg],
    by norm_num [trapCfg]⟩

theorem trap_valid (k : ℕ) : ValidStep (trapCfg k) trapStep := by
  intro n tok ch
  unfold trapStep
  split_ifs <;> simp [trapCfg] <;> norm_num

theorem stepOracle_row {C : Type} (st : Step ℚ C) (i : ℕ) (s : State ℚ C) (r : Row ℚ C) (h : s.rows[i]? = some r) :
    (stepOracle st s)[i]? = some (decoder st s.cur r) := by
  unfold stepOracle; rw [List.getElem?_map, h]; rfl

theorem no_prompt : Prompt 1 [0, 0, 0, 0] 0 := by
  refine ⟨by simp, by intro j _ _; omega, ?_⟩
  intro j _
  rcases j with _ | _ | _ | _ | j <;> simp

theorem trap_finished : Finished 1 4 0 [0, 0, 0, 0] 0 3 [0, 2, 2, 1] := by
  refine ⟨rfl, by simp, rfl, by intro j _ _; omega, ?_, rfl, ?_⟩
  · intro j _ _; interval_cases j <;> simp
  · intro j hj
    rcases j with _ | _ | _ | _ | j <;> simp at hj ⊢

/-- C99_one_beam applies to the trap. -/
example : ∃ r f, (loop (trapCfg 1) [⟨[0, 0, 0, 0], 0⟩] (stepOracle trapStep) 4 (init (trapCfg 1) [(0, 0)])).rows[0]? = some r ∧
    r.fin.getLast? = some f ∧ f.2.2 = true ∧ (-4 : ℚ) ≤ f.1 := by
  have h := C99_one_beam (trapCfg 1) (trap_good 1 (by simp)) [⟨[0, 0, 0, 0], 0⟩] [(0, 0)] (stepOracle trapStep) 0 ⟨[0, 0, 0, 0], 0⟩ 0 0
    trapStep rfl rfl (stepOracle_row trapStep 0) (trap_valid 1) 0 no_prompt (by simp [trapCfg]) (by simp [trapCfg]) le_rfl 4 le_rfl rfl
    [0, 2, 2, 1] 3 trap_finished (by intro j _ _; interval_cases j <;> simp [trapCfg]) (by decide +kernel) (by decide +kernel)
    (by simp [trapCfg])
    (by
      intro n _ hn w hw h1 h2
      have hn : n < 2 := by omega
      simp only [trapCfg] at hw h1
      interval_cases n <;> interval_cases w <;> first | omega | (exfalso; simp at h1; done) | (exfalso; simp at h2; done) | decide +kernel)
    ⟨0, by
      intro w hw h1 h2
      simp only [trapCfg] at hw h1
      interval_cases w <;> first | omega | decide +kernel⟩
  have e : value trapStep 0 [0, 2, 2, 1] 0 3 / (trapCfg 1).bp (0 + 3) = -4 := by decide +kernel
  simpa only [e] using h

/-- C99_exhaustive applies with 27 beams. -/
example : ∃ r f, (loop (trapCfg 27) [⟨[0, 0, 0, 0], 0⟩] (stepOracle trapStep) 4 (init (trapCfg 27) [(0, 0)])).rows[0]? = some r ∧
    r.fin.getLast? = some f ∧ f.2.2 = true ∧ (-4 : ℚ) ≤ f.1 := by
  obtain ⟨r, f, h1, h2, _, h⟩ := C99_exhaustive (trapCfg 27) (trap_good 27 (by simp)) [⟨[0, 0, 0, 0], 0⟩] [(0, 0)] (stepOracle trapStep) 0
    ⟨[0, 0, 0, 0], 0⟩ 0 0 trapStep rfl rfl (stepOracle_row trapStep 0) (trap_valid 27) 0 no_prompt (by simp [trapCfg])
    (by simp [trapCfg]) le_rfl 4 le_rfl (by simp [trapCfg]) 0 (by simp) (by simp [trapCfg])
  have := h [0, 2, 2, 1] 3 trap_finished (by intro j _ _; interval_cases j <;> simp [trapCfg]) (by decide +kernel) (by decide +kernel)
    (by simp [trapCfg])
  have e : value trapStep 0 [0, 2, 2, 1] 0 3 / (trapCfg 27).bp (0 + 3) = -4 := by decide +kernel
  rw [e] at this
  exact ⟨r, f, h1, h2, this⟩

/-- A decoder with a clear favourite. -/
def clearStep : Step ℚ ℕ := fun n tok ch =>
  if n = 0 then ([-9, -5, -1, -2], ch) else if tok = 2 then ([-5, -1, -5, -5], ch) else ([-9, -9, -9, -9], ch)

theorem clear_valid (k : ℕ) : ValidStep (trapCfg k) clearStep := by
  intro n tok ch
  unfold clearStep
  split_ifs <;> simp [trapCfg]

/-- C99_found applies with two beams. -/
example : ∃ r f, (loop (trapCfg 2) [⟨[0, 0, 0, 0], 0⟩] (stepOracle clearStep) 4 (init (trapCfg 2) [(0, 0)])).rows[0]? = some r ∧
    r.fin.getLast? = some f ∧ f.2.2 = true ∧ (-2 : ℚ) ≤ f.1 := by
  have hv : ∀ u : List ℕ, value clearStep 0 u 0 1 = ([-9, -5, -1, -2] : List ℚ).getD (u.getD 1 0) 0 := by
    intro u; simp [value, tokenLogProb, clearStep]
  have hv2 : ∀ u : List ℕ, value clearStep 0 u 0 2 = ([-9, -5, -1, -2] : List ℚ).getD (u.getD 1 0) 0 +
      (if u.getD 1 0 = 2 then ([-5, -1, -5, -5] : List ℚ) else [-9, -9, -9, -9]).getD (u.getD 2 0) 0 := by
    intro u
    rw [value_succ _ _ _ _ _ (by omega), hv]
    congr 1
    unfold tokenLogProb clearStep
    simp only [one_ne_zero, if_false]
    split_ifs <;> rfl
  have h := C99_found (trapCfg 2) (trap_good 2 (by simp)) [⟨[0, 0, 0, 0], 0⟩] [(0, 0)] (stepOracle clearStep) 0 ⟨[0, 0, 0, 0], 0⟩ 0 0
    clearStep rfl rfl (stepOracle_row clearStep 0) (clear_valid 2) 0 no_prompt (by simp [trapCfg]) (by simp [trapCfg]) le_rfl 4 le_rfl
    [0, 2, 1, 0] 2 (by
      refine ⟨rfl, by simp [trapCfg], rfl, by intro j _ _; omega, ?_, rfl, ?_⟩
      · intro j _ _; interval_cases j; simp [trapCfg]
      · intro j hj
        rcases j with _ | _ | _ | _ | j <;> simp at hj ⊢)
    (by intro j _ _; interval_cases j <;> simp [trapCfg]) (by decide +kernel) (by decide +kernel) (by simp [trapCfg])
    (by
      intro m h1 h2 L _ hu
      have hm : m = 1 := by omega
      subst hm
      have : L = [] := by
        apply List.eq_nil_iff_forall_not_mem.2
        intro u huL
        obtain ⟨pre, ⟨j, hj, hne⟩, hlik⟩ := hu u huL
        rw [hv, hv] at hlik
        have hb := pre.body 1 (by omega) le_rfl
        have hh := pre.head
        simp only [trapCfg] at hb
        have hj' : u.getD 1 0 ≠ 2 := by
          intro he
          interval_cases j
          · exact hne hh
          · exact hne he
        generalize u.getD 1 0 = w at hb hj' hlik
        obtain ⟨_, hb⟩ := hb
        interval_cases w <;> simp at hlik hj' <;> norm_num at hlik
      rw [this]; simp [trapCfg])
    (by
      intro L _ hu
      have : L = [] := by
        apply List.eq_nil_iff_forall_not_mem.2
        intro u huL
        obtain ⟨pre, _, hlik⟩ := hu u huL
        rw [hv2, hv2] at hlik
        have hb := pre.body 1 (by omega) (by omega)
        have hb2 := pre.body 2 (by omega) (by omega)
        simp only [trapCfg] at hb hb2
        generalize u.getD 1 0 = w at hb hlik
        generalize u.getD 2 0 = w' at hb2 hlik
        obtain ⟨q1, hb⟩ := hb
        obtain ⟨q2, hb2⟩ := hb2
        interval_cases w <;> interval_cases w' <;> simp at hlik q1 q2 <;> norm_num at hlik
      rw [this]; simp)
  have e : value clearStep 0 [0, 2, 1, 0] 0 2 / (trapCfg 2).bp (0 + 2) = -2 := by decide +kernel
  simpa only [e] using h
end examples
end Verif.Beam
