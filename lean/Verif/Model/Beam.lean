import Verif.Model.TopK
import Mathlib.Algebra.Order.Field.Basic
/-
Beam search: t5x/decoding.py:1138-1569 (with 723-733, 808-915, 969-996, 1002-1066).

Simplifications.
* Scores live in any linearly ordered field instead of float32; NEG_INF (-1e7 in the code) is a parameter,
  and so is the brevity penalty as a function of the length.
* The two-stage top-k is replaced by top-k, which C07 proves equal.
* One-hot contractions are indexing.  The products with booleans are conditionals.
* The decoder is a parameter: it gives, for every step, batch row and beam, the vector of log-probabilities
  of the next token (log_softmax of the logits) and the new cache, and may depend on the whole state.  A cache
  is an element of any type C per beam; the axes without a beam dimension (`cache_index`, biases) are not
  modelled.
* The batch is a list of rows which share the loop counter.
-/
namespace Verif.Beam
open Verif.TopK

variable {K C : Type} [Field K] [LinearOrder K]

/-- Parameters of one call. -/
structure Cfg (K : Type) where
  /-- num_decodes -/
  k : ℕ
  vocab : ℕ
  eos : ℕ
  /-- max_decode_len after the increment of line 1208 -/
  maxLen : ℕ
  negInf : K
  /-- brevity_penalty(alpha, ·), decoding.py:723-733 -/
  bp : ℕ → K
  minLogProb : K
  /-- max_decode_step; 0 or negative: no limit -/
  maxStep : ℤ

/-- decoding.py:1002-1021, one batch row of BeamState: live (log-prob, sequence), finished
(score, sequence, flag), caches of the live beams. -/
structure Row (K C : Type) where
  live : List (K × List ℕ)
  fin : List (K × List ℕ × Bool)
  cache : List C

/-- What is fixed for a batch row: the (possibly prefilled) prompt and the initial index. -/
structure RowIn where
  inputs : List ℕ
  initialIndex : ℕ

structure State (K C : Type) where
  cur : ℕ
  rows : List (Row K C)

/-- decoding.py:1024-1066 beam_init, one row; `first` is 0 or the last prompt token (lines 1227-1235). -/
def initRow (c : Cfg K) (first : ℕ) (ch : C) : Row K C :=
  let seq := first :: List.replicate (c.maxLen - 1) 0
  { live := (0 : K) :: List.replicate (c.k - 1) c.negInf |>.map (fun v => (v, seq))
    fin := List.replicate c.k (c.negInf, List.replicate c.maxLen 0, false)
    cache := List.replicate c.k ch }

/-- decoding.py:1374-1376: the next prompt token; jax clamps the index. -/
def nextTok (inputs : List ℕ) (cur : ℕ) : ℕ := inputs.getD (min (cur + 1) (inputs.length - 1)) 0

/-- A candidate after the prompt has been forced: log-prob, sequence, newly finished, and the live beam
it continues (topk_beam_indices). -/
structure Cand (K : Type) where
  lp : K
  seq : List ℕ
  done : Bool
  beam : ℕ

/-- decoding.py:1340-1357: log-probs of all continuations, flattened. -/
def flatLogProbs (live : List (K × List ℕ)) (logp : List (List K)) : List K :=
  (List.zipWith (fun (l : K × List ℕ) (v : List K) => v.map (· + l.1)) live logp).flatten

/-- decoding.py:1364-1419: one of the 2k candidates; `n` is its rank. -/
def mkCand (c : Cfg K) (live : List (K × List ℕ)) (cur next : ℕ) (n : ℕ) (e : K × ℕ) : Cand K :=
  let outOfPrompt := next = 0
  let lp := if outOfPrompt then e.1 else if n = 0 then 0 else c.negInf
  let tok := if outOfPrompt then e.2 % c.vocab else next
  let seq := (live.getD (e.2 / c.vocab) (0, [])).2.set (cur + 1) tok
  ⟨lp, seq, seq[cur + 1]? = some c.eos, e.2 / c.vocab⟩

/-- decoding.py:1350-1419: the 2k candidates. -/
def cands (c : Cfg K) (cur next : ℕ) (logp : List (List K)) (r : Row K C) : List (Cand K) :=
  (topK (flatLogProbs r.live logp) (2 * c.k)).zipIdx.map (fun p => mkCand c r.live cur next p.2 p.1)

/-- decoding.py:969-996 gather_topk_beams, and 1424-1436: select by top-k and flip. -/
def gatherTop {A : Type} (items : List A) (key : A → K) (k : ℕ) : List A :=
  (topK (items.map key) k).reverse.filterMap (fun e => items[e.2]?)

/-- decoding.py:1423: new_log_probs. -/
def liveKey (c : Cfg K) (x : Cand K) : K := x.lp + if x.done then c.negInf else 0

/-- decoding.py:1461-1473: new_scores. -/
def score (c : Cfg K) (len : ℕ) (x : Cand K) : K := x.lp / c.bp len + if x.done then 0 else c.negInf

/-- decoding.py:1302-1506 beam_search_loop_body_fn, one row; `nc` are the caches returned by the decoder
(new_cache), of which the ones of the surviving beams are gathered (1438-1457). -/
def rowBody (c : Cfg K) (inp : RowIn) (cur : ℕ) (logp : List (List K)) (nc : List C) (r : Row K C) : Row K C :=
  let cs := cands c cur (nextTok inp.inputs cur) logp r
  let alive := gatherTop cs (liveKey c) c.k
  let live := alive.map (fun x => (liveKey c x, x.seq))
  let cache := alive.filterMap (fun x => nc[x.beam]?)
  let new := cs.map (fun x => (score c (inp.initialIndex + (cur + 1)) x, x.seq, x.done))
  let fin := gatherTop (r.fin ++ new) (·.1) c.k
  ⟨live, fin, cache⟩

/-- decoding.py:1266-1280: does the row count as terminated? -/
def rowTerminated (c : Cfg K) (r : Row K C) : Bool :=
  let best := (r.live.getLast?.map (·.1)).getD 0 / c.bp c.maxLen
  let worst := (r.fin.map (·.1)).min?.getD 0
  r.fin.all (fun f => decide ((if f.2.2 then worst else c.negInf) > best))

/-- decoding.py:1250-1300 beam_search_loop_cond_fn. -/
def cond (c : Cfg K) (ins : List RowIn) (s : State K C) : Bool :=
  let minInit := (ins.map (·.initialIndex)).min?.getD 0
  let notAtEnd := decide (s.cur + minInit < c.maxLen - 1)
  let exceed := decide (c.maxStep > 0) && decide ((s.cur : ℤ) ≥ c.maxStep)
  let terminated := s.rows.all (rowTerminated c)
  let nonePass := s.rows.all (fun r =>
    decide ((r.live.getLast?.map (·.1)).getD 0 / c.bp c.maxLen < c.minLogProb / c.bp c.maxLen)) &&
    decide (s.cur > 0)
  notAtEnd && !terminated && !nonePass && !exceed

/-- The decoder: log-probabilities and new caches for every row and beam. -/
abbrev Oracle (K C : Type) := State K C → List (List (List K) × List C)

def body (c : Cfg K) (ins : List RowIn) (o : Oracle K C) (s : State K C) : State K C :=
  ⟨s.cur + 1, ((ins.zip (o s)).zip s.rows).map (fun p => rowBody c p.1.1 s.cur p.1.2.1 p.1.2.2 p.2)⟩

/-- lax.while_loop; cur grows, so maxLen steps are enough. -/
def loop (c : Cfg K) (ins : List RowIn) (o : Oracle K C) : ℕ → State K C → State K C
  | 0, s => s
  | n + 1, s => if cond c ins s then loop c ins o n (body c ins o s) else s

/-- Initial state: for every row its first token and its (prefilled or empty) cache. -/
def init (c : Cfg K) (firsts : List (ℕ × C)) : State K C := ⟨0, firsts.map (fun f => initRow c f.1 f.2)⟩

/-- decoding.py:1513-1528 and 1567: results of one row, live sequences when nothing finished; the dummy
first token is dropped.  The reassembly with the right-aligned prompt (1532-1564) is C09. -/
def result (r : Row K C) : List (K × List ℕ) :=
  if r.fin.any (·.2.2) then r.fin.map (fun f => (f.1, f.2.1.drop 1)) else r.live.map (fun l => (l.1, l.2.drop 1))

end Verif.Beam
