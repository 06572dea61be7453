import Verif.Model.Train
import Verif.Lemmas.NamedTree
/-
The train step of the mixture-of-experts trainer: `/repo/t5x/contrib/moe/trainer.py` lines 42-149, with `match_fn` and `scale_sharded_grads` of
`/repo/t5x/contrib/moe/training_utils.py` lines 33-73.

The parameters form a tree of dicts; `I` is this tree with the number of each leaf, in the order of jax.  A gradient is given by its leaves.  Simplifications: those
of `Verif.Model.Train` and `Verif.Model.NamedTree`; of regular expressions only literal characters, `.` and `.*` are modelled; gradients are exact.
-/
namespace Verif.MoeTrain
open Verif.NamedTree

/-! ### `match_fn` -/

inductive Tok where
  | lit (c : Char)
  | dot
  | dotStar

/-- A regular expression without special characters other than `.` and `.*`. -/
def parse : List Char → List Tok
  | '.' :: '*' :: r => .dotStar :: parse r
  | '.' :: r => .dot :: parse r
  | c :: r => .lit c :: parse r
  | [] => []

/-- `.*` and then `k`: any number of characters that are not line ends. -/
def star (k : List Char → Bool) : List Char → Bool
  | [] => k []
  | c :: s => k (c :: s) || (c != '\n' && star k s)

/-- Whether the expression matches at the beginning of the string. -/
def matchHere : List Tok → List Char → Bool
  | [], _ => true
  | .lit _ :: _, [] => false
  | .lit c :: r, d :: s => d == c && matchHere r s
  | .dot :: _, [] => false
  | .dot :: r, d :: s => d != '\n' && matchHere r s
  | .dotStar :: r, s => star (matchHere r) s

/-- `re.compile(pattern).match(name) is not None` for a pattern that begins with `^`. -/
def reMatch (pattern name : List Char) : Bool :=
  match pattern with
  | '^' :: p => matchHere (parse p) name
  | p => matchHere (parse p) name

/-- The default of `sharded_match_fn`, trainer.py lines 53-55. -/
def defaultMatch : Key → Bool := matchFn reMatch (some ".*expert.*".toList)

/-! ### The train step -/

inductive Err where
  | train (e : Train.Err)
  | tree (e : NamedTree.Err)

variable {K P O Mu R Row A : Type} {N : Nat}

/-- `MoeTrainer._partitioned_train_step`, lines 100-149, on the numbered tree `I` of the parameters; `factor` is `num_expert_partitions`. -/
def moeStep [Add K] [One K] [AddCommMonoid A] (I : PTree (Fin N)) (matchName : Option (Key → Bool)) (factor : Nat)
    (c : Train.Cfg K P (Fin N → A) O Mu R Row) (s : Train.State P O Mu) (batch : Train.Batch Row) : Except Err (Train.State P O Mu × Metrics.Dict K) :=
  match Train.accumulate c.split c.lossGrad s.params s.mutables batch (c.foldIn c.baseRng s.step) c.microbatches with
  | .error e => .error (.train e)
  | .ok a =>
    match scaleShardedGrads (mapT a.grad I) matchName (fun v => factor • v) with
    | .error e => .error (.tree e)
    | .ok scaled =>
      let g : Fin N → A := fun i => (flatten scaled).getD i 0
      let s' := Train.applyGradient c s g (c.lr s.step) a.mutables
      .ok (s', a.metrics ++ [("learning_rate".toList, .average (c.lr s.step) 1), ("learning_rate/current".toList, .last (c.lr s.step))] ++
        c.weightMetrics g s.params s'.params)

end Verif.MoeTrain
