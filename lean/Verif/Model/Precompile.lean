import Verif.Model.LocalChunk
/-
The shapes of the batches that the training step is compiled for: `/repo/t5x/train.py`, lines 277-281 and 621-641, and `/repo/t5x/precompile.py`, lines 46-146.

Simplifications: only names and shapes of the features; the feature converter gives each feature its further dimensions (`features`).
-/
namespace Verif.Precompile
open Verif.LocalChunk

abbrev Name := List Char
/-- Names and shapes. -/
abbrev Spec := List (Name × List Nat)

/-- `train_iter.element_spec` on a host: `get_dataset` makes batches of `cfg.batch_size // num_shards` rows, `/repo/t5x/utils.py` lines 1971-1975 and 1999. -/
def elementSpec (cfgBatch : Nat) (l : Layout) (features : Spec) : Spec := features.map fun (k, rest) => (k, cfgBatch / l.numShards :: rest)

/-- `input_shapes`, from which the variables are initialised: train.py lines 277-280, precompile.py lines 82-84; `prepare_train_iter` gives the batches of training the
same shapes, utils.py lines 753-756 (not for AirIO, whose batches it leaves as they are). -/
def inputShapes (l : Layout) (spec : Spec) : Spec := spec.map fun (k, s) => (k, l.batchSize.getD 0 :: s.drop 1)

/-- The dummy batch for which train.py compiles the training step, lines 621-632. -/
def trainDummy (l : Layout) (spec : Spec) : Spec := spec.map fun (k, s) => (k, l.batchSize.getD 0 :: s.drop 1)

/-- The dummy batch for which precompile.py lowers the training step, lines 86-88. -/
def precompileDummy (spec : Spec) : Spec := spec.map fun (k, s) => (k, s)

/-- The rows of all shards together, which `_create_sharded_array` puts on the devices for a training step, utils.py lines 601-690. -/
def trainingBatch (l : Layout) (spec : Spec) : Spec := spec.map fun (k, s) => (k, s.headD 0 * l.numShards :: s.drop 1)

end Verif.Precompile
