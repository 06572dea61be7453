import Verif.Model.ArrayLm
import Verif.Model.DecoderOnly
import Verif.Spec.ArrayT5
/-
What it means that the arrays of parameters are those of a decoder-only network, that a batch of arrays holds given rows, and that the
arrays of the caches hold the caches of the rows.
-/
namespace Verif.ArrLm.Spec
open Verif.ND Verif.ArrT5.Spec

variable {B n d h e f V : Nat}

/-- The arrays of parameters are those of a network of these dimensions. -/
structure ParamsAre (cfg : ArrT5.Config) (p : Params) (net : DecoderOnly.LmNet d h e f V) : Prop where
  numHeads : cfg.numHeads = h
  headDim : cfg.headDim = e
  mlpDim : cfg.mlpDim = f
  vocabSize : cfg.vocabSize = V
  eps : cfg.eps = net.eps
  table : Holds2 p.table net.table
  rel : RelIs p.rel net.rel
  layers : List.Forall₂ EncIs p.layers net.layers
  norm : Holds1 p.norm net.norm
  head : HeadIs p.logitsDense net.head

/-- The shapes of all parameters, for a model with `emb_dim = d`. -/
structure Shapes (cfg : ArrT5.Config) (d : Nat) (p : Params) : Prop where
  table : p.table.shape = [cfg.vocabSize, d]
  rel : p.rel.shape = [cfg.numHeads, 32]
  layers : ∀ l ∈ p.layers, l.preAttention.shape = [d] ∧ AttnShapes cfg d l.attention ∧ l.preMlp.shape = [d] ∧ MlpShapes cfg d l.mlp
  norm : p.norm.shape = [d]
  head : ∀ k, p.logitsDense = some k → k.shape = [d, cfg.vocabSize]

/-- The arrays of a batch hold these rows; the prefix marks and the segment ids are given for all rows or for none. -/
structure BatchIs (a : Batch) (rows : Fin B → DecoderOnly.Input n) : Prop where
  inputs : Holds2 a.inputs fun b => (rows b).inputs
  targets : Holds2 a.targets fun b => (rows b).targets
  causal : ∃ y : Option (Fin B → Fin n → Int), SegsAre a.causal y ∧ ∀ b, (rows b).causal = y.map fun y => y b
  seg : ∃ y : Option (Fin B → Fin n → Int), SegsAre a.seg y ∧ ∀ b, (rows b).seg = y.map fun y => y b

/-- The arrays of the cache of one layer hold the caches of the rows; every row has its own index. -/
structure CacheIs {L : Nat} (a : Cache) (c : Fin B → KVCache.Cache h e L) : Prop where
  key : Holds4 a.key fun b => (c b).key
  value : Holds4 a.value fun b => (c b).value
  index : Holds1 a.index fun b => (c b).index

/-- Layers with their caches, for the whole batch and for every row. -/
inductive CachesAre {L : Nat} : List (ArrT5.EncLayer × Cache) → (Fin B → List (Transformer.EncLayer d h e f × KVCache.Cache h e L)) → Prop
  | nil : CachesAre [] fun _ => []
  | cons {a : ArrT5.EncLayer} {l : Transformer.EncLayer d h e f} {k : Cache} {c : Fin B → KVCache.Cache h e L}
      {as : List (ArrT5.EncLayer × Cache)} {cs : Fin B → List (Transformer.EncLayer d h e f × KVCache.Cache h e L)} :
      EncIs a l → CacheIs k c → CachesAre as cs → CachesAre ((a, k) :: as) fun b => (l, c b) :: cs b

end Verif.ArrLm.Spec
