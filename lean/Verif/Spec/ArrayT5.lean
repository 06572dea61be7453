import Verif.Model.ArrayT5
import Verif.Model.T5Decode
/-
What it means that an array holds given numbers, that the arrays of parameters are those of a network, and that a batch of arrays holds
given rows.
-/
namespace Verif.ArrT5.Spec
open Verif.ND

/-- The array has rank 1 and these entries. -/
def Holds1 {α : Type} {n : Nat} (a : NDArray α) (x : Fin n → α) : Prop := a.shape = [n] ∧ ∀ i : Fin n, a.get [i.val] = x i

/-- The array has rank 2 and these entries. -/
def Holds2 {α : Type} {m n : Nat} (a : NDArray α) (x : Fin m → Fin n → α) : Prop :=
  a.shape = [m, n] ∧ ∀ (i : Fin m) (j : Fin n), a.get [i.val, j.val] = x i j

/-- The array has rank 3 and these entries. -/
def Holds3 {α : Type} {m n k : Nat} (a : NDArray α) (x : Fin m → Fin n → Fin k → α) : Prop :=
  a.shape = [m, n, k] ∧ ∀ (i : Fin m) (j : Fin n) (l : Fin k), a.get [i.val, j.val, l.val] = x i j l

/-- The array has rank 4 and these entries. -/
def Holds4 {α : Type} {m n k q : Nat} (a : NDArray α) (x : Fin m → Fin n → Fin k → Fin q → α) : Prop :=
  a.shape = [m, n, k, q] ∧ ∀ (i : Fin m) (j : Fin n) (l : Fin k) (r : Fin q), a.get [i.val, j.val, l.val, r.val] = x i j l r

variable {B n m d h e f V : Nat}

/-- The arrays of an attention layer hold its kernels. -/
structure AttnIs (a : Attn) (p : Transformer.Attn d h e) : Prop where
  query : Holds2 a.query p.query
  key : Holds2 a.key p.key
  value : Holds2 a.value p.value
  out : Holds2 a.out p.out

/-- The arrays of an MLP block hold its kernels; the activation functions are the same. -/
structure MlpIs (a : Mlp) (p : Transformer.Mlp d f) : Prop where
  first : a.first.1 = p.first.1 ∧ Holds2 a.first.2 p.first.2
  others : List.Forall₂ (fun (u : (ℝ → ℝ) × NDArray ℝ) (w : (ℝ → ℝ) × Transformer.Kernel d f) => u.1 = w.1 ∧ Holds2 u.2 w.2) a.others p.others
  wo : Holds2 a.wo p.wo

/-- The arrays of an encoder layer hold its parameters. -/
structure EncIs (a : EncLayer) (p : Transformer.EncLayer d h e f) : Prop where
  preAttention : Holds1 a.preAttention p.preAttention
  attention : AttnIs a.attention p.attention
  preMlp : Holds1 a.preMlp p.preMlp
  mlp : MlpIs a.mlp p.mlp

/-- The arrays of a decoder layer hold its parameters. -/
structure DecIs (a : DecLayer) (p : Transformer.DecLayer d h e f) : Prop where
  preSelf : Holds1 a.preSelf p.preSelf
  self : AttnIs a.self p.self
  preCross : Holds1 a.preCross p.preCross
  cross : AttnIs a.cross p.cross
  preMlp : Holds1 a.preMlp p.preMlp
  mlp : MlpIs a.mlp p.mlp

/-- The table of relative position embeddings, with 32 buckets. -/
def RelIs (a : NDArray ℝ) (rel : Fin h → ℤ → ℝ) : Prop := Holds2 a fun hd (v : Fin 32) => rel hd v.val

/-- How the logits are computed. -/
inductive HeadIs : Option (NDArray ℝ) → Transformer.Head d V → Prop
  | viaEmbedding : HeadIs none .viaEmbedding
  | dense {a : NDArray ℝ} {w : Transformer.Kernel d V} : Holds2 a w → HeadIs (some a) (.denseKernel w)

/-- The arrays of parameters are those of a network of these dimensions. -/
structure ParamsAre (cfg : Config) (p : Params) (net : Transformer.Net d h e f V) : Prop where
  numHeads : cfg.numHeads = h
  headDim : cfg.headDim = e
  mlpDim : cfg.mlpDim = f
  vocabSize : cfg.vocabSize = V
  eps : cfg.eps = net.eps
  table : Holds2 p.table net.table
  encRel : RelIs p.encRel net.encRel
  enc : List.Forall₂ EncIs p.enc net.enc
  encNorm : Holds1 p.encNorm net.encNorm
  decRel : RelIs p.decRel net.decRel
  dec : List.Forall₂ DecIs p.dec net.dec
  decNorm : Holds1 p.decNorm net.decNorm
  head : HeadIs p.logitsDense net.head

/-- The shapes of the parameters of an attention layer. -/
structure AttnShapes (cfg : Config) (d : Nat) (a : Attn) : Prop where
  query : a.query.shape = [d, cfg.numHeads * cfg.headDim]
  key : a.key.shape = [d, cfg.numHeads * cfg.headDim]
  value : a.value.shape = [d, cfg.numHeads * cfg.headDim]
  out : a.out.shape = [cfg.numHeads * cfg.headDim, d]

/-- The shapes of the parameters of an MLP block. -/
structure MlpShapes (cfg : Config) (d : Nat) (a : Mlp) : Prop where
  first : a.first.2.shape = [d, cfg.mlpDim]
  others : ∀ u ∈ a.others, u.2.shape = [d, cfg.mlpDim]
  wo : a.wo.shape = [cfg.mlpDim, d]

/-- The shapes of all parameters, for a model with `emb_dim = d`. -/
structure Shapes (cfg : Config) (d : Nat) (p : Params) : Prop where
  table : p.table.shape = [cfg.vocabSize, d]
  encRel : p.encRel.shape = [cfg.numHeads, 32]
  enc : ∀ l ∈ p.enc, l.preAttention.shape = [d] ∧ AttnShapes cfg d l.attention ∧ l.preMlp.shape = [d] ∧ MlpShapes cfg d l.mlp
  encNorm : p.encNorm.shape = [d]
  decRel : p.decRel.shape = [cfg.numHeads, 32]
  dec : ∀ l ∈ p.dec, l.preSelf.shape = [d] ∧ AttnShapes cfg d l.self ∧ l.preCross.shape = [d] ∧ AttnShapes cfg d l.cross ∧
    l.preMlp.shape = [d] ∧ MlpShapes cfg d l.mlp
  decNorm : p.decNorm.shape = [d]
  head : ∀ k, p.logitsDense = some k → k.shape = [d, cfg.vocabSize]

/-- What it means that optional token arrays hold optional rows. -/
abbrev SegsAre (a : Option (NDArray Int)) (x : Option (Fin B → Fin n → Int)) : Prop :=
  Option.Rel (fun (a : NDArray Int) (x : Fin B → Fin n → Int) => Holds2 a x) a x

/-- The arrays of a batch hold these rows: row `b` of every array belongs to `rows b`.  Segment ids are given for all rows or for none. -/
structure BatchIs (a : Batch) (rows : Fin B → Transformer.Input n m) : Prop where
  encTokens : Holds2 a.encTokens fun b => (rows b).encTokens
  decInputs : Holds2 a.decInputs fun b => (rows b).decInputs
  decTargets : Holds2 a.decTargets fun b => (rows b).decTargets
  encSeg : ∃ y : Option (Fin B → Fin m → Int), SegsAre a.encSeg y ∧ ∀ b, (rows b).encSeg = y.map fun y => y b
  decSeg : ∃ y : Option (Fin B → Fin n → Int), SegsAre a.decSeg y ∧ ∀ b, (rows b).decSeg = y.map fun y => y b

/-- The arrays of the cache of one layer hold the caches of the rows. -/
structure CacheIs {L : Nat} (a : Cache) (c : Fin B → KVCache.Cache h e L) : Prop where
  key : Holds4 a.key fun b => (c b).key
  value : Holds4 a.value fun b => (c b).value
  index : ∀ b, (c b).index = a.index

/-- Layers with their caches, for the whole batch and for every row. -/
inductive CachesAre {L : Nat} : List (DecLayer × Cache) → (Fin B → List (Transformer.DecLayer d h e f × KVCache.Cache h e L)) → Prop
  | nil : CachesAre [] fun _ => []
  | cons {a : DecLayer} {l : Transformer.DecLayer d h e f} {k : Cache} {c : Fin B → KVCache.Cache h e L} {as : List (DecLayer × Cache)}
      {cs : Fin B → List (Transformer.DecLayer d h e f × KVCache.Cache h e L)} :
      DecIs a l → CacheIs k c → CachesAre as cs → CachesAre ((a, k) :: as) fun b => (l, c b) :: cs b

end Verif.ArrT5.Spec
