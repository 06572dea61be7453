import Verif.Common
/-
Attention masks: t5x/examples/t5/layers.py:708-924.

Simplifications: one batch row (every function acts on each row of the batch separately); the singleton
head and extra batch dimensions are dropped; an array of length n is a function on `Fin n`; a mask entry
is an integer, 0 or non-zero, the cast to `dtype` of a boolean being 0 or 1.
-/
namespace Verif.Masks

/-- A row of integers of length n. -/
abbrev Row (n : Nat) := Fin n → Int
/-- A mask with n query and m key positions. -/
abbrev Mask (n m : Nat) := Fin n → Fin m → Int

/-- `bool.astype(dtype)`. -/
def ofBool (b : Bool) : Int := if b then 1 else 0

/-- jnp.logical_and / jnp.logical_or / jnp.greater_equal / jnp.equal / jnp.multiply on integers. -/
def logicalAnd (a b : Int) : Int := ofBool (a ≠ 0 ∧ b ≠ 0)
def logicalOr (a b : Int) : Int := ofBool (a ≠ 0 ∨ b ≠ 0)
def greaterEqual (a b : Int) : Int := ofBool (a ≥ b)
def equal (a b : Int) : Int := ofBool (a = b)
def multiply (a b : Int) : Int := a * b

/-- layers.py:708-743 make_attention_mask. -/
def makeAttentionMask {n m : Nat} (q : Row n) (k : Row m) (pairwise : Int → Int → Int) : Mask n m :=
  fun i j => pairwise (q i) (k j)

/-- layers.py:746-777 make_causal_mask: only the length matters. -/
def makeCausalMask (n : Nat) : Mask n n :=
  makeAttentionMask (fun i => (i.val : Int)) (fun i => (i.val : Int)) greaterEqual

/-- layers.py:780-799 combine_masks: None masks are dropped, None if none is left.  A single mask is
returned as it is, otherwise a left fold of logical_and. -/
def combineMasks {n m : Nat} (masks : List (Option (Mask n m))) : Option (Mask n m) :=
  match masks.filterMap id with
  | [] => none
  | mask :: others => some (others.foldl (fun acc o => fun i j => logicalAnd (acc i j) (o i j)) mask)

/-- layers.py:825-924 make_decoder_mask. -/
def makeDecoderMask {n : Nat} (tokens : Row n) (causalAttention segmentIds : Option (Row n)) :
    Option (Mask n n) :=
  let causal := makeCausalMask n
  let m0 := match causalAttention with
    | some c =>
      let inputs := makeAttentionMask c c logicalAnd
      fun i j => logicalOr (causal i j) (inputs i j)
    | none => causal
  let nonpad : Row n := fun i => ofBool (tokens i > 0)
  let m1 := makeAttentionMask nonpad nonpad multiply
  let m2 := segmentIds.map (fun s => makeAttentionMask s s equal)
  combineMasks [some m0, some m1, m2]

/-- t5x/examples/t5/network.py:325-339 Transformer.encode: padding mask, and packing mask when segment ids
are given. -/
def makeEncoderMask {n : Nat} (tokens : Row n) (segmentIds : Option (Row n)) : Option (Mask n n) :=
  let nonpad : Row n := fun i => ofBool (tokens i > 0)
  let m0 := makeAttentionMask nonpad nonpad multiply
  match segmentIds with
  | some s => combineMasks [some m0, some (makeAttentionMask s s equal)]
  | none => some m0

/-- t5x/examples/t5/network.py:361-397 Transformer.decode with decode=False: the encoder-decoder mask.
`none`: encoder segment ids without decoder segment ids (expand_dims of None raises). -/
def makeEncoderDecoderMask {n m : Nat} (decTokens : Row n) (encTokens : Row m)
    (decSeg : Option (Row n)) (encSeg : Option (Row m)) : Option (Mask n m) :=
  let dn : Row n := fun i => ofBool (decTokens i > 0)
  let en : Row m := fun i => ofBool (encTokens i > 0)
  let m0 := makeAttentionMask dn en multiply
  match encSeg, decSeg with
  | some es, some ds => combineMasks [some m0, some (makeAttentionMask ds es equal)]
  | some _, none => none
  | none, _ => some m0

/-- The encoder stack, network.py:178-219: each layer maps the mask and the hidden states to new hidden
states.  Everything inside a layer is a parameter. -/
def encode {n : Nat} {H : Type} (layers : List (Mask n n → (Fin n → H) → Fin n → H)) (mask : Mask n n)
    (x : Fin n → H) : Fin n → H :=
  layers.foldl (fun h layer => layer mask h) x

/-- The decoder stack, network.py:222-293: each layer also sees the encoder output and its mask. -/
def decode {n m : Nat} {H E : Type}
    (layers : List (Mask n n → Mask n m → (Fin m → E) → (Fin n → H) → Fin n → H))
    (mask : Mask n n) (cross : Mask n m) (enc : Fin m → E) (x : Fin n → H) : Fin n → H :=
  layers.foldl (fun h layer => layer mask cross enc h) x

end Verif.Masks
