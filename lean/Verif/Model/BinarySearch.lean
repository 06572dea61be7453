/-
Model of `/repo/t5x/binary_search.py`.

One batch element (one row) at a time: every operation in the file is
elementwise over the batch axes or a reduction over the vocabulary axis, so a
batched call is the row model mapped over the rows.  `swapaxes`
(lines 193-203, 263-270) only changes the memory layout and is omitted.
-/
namespace Verif.BinarySearch

/-- An int32 or the bit pattern of a float32. -/
abbrev Word := BitVec 32

/-- `loop_body` of `int32_bsearch`, binary_search.py:60-68.
`jnp.int32(1 << (30 - i))` is `1#32 <<< (30 - i)`. -/
def loopBody (predicate : Word → Bool) (i : Nat) (currentBits : Word) : Word :=
  let bitIndex := 30 - i
  let bit : Word := 1#32 <<< bitIndex
  let midpoint := currentBits ||| bit
  let predicateSatisfied := predicate midpoint
  currentBits ||| (if predicateSatisfied then 0#32 else bit)

/-- `lax.fori_loop(0, n, body, init)`: `body` is applied with `i = 0, …, n-1`
in this order. -/
def foriLoop {α : Type} (n : Nat) (body : Nat → α → α) (init : α) : α :=
  (List.range n).foldl (fun s i => body i s) init

/-- `int32_bsearch`, binary_search.py:28-71 (one batch element).  The `uint32`
promotion on line 55-57 is bitwise OR on 32-bit words. -/
def int32Bsearch (predicate : Word → Bool) : Word :=
  let currentBits : Word := 0#32
  let currentBits := currentBits ||| (if predicate currentBits then 1#32 <<< 31 else 0#32)
  foriLoop 31 (loopBody predicate) currentBits

/-- `_monotonic_int32_to_float32_bit_pattern`, binary_search.py:74-101.
`x < 0` is the signed comparison of int32. -/
def monoBits (x : Word) : Word :=
  x ^^^ (if x.slt 0#32 then 0x7fffffff#32 else 0#32)

/-- `exponent_bits = (1 << 31) - (1 << (31 - 8))`, binary_search.py:138. -/
def exponentBits : Word := (1#32 <<< 31) - (1#32 <<< (31 - 8))

/-- `int32_predicate`, binary_search.py:140-152.  A float32 is its bit pattern,
so `bitcast_convert_type` is the identity. `predicate` is only consulted on the
result when the pattern is finite, as `jnp.where` selects. -/
def int32Predicate (predicate : Word → Bool) (x : Word) : Bool :=
  let x := monoBits x
  let isFinite := (x &&& exponentBits) != exponentBits
  let predicateOnNonfinite := (0#32).sle x
  if isFinite then predicate x else predicateOnNonfinite

/-- `float32_bsearch`, binary_search.py:121-164 (one batch element). -/
def float32Bsearch (predicate : Word → Bool) : Word :=
  monoBits (int32Bsearch (int32Predicate predicate))

/-- Float negation `-x` flips the sign bit (used on lines 212 and 224). -/
def fneg (x : Word) : Word := x ^^^ 0x80000000#32

section masks
/-! The float comparisons `x > y` and `x >= y` are IEEE-754 comparisons, which
belong to the hardware/XLA and are parameters here; the theorems instantiate
them with the comparison of the decoded values (`Verif.Spec.BinarySearch`). -/
variable (gt ge : Word → Word → Bool)

/-- The predicate of `topk_mask`, binary_search.py:206-220. -/
def topkPredicate (x : List Word) (k : Nat) (threshold : Word) : Bool :=
  let threshold := fneg threshold
  let countGt := x.countP (fun v => gt v threshold)
  decide (countGt ≥ k)

/-- `topk_mask`, binary_search.py:167-227 (one row). -/
def topkMask (x : List Word) (k : Nat) (replaceVal : Word) : List Word :=
  let cutoff := float32Bsearch (topkPredicate gt x k)
  let cutoff := fneg cutoff
  x.map (fun v => if ge v cutoff then v else replaceVal)

/-- The predicate of `topp_mask`, binary_search.py:280-291.  `sum` is the
floating point reduction `jnp.sum` (its rounding and order of additions are
parameters); its results are compared with `p` by `<`. -/
def toppPredicate (sum : List Word → Rat) (probs : List Word) (p : Rat) (threshold : Word) : Bool :=
  let probabilityMass := sum (probs.map (fun v => if ge v threshold then v else 0#32))
  decide (probabilityMass < p)

/-- `topp_mask`, binary_search.py:230-299 (one row).  `probs` is
`jax.nn.softmax(logits)`, passed in. -/
def toppMask (sum : List Word → Rat) (logits probs : List Word) (p : Rat) (replaceVal : Word) :
    List Word :=
  let threshold := float32Bsearch (toppPredicate ge sum probs p)
  List.zipWith (fun pr l => if ge pr threshold then l else replaceVal) probs logits

end masks
end Verif.BinarySearch
