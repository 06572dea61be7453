import Verif.Common
import Mathlib.Data.List.Sort
/-
Preprocessing and postprocessing of exported models, `/repo/t5x/export_lib.py`: `bucketize_tokenized_input`,
`truncate_and_pad_tokenized_input`, `create_preprocessor`, `create_decoder_preprocessor`, `create_postprocessor`,
`generate_examples_with_sequence_lengths`.

Simplifications: a batch is a list of rows, and the tokenizer is a parameter.  Errors of TensorFlow operations are one error `shape`.
-/
namespace Verif.Export

inductive Err where
  | allowedLengths   -- ValueError: the largest allowed length is not the feature length
  | shape            -- TensorFlow: shapes do not fit
  | tooShort         -- ValueError: random example shorter than wanted
  | noExample        -- ValueError: could not generate a valid string
deriving DecidableEq, Repr

/-- Python's `t[:n]`. -/
def sliceTo {α : Type} (t : List α) (n : Int) : List α := if 0 ≤ n then t.take n.toNat else t.take (t.length - (-n).toNat)

/-- `bucketize_tokenized_input`, lines 484-496: `tf.searchsorted` gives the number of keys below the length. -/
def bucketize (keys : List Nat) (len : Nat) : Nat :=
  keys.getD (min ((keys.filter (· < len)).length) (keys.length - 1)) 0

/-- Lines 513-516: cut to `m` and pad with zeros to `m`. -/
def cutPad (m : Nat) (t : List Int) : List Int := t.take m ++ List.replicate (m - (t.take m).length) 0

/-- `truncate_and_pad_tokenized_input`, lines 499-519.  An empty list of allowed lengths counts as none. -/
def truncatePad (t : List Int) (maxLen : Nat) (allowed : Option (List Nat)) : Except Err (List Int) :=
  match allowed with
  | none => .ok (cutPad maxLen t)
  | some [] => .ok (cutPad maxLen t)
  | some l =>
    let l' := l.insertionSort (· ≤ ·)
    if l'.getLast? = some maxLen then .ok (cutPad (bucketize l' t.length) t) else .error .allowedLengths

/-- `seqio.feature_converters.autoregressive_inputs` of an unpacked row: shifted right by one, 0 in front. -/
def arInputs (t : List Int) : List Int := (0 :: t).take t.length

/-- `seqio.feature_converters.non_padding_position`. -/
def nonPadding (t : List Int) : List Int := t.map fun x => if x = 0 then 0 else 1

/-- How a feature is treated: `add_eos` with the id, length, allowed lengths. -/
structure Feature where
  eos : Option Int
  length : Nat
  allowed : Option (List Nat)

/-- Lines 611-615: append EOS after cutting. -/
def withEos (f : Feature) (t : List Int) : List Int :=
  match f.eos with
  | some e => sliceTo t ((f.length : Int) - 1) ++ [e]
  | none => t

/-- `featurize`, lines 603-622: tokens, autoregressive inputs, weights. -/
def featurize (f : Feature) (t : List Int) : Except Err (List Int × List Int × List Int) :=
  match truncatePad (withEos f t) f.length f.allowed with
  | .ok r => .ok (r, arInputs r, nonPadding r)
  | .error e => .error e

/-- `RaggedTensor.to_tensor`: rows padded with zeros to the longest. -/
def toTensor (rows : List (List Int)) : List (List Int) :=
  rows.map fun r => r ++ List.replicate ((rows.map List.length).foldl max 0 - r.length) 0

/-- `tf.map_fn` of a function that may fail. -/
def mapE {α β : Type} (f : α → Except Err β) : List α → Except Err (List β)
  | [] => .ok []
  | a :: l =>
    match f a, mapE f l with
    | .ok b, .ok r => .ok (b :: r)
    | .error e, _ => .error e
    | _, .error e => .error e

/-- The features of an encoder-decoder model, lines 646-651. -/
structure EncDec where
  encoderInput : List (List Int)
  decoderTarget : List (List Int)
  decoderInput : List (List Int)
  lossWeights : List (List Int)

/-- `create_preprocessor`, lines 585-651, from the tokens of inputs and targets. -/
def preprocess (fi ft : Feature) (inputs targets : List (List Int)) : Except Err EncDec :=
  match mapE (featurize fi) inputs, mapE (featurize ft) targets with
  | .ok a, .ok b => .ok ⟨toTensor (a.map (·.1)), toTensor (b.map (·.1)), toTensor (b.map (·.2.1)), toTensor (b.map (·.2.2))⟩
  | .error e, _ => .error e
  | _, .error e => .error e

/-- Lines 587-591, tokenized inputs: the targets are zeros of the same shape. -/
def preprocessTokenized (fi ft : Feature) (inputs : List (List Int)) : Except Err EncDec :=
  preprocess fi ft inputs (inputs.map fun t => List.replicate t.length 0)

/-- `tf.strings.split(text, sep, maxsplit=1)` as a tensor with two columns, lines 596-600: an absent second part is empty. -/
def splitOnce {α : Type} [DecidableEq α] (sep : List α) : List α → List α × List α
  | [] => ([], [])
  | c :: s => if sep.isPrefixOf (c :: s) then ([], (c :: s).drop sep.length) else ((c :: (splitOnce sep s).1), (splitOnce sep s).2)

/-- The features of a decoder-only model, lines 816-821. -/
structure DecOnly where
  decoderInput : List (List Int)
  decoderTarget : List (List Int)
  lossWeights : List (List Int)
  causal : List (List Int)

/-- Length of a row without trailing zeros: `RaggedTensor.from_tensor(padding=0).row_lengths()`. -/
def rowLength (t : List Int) : Nat := (t.reverse.dropWhile (· = 0)).length

/-- `create_decoder_preprocessor`, lines 731-823, from tokens.  `isInputs` says whether the feature is 'inputs'; `total` is the sum of the
feature lengths.  `tf.map_fn` with a dense signature needs rows of the same length.  If the feature is not 'inputs', the widths have the shape `[batch]`
and are compared with positions of the shape `[batch, total]` (a total of 1, which broadcasts, is treated like the others). -/
def preprocessDecoder (eos : Option Int) (isInputs : Bool) (total : Nat) (rows : List (List Int)) : Except Err DecOnly :=
  let tokens := rows.map fun t => t ++ eos.toList
  if (tokens.all fun t => t.length = (tokens.headD []).length) = false then .error .shape
  else if !isInputs && rows.length ≠ 1 && rows.length ≠ total then .error .shape
  else
    let width : List Int → Nat := fun t => if isInputs then rowLength t else 0
    let widthAddPos : List Int → Nat := fun t => if isInputs then rowLength t + 1 else 0
    .ok
      { decoderInput := tokens.map fun t => arInputs (cutPad total t)
        decoderTarget := tokens.map (cutPad total)
        lossWeights := tokens.map fun t => (List.range total).map fun j =>
          if (decide (j < width t)) ^^ (decide ((nonPadding (cutPad total t)).getD j 0 ≠ 0)) then 1 else 0
        causal := tokens.map fun t => (List.range total).map fun j => if j < widthAddPos t then 1 else 0 }

/-- Running sums. -/
def cumsum : Nat → List Nat → List Nat
  | _, [] => []
  | s, x :: l => (s + x) :: cumsum (s + x) l

/-- `num_tokens_before_eos`, lines 1086-1099, of one row; a vocabulary whose `eos_id` is 0 counts as one without. -/
def tokensBeforeEos (eos : Option Int) (t : List Int) : Nat :=
  match eos with
  | some e => if e = 0 then t.length else ((cumsum 0 (t.map fun x => if x = e then 1 else 0)).map fun s => if s = 0 then 1 else 0).sum
  | none => t.length

/-- `_generate_example`, lines 1230-1261, for a positive number of tokens and the tokens `ids` of the random string. -/
def generateExample {S : Type} (encode : S → List Int) (decode : List Int → S) (ids : List Int) (n : Nat) : Except Err S :=
  if ids.length < n then .error .tooShort
  else
    match (List.range (ids.length - n)).find? (fun i => (encode (decode ((ids.drop i).take n))).length = n) with
    | some i => .ok (decode ((ids.drop i).take n))
    | none => .error .noExample

/-- `_request_for_batch`, lines 1151-1156: a batch cut or repeated to the batch size; `itertools.cycle` of nothing is nothing. -/
def adjustBatch {α : Type} (batch : List α) (size : Option Nat) : List α :=
  match size with
  | none => batch
  | some n => (List.range n).filterMap fun i => batch[i % batch.length]?

/-- `wrapped` of `create_preprocessor_with_decoder_params`, lines 1010-1025: the arguments cut into inputs and values of the decoder parameters. -/
def spliceArgs {α : Type} (names : List String) (args : List α) : List α × List (String × α) :=
  let n := names.length
  if n = 0 then ([], [])   -- `args[:-0]` is empty; `zip` with no names is empty
  else (args.take (args.length - n), names.zip (args.drop (args.length - n)))

/-- `_maybe_name_outputs`, lines 1034-1047, with names given: `none` is the ValueError. -/
def nameOutputs {α : Type} (values : List α) (names : List String) : Option (List (String × α)) :=
  if values.length = names.length then some (names.zip values) else none

end Verif.Export
