import Verif.Model.CkptName
/-
Import of legacy T5 checkpoints: `/repo/t5x/checkpoint_importer.py`.

A flat key `'a/b/c'` is represented by its components `['a', 'b', 'c']`; splitting at slashes is a bijection between strings and
non-empty component lists.  The regular expressions of the T5 rules contain slashes only literally, so they are matched component by
component.  Unicode digits and letters and a final newline (accepted by `$`) are not considered.
-/
namespace Verif.Importer
open Verif Verif.Ckpt

abbrev Key := List Name

inductive Err where
  | unmapped    -- ValueError: unmapped tensor keys exist
  | keyError    -- KeyError: unknown slot, or key not in the state dict
  | indexError  -- IndexError: layer norm index out of range
  | shape       -- ValueError: variable has the wrong shape
deriving DecidableEq

/-! ### The translator -/

/-- A rule: whether its pattern matches a key, and if so the conversion function; a returned key `none` drops the variable. -/
abbrev Rule (V : Type) := Key → Option (V → Except Err (Option Key × V))

variable {V : Type}

/-- The first matching rule, lines 238-246. -/
def firstMatch : List (Rule V) → Key → Option (V → Except Err (Option Key × V))
  | [], _ => none
  | r :: rs, k =>
    match r k with
    | some f => some f
    | none => firstMatch rs k

/-- The loop of `CheckpointTranslator.apply`, lines 233-247: new dictionary and unmatched keys. -/
def applyLoop (rules : List (Rule V)) : List (Key × V) → List (Key × V) × List Key → Except Err (List (Key × V) × List Key)
  | [], s => .ok s
  | (k, v) :: rest, (new, un) =>
    match firstMatch rules k with
    | none => applyLoop rules rest (new, un ++ [k])
    | some f =>
      match f v with
      | .error e => .error e
      | .ok (none, _) => applyLoop rules rest (new, un)
      | .ok (some k', v') => applyLoop rules rest (PyDict.set new k' v', un)

/-- `CheckpointTranslator.apply`, lines 223-254. -/
def apply (rules : List (Rule V)) (d : List (Key × V)) : Except Err (List (Key × V)) :=
  match applyLoop rules d ([], []) with
  | .error e => .error e
  | .ok (new, un) => if un ≠ [] then .error .unmapped else .ok new

/-! ### The T5 rules -/

def s (x : String) : Name := x.toList

/-- The rest of a component after a literal prefix. -/
def after (p c : Name) : Option Name := if p.isPrefixOf c then some (c.drop p.length) else none

/-- `\w` for ASCII. -/
def isWord (c : Char) : Bool := c.isAlphanum || c == '_'

/-- A literal followed by `(\w*)`: the group. -/
def litWord (p c : Name) : Option Name :=
  match after p c with
  | some r => if r.all isWord then some r else none
  | none => none

/-- A literal followed by `(\d+)`: the number. -/
def litNum (p c : Name) : Option Nat :=
  match after p c with
  | some r => parseInt r
  | none => none

/-- `(encoder|decoder|transformer)`. -/
def isTower (t : Name) : Bool := t == s "encoder" || t == s "decoder" || t == s "transformer"

/-- `TOWER_MAP.get(encdec, encdec)`, lines 263, 305. -/
def towerMap (t : Name) : Name := if t = s "transformer" then s "decoder" else t

/-- `SLOT_MAP`, line 262. -/
def slotMap (x : Name) : Option Name :=
  if x = s "_slot_vc" then some (s "v_col")
  else if x = s "_slot_vr" then some (s "v_row")
  else if x = s "_slot_v" then some (s "v")
  else none

/-- `f'{prefix}/{mid}{suffix}'` as in every rule: a parameter, or one of its optimizer slots. -/
def place (slot : Name) (mid : Key) : Except Err Key :=
  if slot = [] then .ok (s "target" :: mid)
  else
    match slotMap slot with
    | none => .error .keyError
    | some x => .ok (s "state" :: s "param_states" :: (mid ++ [x]))

/-- A rule that keeps the value. -/
def keepVal (k : Except Err Key) (v : V) : Except Err (Option Key × V) :=
  match k with
  | .error e => .error e
  | .ok k => .ok (some k, v)

/-- `global_step`, lines 266-272; `conv` is `val.astype(np.int32).get()`. -/
def rGlobalStep (conv : V → V) : Rule V
  | [a] => if a = s "global_step" then some fun v => .ok (some [s "state", s "step"], conv v) else none
  | _ => none

/-- `shared_embeddings`, lines 275-281. -/
def rShared : Rule V
  | [a, b] =>
    if a = s "shared" then
      match litWord (s "embedding") b with
      | some slot => some (keepVal (place slot [s "token_embedder", s "embedding"]))
      | none => none
    else none
  | _ => none

/-- `separate_embeddings`, lines 284-291. -/
def rSeparate : Rule V
  | [a, b] =>
    if isTower a then
      match litWord (s "embedding") b with
      | some slot => some (keepVal (place slot [towerMap a, s "token_embedder", s "embedding"]))
      | none => none
    else none
  | _ => none

/-- `layers_{n}`. -/
def layers (n : Nat) : Name := s "layers_" ++ dec n

/-- `rel_embeddings`, lines 296-312. -/
def rRel : Rule V
  | [a, b, c, d, e] =>
    if isTower a then
      match litNum (s "block_") b with
      | none => none
      | some n =>
        if c = s "layer_000" ∧ d = s "SelfAttention" then
          match litWord (s "relative_attention_bias") e with
          | some slot => some (keepVal (place slot [towerMap a, layers n, s "relpos_bias", s "rel_embedding"]))
          | none => none
        else none
    else none
  | _ => none

/-- `{'q': 'query', 'k': 'key', 'v': 'value', 'o': 'out'}`. -/
def qkvo (c : Char) : Option Name :=
  if c = 'q' then some (s "query") else if c = 'k' then some (s "key") else if c = 'v' then some (s "value")
  else if c = 'o' then some (s "out") else none

/-- `attention_layers`, lines 315-337. -/
def rAttn : Rule V
  | [a, b, c, d, e] =>
    if isTower a ∧ (litNum (s "layer_") c).isSome ∧ (d = s "SelfAttention" ∨ d = s "EncDecAttention") then
      match litNum (s "block_") b, e with
      | some n, q :: slot =>
        match qkvo q with
        | some m =>
          if slot.all isWord then
            let attn := if towerMap a = s "encoder" then s "attention"
              else if d = s "SelfAttention" then s "self_attention" else s "encoder_decoder_attention"
            some (keepVal (place slot [towerMap a, layers n, attn, m, s "kernel"]))
          else none
        | none => none
      | _, _ => none
    else none
  | _ => none

/-- `(wi|wo)(?:_(\d+))?`: the matched component, which is also what the rule writes. -/
def isIo (c : Name) : Bool :=
  c == s "wi" || c == s "wo" || (litNum (s "wi_") c).isSome || (litNum (s "wo_") c).isSome

/-- `mlpblock`, lines 340-352. -/
def rMlp : Rule V
  | [a, b, c, d, e, f] =>
    if isTower a ∧ (litNum (s "layer_") c).isSome ∧ d = s "DenseReluDense" ∧ isIo e then
      match litNum (s "block_") b, litWord (s "kernel") f with
      | some n, some slot => some (keepVal (place slot [towerMap a, layers n, s "mlp", e, s "kernel"]))
      | _, _ => none
    else none
  | _ => none

/-- The lists of layer norm names, lines 365-381. -/
def lnNames (a : Name) : List Name :=
  if a = s "transformer" then [s "pre_self_attention_layer_norm", s "pre_mlp_layer_norm"]
  else if a = s "encoder" then [s "pre_attention_layer_norm", s "pre_mlp_layer_norm"]
  else [s "pre_self_attention_layer_norm", s "pre_cross_attention_layer_norm", s "pre_mlp_layer_norm"]

/-- `layernorms`, lines 355-383: the slot is looked up before the layer norm list is indexed. -/
def rLn : Rule V
  | [a, b, c, d, e] =>
    if isTower a ∧ (d = s "layer_norm" ∨ d = s "rms_norm") then
      match litNum (s "block_") b, litNum (s "layer_") c, litWord (s "scale") e with
      | some n, some l, some slot =>
        some fun v =>
          match (lnNames a)[l]? with
          | none => if slot ≠ [] ∧ slotMap slot = none then .error .keyError else .error .indexError
          | some ln => keepVal (place slot [towerMap a, layers n, ln, s "scale"]) v
      | _, _, _ => none
    else none
  | _ => none

/-- `final_layernorms`, lines 386-401. -/
def rFinalLn : Rule V
  | [a, b, c] =>
    if isTower a ∧ (b = s "final_layer_norm" ∨ b = s "rms_norm") then
      match litWord (s "scale") c with
      | some slot =>
        some (keepVal (place slot [towerMap a, if a = s "encoder" then s "encoder_norm" else s "decoder_norm", s "scale"]))
      | none => none
    else none
  | _ => none

/-- `final_logits`, lines 404-410. -/
def rLogits : Rule V
  | [a, b, c] =>
    if (a = s "decoder" ∨ a = s "transformer") ∧ b = s "logits" then
      match litWord (s "kernel") c with
      | some slot => some (keepVal (place slot [s "decoder", s "logits_dense", s "kernel"]))
      | none => none
    else none
  | _ => none

/-- `t5_importer.rules`, in order of registration. -/
def t5Rules (conv : V → V) : List (Rule V) :=
  [rGlobalStep conv, rShared, rSeparate, rRel, rAttn, rMlp, rLn, rFinalLn, rLogits]

/-! ### After the translation -/

/-- `'state/param_states' + k[len('target'):]` for a key that starts with `'target'`. -/
def stateLeaf : Key → Option Key
  | [] => none
  | c :: rest =>
    match after (s "target") c with
    | none => none
    | some x => some (s "state" :: (s "param_states" ++ x) :: rest)

/-- The updates of one key in `_add_missing_param_states`, lines 417-424. -/
def missingFor (ph : V) (d : List (Key × V)) (up : List (Key × V)) (k : Key) : List (Key × V) :=
  match stateLeaf k with
  | none => up
  | some sl =>
    let up := PyDict.set up (sl ++ [s "m"]) ph
    if PyDict.has d (sl ++ [s "v"]) then
      PyDict.set (PyDict.set up (sl ++ [s "v_row"]) ph) (sl ++ [s "v_col"]) ph
    else if PyDict.has d (sl ++ [s "v_row"]) then PyDict.set up (sl ++ [s "v"]) ph
    else up

/-- `_add_missing_param_states`, lines 413-426; `ph` is `np.zeros((1,))`. -/
def addMissing (ph : V) (d : List (Key × V)) : List (Key × V) :=
  PyDict.update d ((PyDict.keys d).foldl (missingFor ph d) [])

/-- `layers_(\d+)/relpos_bias` found in a key: the layer.  Components that merely end in `layers_N` or begin with `relpos_bias`
are not considered. -/
def relLayer : Key → Option Nat
  | a :: b :: t =>
    match litNum (s "layers_") a with
    | some n => if b = s "relpos_bias" then some n else relLayer (b :: t)
    | none => relLayer (b :: t)
  | _ => none

/-- `re.sub(r'layers_\d+/relpos_bias', 'relpos_bias', k)`. -/
def dropLayer : Key → Key
  | a :: b :: t =>
    if (litNum (s "layers_") a).isSome ∧ b = s "relpos_bias" then b :: dropLayer t else a :: dropLayer (b :: t)
  | l => l

/-- `_maybe_correct_relpos_bias`, lines 429-449. -/
def correctRel (d : List (Key × V)) : List (Key × V) :=
  let mx := (PyDict.keys d).foldl (fun m k => match relLayer k with | some n => max m n | none => m) 0
  if mx = 0 then d.foldl (fun acc kv => PyDict.set acc (dropLayer kv.1) kv.2) [] else d

/-- `_update_state_dict`, lines 470-508, on flat dictionaries; `shapes` gives the shape of every variable of the state dict and
`shape` that of an imported array. -/
def updateStateDict (shape : V → List Nat) (shapes : List (Key × List Nat)) (strict : Bool) (d : List (Key × V)) :
    Except Err (List (Key × V)) :=
  let d := if strict then d else d.filter fun kv => PyDict.has shapes kv.1
  let rec check : List (Key × V) → Except Err Unit
    | [] => .ok ()
    | (k, v) :: rest =>
      match PyDict.get shapes k with
      | none => .error .keyError
      | some sh => if sh ≠ shape v then .error .shape else check rest
  match check d with
  | .error e => .error e
  | .ok _ => .ok d

/-- `restore_from_t5_checkpoint`, lines 511-551, without reading the file and without `x.get()` at the end. -/
def restoreT5 (rules : List (Rule V)) (ph : V) (shape : V → List Nat) (shapes : List (Key × List Nat)) (strict : Bool)
    (ckpt : List (Key × V)) : Except Err (List (Key × V)) :=
  match apply rules ckpt with
  | .error e => .error e
  | .ok d => updateStateDict shape shapes strict (correctRel (addMissing ph d))

end Verif.Importer
