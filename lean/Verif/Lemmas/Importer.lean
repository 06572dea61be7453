import Verif.Spec.Importer
import Verif.Lemmas.CkptName
namespace Verif.Importer
open Verif Verif.Ckpt Spec

theorem after_append (p r : Name) : after p (p ++ r) = some r := by
  unfold after
  rw [if_pos (by simp)]
  simp

theorem litWord_slot (p : Name) (sl : Slot) : litWord p (p ++ sl.tf) = some sl.tf := by
  unfold litWord
  rw [after_append]
  cases sl <;> rfl

theorem litNum_dec (p : Name) (n : Nat) : litNum p (p ++ dec n) = some n := by
  unfold litNum
  rw [after_append]
  exact parseInt_dec n

theorem litNum_decPad (p : Name) (w n : Nat) : litNum p (p ++ decPad w n) = some n := by
  unfold litNum
  rw [after_append]
  exact parseInt_decPad w n

theorem slot_word (sl : Slot) : sl.tf.all isWord = true := by cases sl <;> rfl

theorem place_slot (sl : Slot) (p : Param) (mid : Key) (h : mid = p.path) : place sl.tf mid = .ok (Target.leaf sl p).path := by
  subst h
  cases sl <;> rfl

theorem isTower_name (t : Tower) : isTower t.name = true := by cases t <;> decide

theorem towerMap_name (t : Tower) : towerMap t.name = side t.enc := by cases t <;> decide

theorem isIo_name (out : Bool) (num : Option Nat) : isIo (ioName out num) = true := by
  unfold isIo ioName
  cases out <;> cases num with
  | none => decide
  | some n =>
    simp only [s, litNum_dec]
    simp

variable {V : Type}

theorem keepVal_slot (x : V) (sl : Slot) (p : Param) (mid : Key) (h : mid = p.path) :
    keepVal (place sl.tf mid) x = .ok (some (Target.leaf sl p).path, x) := by
  rw [place_slot sl p mid h]; rfl

/-- What the first matching T5 rule makes of a variable. -/
def out (conv : V → V) (k : Key) (x : V) : Option (Except Err (Option Key × V)) := (firstMatch (t5Rules conv) k).map fun f => f x

theorem names_step (conv : V → V) (x : V) (wb wl : Nat) : out conv (Var.name wb wl .step) x = some (.ok (some Target.step.path, conv x)) := rfl

theorem names_shared (conv : V → V) (x : V) (wb wl : Nat) (sl : Slot) :
    out conv (Var.name wb wl (.shared sl)) x = some (.ok (some (Target.leaf sl .shared).path, x)) := by
  have h := litWord_slot (s "embedding") sl
  simp only [out, Var.name, t5Rules, firstMatch, rGlobalStep, rShared]
  rw [if_pos (by decide), show "embedding".toList ++ sl.tf = s "embedding" ++ sl.tf from rfl, h]
  exact congrArg some (keepVal_slot x sl .shared _ rfl)

theorem names_emb (conv : V → V) (x : V) (wb wl : Nat) (t : Tower) (sl : Slot) :
    out conv (Var.name wb wl (.emb t sl)) x = some (.ok (some (Target.leaf sl (.emb t.enc)).path, x)) := by
  have h := litWord_slot (s "embedding") sl
  simp only [out, Var.name, t5Rules, firstMatch, rGlobalStep, rShared, rSeparate]
  rw [if_neg (by cases t <;> decide), if_pos (isTower_name t), show "embedding".toList ++ sl.tf = s "embedding" ++ sl.tf from rfl, h]
  simp only [Option.map_some, towerMap_name]
  exact congrArg some (keepVal_slot x sl (.emb t.enc) _ rfl)

theorem names_rel (conv : V → V) (x : V) (wb wl : Nat) (t : Tower) (b : Nat) (sl : Slot) :
    out conv (Var.name wb wl (.rel t b sl)) x = some (.ok (some (Target.leaf sl (.rel t.enc b)).path, x)) := by
  have h := litWord_slot (s "relative_attention_bias") sl
  have hb := litNum_decPad (s "block_") wb b
  simp only [out, Var.name, t5Rules, firstMatch, rGlobalStep, rShared, rSeparate, rRel]
  rw [if_pos (isTower_name t), show "block_".toList ++ decPad wb b = s "block_" ++ decPad wb b from rfl, hb]
  dsimp only
  rw [if_pos (by decide), show "relative_attention_bias".toList ++ sl.tf = s "relative_attention_bias" ++ sl.tf from rfl, h]
  simp only [Option.map_some, towerMap_name]
  exact congrArg some (keepVal_slot x sl (.rel t.enc b) _ rfl)

theorem rRel_attn (a b c d : Name) (m : Mat) (sl : Slot) : (rRel (V := V)) [a, b, c, d, m.tf ++ sl.tf] = none := by
  have h : litWord (s "relative_attention_bias") (m.tf ++ sl.tf) = none := by
    cases m <;> cases sl <;> decide
  simp only [rRel, h]
  cases isTower a <;> cases litNum (s "block_") b <;> simp

theorem rRel_ln (a b c d e : Name) (h : d ≠ s "SelfAttention") : (rRel (V := V)) [a, b, c, d, e] = none := by
  simp only [rRel, h, and_false, if_false]
  cases isTower a <;> cases litNum (s "block_") b <;> simp

theorem rAttn_ln (a b c d e : Name) (h : ¬ (d = s "SelfAttention" ∨ d = s "EncDecAttention")) : (rAttn (V := V)) [a, b, c, d, e] = none := by
  simp only [rAttn, h, and_false, if_false]

theorem names_attn (conv : V → V) (x : V) (wb wl : Nat) (t : Tower) (b l : Nat) (cross : Bool) (m : Mat) (sl : Slot) :
    out conv (Var.name wb wl (.attn t b l cross m sl)) x =
      some (.ok (some (Target.leaf sl (.attn t.enc b (if t.enc then .encoderSelf else if cross then .cross else .decoderSelf) m)).path, x)) := by
  have hb := litNum_decPad (s "block_") wb b
  have hl := litNum_decPad (s "layer_") wl l
  simp only [out, Var.name, t5Rules, firstMatch, rGlobalStep, rShared, rSeparate, rRel_attn]
  simp only [rAttn]
  rw [if_pos ⟨isTower_name t, by rw [show "layer_".toList ++ decPad wl l = s "layer_" ++ decPad wl l from rfl, hl]; rfl, by cases cross <;> decide⟩,
      show "block_".toList ++ decPad wb b = s "block_" ++ decPad wb b from rfl, hb]
  have hp := place_slot sl (.attn t.enc b (if t.enc then .encoderSelf else if cross then .cross else .decoderSelf) m) _ rfl
  have hattn : (if side t.enc = s "encoder" then s "attention"
              else if (if cross = true then "EncDecAttention".toList else "SelfAttention".toList) = s "SelfAttention" then s "self_attention"
              else s "encoder_decoder_attention") =
      Attn.name (if t.enc then .encoderSelf else if cross then .cross else .decoderSelf) := by
    cases t <;> cases cross <;> decide
  have hq : ∃ q, m.tf = [q] ∧ qkvo q = some m.name := by cases m <;> exact ⟨_, rfl, rfl⟩
  obtain ⟨q, hq1, hq2⟩ := hq
  rw [hq1]
  simp only [List.cons_append, List.nil_append, hq2]
  rw [if_pos (slot_word sl)]
  simp only [Option.map_some, keepVal, towerMap_name, hattn]
  rw [show [side t.enc, layers b, Attn.name (if t.enc then .encoderSelf else if cross then .cross else .decoderSelf), m.name, s "kernel"] =
    Param.path (.attn t.enc b (if t.enc then .encoderSelf else if cross then .cross else .decoderSelf) m) from rfl, hp]

theorem names_mlp (conv : V → V) (x : V) (wb wl : Nat) (t : Tower) (b l : Nat) (o : Bool) (num : Option Nat) (sl : Slot) :
    out conv (Var.name wb wl (.mlp t b l o num sl)) x = some (.ok (some (Target.leaf sl (.mlp t.enc b o num)).path, x)) := by
  have hb := litNum_decPad (s "block_") wb b
  have hl := litNum_decPad (s "layer_") wl l
  have h := litWord_slot (s "kernel") sl
  simp only [out, Var.name, t5Rules, firstMatch, rGlobalStep, rShared, rSeparate, rRel, rAttn, rMlp]
  rw [if_pos ⟨isTower_name t, by rw [show "layer_".toList ++ decPad wl l = s "layer_" ++ decPad wl l from rfl, hl]; rfl, by decide, isIo_name o num⟩,
      show "block_".toList ++ decPad wb b = s "block_" ++ decPad wb b from rfl, hb, show "kernel".toList ++ sl.tf = s "kernel" ++ sl.tf from rfl, h]
  simp only [Option.map_some, towerMap_name]
  exact congrArg some (keepVal_slot x sl (.mlp t.enc b o num) _ rfl)

theorem ln_name (t : Tower) (l : Nat) : (lnNames t.name)[l]? = (normAt t l).map Norm.name := by
  have h : ∀ t : Tower, lnNames t.name = match t with
    | .transformer => [s "pre_self_attention_layer_norm", s "pre_mlp_layer_norm"]
    | .encoder => [s "pre_attention_layer_norm", s "pre_mlp_layer_norm"]
    | .decoder => [s "pre_self_attention_layer_norm", s "pre_cross_attention_layer_norm", s "pre_mlp_layer_norm"] := by
    intro t; cases t <;> decide
  rw [h]
  cases t
  · match l with
    | 0 => rfl
    | 1 => rfl
    | n + 2 => rfl
  · match l with
    | 0 => rfl
    | 1 => rfl
    | 2 => rfl
    | n + 3 => rfl
  · match l with
    | 0 => rfl
    | 1 => rfl
    | n + 2 => rfl

theorem names_ln (conv : V → V) (x : V) (wb wl : Nat) (t : Tower) (b l : Nat) (rms : Bool) (sl : Slot) :
    out conv (Var.name wb wl (.ln t b l rms sl)) x = some (match normAt t l with
      | none => .error .indexError
      | some n => .ok (some (Target.leaf sl (.ln t.enc b n)).path, x)) := by
  have hb := litNum_decPad (s "block_") wb b
  have hl := litNum_decPad (s "layer_") wl l
  have h := litWord_slot (s "scale") sl
  simp only [out, Var.name, t5Rules, firstMatch, rGlobalStep, rShared, rSeparate]
  rw [rRel_ln _ _ _ _ _ (by cases rms <;> decide), rAttn_ln _ _ _ _ _ (by cases rms <;> decide)]
  simp only [rMlp, rLn]
  rw [if_pos ⟨isTower_name t, by cases rms <;> decide⟩,
      show "block_".toList ++ decPad wb b = s "block_" ++ decPad wb b from rfl, hb, show "layer_".toList ++ decPad wl l = s "layer_" ++ decPad wl l from rfl, hl,
      show "scale".toList ++ sl.tf = s "scale" ++ sl.tf from rfl, h]
  simp only [Option.map_some, ln_name]
  cases hn : normAt t l with
  | none =>
    simp only [Option.map_none]
    rw [if_neg (by cases sl <;> decide)]
  | some n =>
    simp only [Option.map_some, keepVal, towerMap_name]
    rw [show [side t.enc, layers b, n.name, s "scale"] = Param.path (.ln t.enc b n) from rfl, place_slot sl _ _ rfl]

theorem names_finalLn (conv : V → V) (x : V) (wb wl : Nat) (t : Tower) (rms : Bool) (sl : Slot) :
    out conv (Var.name wb wl (.finalLn t rms sl)) x = some (.ok (some (Target.leaf sl (.finalLn t.enc)).path, x)) := by
  have h := litWord_slot (s "scale") sl
  simp only [out, Var.name, t5Rules, firstMatch, rGlobalStep, rShared, rSeparate, rRel, rAttn, rMlp, rLn, rFinalLn]
  rw [if_pos ⟨isTower_name t, by cases rms <;> decide⟩, show "scale".toList ++ sl.tf = s "scale" ++ sl.tf from rfl, h]
  have : (if t.name = s "encoder" then s "encoder_norm" else s "decoder_norm") =
      if t.enc then "encoder_norm".toList else "decoder_norm".toList := by cases t <;> decide
  simp only [Option.map_some, towerMap_name, this]
  exact congrArg some (keepVal_slot x sl (.finalLn t.enc) _ rfl)

theorem names_logits (conv : V → V) (x : V) (wb wl : Nat) (d : Bool) (sl : Slot) :
    out conv (Var.name wb wl (.logits d sl)) x = some (.ok (some (Target.leaf sl .logits).path, x)) := by
  have h := litWord_slot (s "kernel") sl
  simp only [out, Var.name, t5Rules, firstMatch, rGlobalStep, rShared, rSeparate, rRel, rAttn, rMlp, rLn, rFinalLn, rLogits]
  rw [if_neg (by cases d <;> decide)]
  dsimp only
  rw [if_pos (by cases d <;> decide), show "kernel".toList ++ sl.tf = s "kernel" ++ sl.tf from rfl, h]
  exact congrArg some (keepVal_slot x sl .logits _ rfl)

/-! ### Spellings are distinct -/

theorem dec_inj {a b : Nat} (h : dec a = dec b) : a = b := by
  rw [← ofDigitChars_dec a, h, ofDigitChars_dec]

theorem side_inj {a b : Bool} (h : side a = side b) : a = b := by
  cases a <;> cases b <;> first | rfl | exact absurd h (by decide)

theorem attn_inj {a b : Attn} (h : a.name = b.name) : a = b := by
  cases a <;> cases b <;> first | rfl | exact absurd h (by decide)

theorem norm_inj {a b : Norm} (h : a.name = b.name) : a = b := by
  cases a <;> cases b <;> first | rfl | exact absurd h (by decide)

theorem mat_inj {a b : Mat} (h : a.name = b.name) : a = b := by
  cases a <;> cases b <;> first | rfl | exact absurd h (by decide)

theorem io_inj {a b : Bool} {m n : Option Nat} (h : ioName a m = ioName b n) : a = b ∧ m = n := by
  have key : ∀ (p q : Name) (x y : Nat), p.length = q.length → p ++ dec x = q ++ dec y → p = q ∧ x = y := by
    intro p q x y hl he
    obtain ⟨h1, h2⟩ := List.append_inj he hl
    exact ⟨h1, dec_inj h2⟩
  have long : ∀ (p : Name) (x : Nat), 3 ≤ p.length → 2 < (p ++ dec x).length := by
    intro p x hp; rw [List.length_append]; omega
  cases a <;> cases b <;> cases m <;> cases n <;> simp only [ioName] at h
  all_goals first
    | exact ⟨rfl, rfl⟩
    | exact absurd h (by decide)
    | (have h2 := congrArg List.length h; simp at h2; done)
    | (obtain ⟨h1, h2⟩ := key _ _ _ _ (by rfl) h
       first
         | exact absurd h1 (by decide)
         | exact ⟨rfl, by rw [h2]⟩)

theorem layers_inj {a b : Nat} (h : layers a = layers b) : a = b := dec_inj (List.append_cancel_left h)

def plen : Param → Nat
  | .shared => 2
  | .emb _ => 3
  | .rel _ _ => 4
  | .attn _ _ _ _ => 5
  | .mlp _ _ _ _ => 5
  | .ln _ _ _ => 4
  | .finalLn _ => 3
  | .logits => 3

theorem path_length (p : Param) : p.path.length = plen p := by cases p <;> rfl

theorem path_inj {p q : Param} (h : p.path = q.path) : p = q := by
  have hl : ∀ {a b : Nat}, "layers_".toList ++ dec a = "layers_".toList ++ dec b → a = b := fun h => layers_inj h
  have len := congrArg List.length h
  rw [path_length, path_length] at len
  cases p with
  | shared => cases q <;> first | rfl | (simp [plen] at len; done)
  | emb e =>
    cases q with
    | emb e' =>
      simp only [Param.path, List.cons.injEq, and_true] at h
      rw [side_inj h]
    | finalLn e' =>
      simp only [Param.path, List.cons.injEq, and_true] at h
      exact absurd h.2.2 (by decide)
    | logits =>
      simp only [Param.path, List.cons.injEq, and_true] at h
      exact absurd h.2.2 (by decide)
    | _ => simp [plen] at len
  | rel e n =>
    cases q with
    | rel e' n' =>
      simp only [Param.path, List.cons.injEq, and_true] at h
      rw [side_inj h.1, hl h.2]
    | ln e' n' k =>
      simp only [Param.path, List.cons.injEq, and_true] at h
      exact absurd h.2.2.2 (by decide)
    | _ => simp [plen] at len
  | attn e n k m =>
    cases q with
    | attn e' n' k' m' =>
      simp only [Param.path, List.cons.injEq, and_true] at h
      rw [side_inj h.1, hl h.2.1, attn_inj h.2.2.1, mat_inj h.2.2.2]
    | mlp e' n' o num =>
      simp only [Param.path, List.cons.injEq, and_true] at h
      exact absurd h.2.2.1 (by cases k <;> decide)
    | _ => simp [plen] at len
  | mlp e n o num =>
    cases q with
    | mlp e' n' o' num' =>
      simp only [Param.path, List.cons.injEq, and_true, true_and] at h
      rw [side_inj h.1, hl h.2.1, (io_inj h.2.2).1, (io_inj h.2.2).2]
    | attn e' n' k m =>
      simp only [Param.path, List.cons.injEq, and_true] at h
      exact absurd h.2.2.1 (by cases k <;> decide)
    | _ => simp [plen] at len
  | ln e n k =>
    cases q with
    | ln e' n' k' =>
      simp only [Param.path, List.cons.injEq, and_true] at h
      rw [side_inj h.1, hl h.2.1, norm_inj h.2.2]
    | rel e' n' =>
      simp only [Param.path, List.cons.injEq, and_true] at h
      exact absurd h.2.2.2 (by decide)
    | _ => simp [plen] at len
  | finalLn e =>
    cases q with
    | finalLn e' =>
      simp only [Param.path, List.cons.injEq, and_true] at h
      rw [side_inj h.1]
    | emb e' =>
      simp only [Param.path, List.cons.injEq, and_true] at h
      exact absurd h.2.2 (by decide)
    | logits =>
      simp only [Param.path, List.cons.injEq, and_true] at h
      exact absurd h.2.2 (by decide)
    | _ => simp [plen] at len
  | logits =>
    cases q with
    | logits => rfl
    | emb e' =>
      simp only [Param.path, List.cons.injEq, and_true] at h
      exact absurd h.2.2 (by decide)
    | finalLn e' =>
      simp only [Param.path, List.cons.injEq, and_true] at h
      exact absurd h.2.2 (by decide)
    | _ => simp [plen] at len

/-- The flat key of a parameter (`none`) or of a named optimizer slot of it. -/
def leafKey (o : Option Name) (p : Key) : Key :=
  match o with
  | none => s "target" :: p
  | some n => s "state" :: s "param_states" :: (p ++ [n])

theorem leafKey_inj {o o' : Option Name} {p p' : Key} (h : leafKey o p = leafKey o' p') : o = o' ∧ p = p' := by
  cases o <;> cases o' <;> simp only [leafKey, List.cons.injEq, true_and] at h
  · exact ⟨rfl, h⟩
  · exact absurd h.1 (by decide)
  · exact absurd h.1 (by decide)
  · obtain ⟨h1, h2⟩ := List.append_inj' h rfl
    simp only [List.cons.injEq, and_true] at h2
    rw [h1, h2]; exact ⟨rfl, rfl⟩

def slotName : Slot → Option Name
  | .param => none
  | .vCol => some (s "v_col")
  | .vRow => some (s "v_row")
  | .v => some (s "v")

theorem slotName_inj {a b : Slot} (h : slotName a = slotName b) : a = b := by
  cases a <;> cases b <;> first | rfl | exact absurd h (by decide)

theorem leaf_path (sl : Slot) (p : Param) : (Target.leaf sl p).path = leafKey (slotName sl) p.path := by
  cases sl <;> rfl

theorem step_ne_leaf (o : Option Name) (p : Param) : Target.step.path ≠ leafKey o p.path := by
  intro h
  cases o with
  | none =>
    simp only [leafKey, Target.path, List.cons.injEq] at h
    exact absurd h.1 (by decide)
  | some n =>
    have := congrArg List.length h
    simp only [leafKey, Target.path, List.length_cons, List.length_append, path_length, List.length_nil] at this
    omega

theorem target_inj {t u : Target} (h : t.path = u.path) : t = u := by
  cases t with
  | step =>
    cases u with
    | step => rfl
    | leaf sl p => rw [leaf_path] at h; exact absurd h (step_ne_leaf _ _)
  | leaf sl p =>
    cases u with
    | step => rw [leaf_path] at h; exact absurd h.symm (step_ne_leaf _ _)
    | leaf sl' p' =>
      rw [leaf_path, leaf_path] at h
      obtain ⟨h1, h2⟩ := leafKey_inj h
      rw [slotName_inj h1, path_inj h2]

end Verif.Importer
