import Verif.Model.DsCkpt
import Verif.Lemmas.CkptName
import Verif.Props.LocalChunk
import Mathlib.Data.Fintype.Prod
/-
C97: training continues with the batches it would have seen without the interruption.
-/
namespace Verif.DsCkpt
open Verif
open Verif.Ckpt (Name dec decPad pathJoin dsPrefix parseInt)
open Verif.LocalChunk (Layout getDataLayout)
open Verif.LocalChunk.Spec (Mesh Boxes HasRow hostChunker)

variable {σ B : Type}

/-! ### File names -/

theorem cut_inj (c : Char) : ∀ (a b r s : List Char), c ∉ a → c ∉ b → a ++ c :: r = b ++ c :: s → a = b ∧ r = s
  | [], [], r, s, _, _, h => ⟨rfl, (List.cons.inj h).2⟩
  | [], y :: b, r, s, _, hb, h => absurd (List.cons.inj h).1 (fun e => hb (by rw [e]; exact List.mem_cons_self))
  | x :: a, [], r, s, ha, _, h => absurd (List.cons.inj h).1 (fun e => ha (by rw [← e]; exact List.mem_cons_self))
  | x :: a, y :: b, r, s, ha, hb, h => by
    obtain ⟨h1, h2⟩ := List.cons.inj h
    obtain ⟨i1, i2⟩ := cut_inj c a b r s (fun e => ha (List.mem_cons_of_mem _ e)) (fun e => hb (List.mem_cons_of_mem _ e)) h2
    exact ⟨by rw [h1, i1], i2⟩

theorem pad_no (c : Char) (hc : ¬ c.isDigit = true) (w n : Nat) : c ∉ decPad w n :=
  fun h => hc (Ckpt.decPad_digits w n c h)

theorem dec_no (c : Char) (hc : ¬ c.isDigit = true) (n : Nat) : c ∉ dec n :=
  fun h => hc (Ckpt.dec_digits n c h)

theorem pad_inj (w m n : Nat) (h : decPad w m = decPad w n) : m = n := by
  have h1 := Ckpt.parseInt_decPad w m
  rw [h, Ckpt.parseInt_decPad w n] at h1
  exact (Option.some.inj h1).symm

theorem dec_inj (m n : Nat) (h : dec m = dec n) : m = n := by
  have h1 := Ckpt.parseInt_dec m
  rw [h, Ckpt.parseInt_dec n] at h1
  exact (Option.some.inj h1).symm

theorem dsName_inj (l l' : Layout) (h : dsName l = dsName l') : l.shardId = l'.shardId ∧ l.numShards = l'.numShards := by
  unfold dsName at h
  have h1 := (List.cons.inj (List.append_cancel_left h)).2
  rw [List.append_assoc, List.append_assoc] at h1
  obtain ⟨e1, e2⟩ := cut_inj '-' _ _ _ _ (pad_no _ (by decide) _ _) (pad_no _ (by decide) _ _) h1
  refine ⟨pad_inj 3 _ _ e1, pad_inj 3 _ _ ?_⟩
  exact List.append_cancel_left (as := "of-".toList) e2

theorem dsName_no_slash (l : Layout) : '/' ∉ dsName l := by
  unfold dsName
  intro h
  rcases List.mem_append.1 h with h | h
  · exact absurd h (by decide)
  · rcases List.mem_cons.1 h with h | h
    · exact absurd h (by decide)
    · rcases List.mem_append.1 h with h | h
      · rcases List.mem_append.1 h with h | h
        · exact pad_no _ (by decide) _ _ h
        · exact absurd h (by decide)
      · exact pad_no _ (by decide) _ _ h

theorem orbaxFile_multi (procs : Nat) (hp : 1 < procs) (h : Host σ) :
    orbaxFile procs h = ("process_".toList ++ dec h.proc ++ "-of-".toList ++ dec procs) ++ '/' :: dsName h.layout := by
  unfold orbaxFile pathJoin
  rw [if_pos hp, if_neg]
  rintro (e | e)
  · exact absurd (congrArg List.length e) (by simp)
  · rw [List.getLast?_append_of_ne_nil _ (Ckpt.dec_ne_nil procs)] at e
    exact dec_no '/' (by decide) procs (List.mem_of_getLast? e)

theorem orbaxDir_no_slash (i n : Nat) : '/' ∉ "process_".toList ++ dec i ++ "-of-".toList ++ dec n := by
  intro h
  rcases List.mem_append.1 h with h | h
  · rcases List.mem_append.1 h with h | h
    · rcases List.mem_append.1 h with h | h
      · exact absurd h (by decide)
      · exact dec_no _ (by decide) _ h
    · exact absurd h (by decide)
  · exact dec_no _ (by decide) _ h

/-- Files of clusters of different sizes, or of different processes or shards, have different names. -/
theorem orbaxFile_inj (n n' : Nat) (hn : 0 < n) (hn' : 0 < n') (h : Host σ) (h' : Host σ) (hb : h.proc < n) (hb' : h'.proc < n')
    (e : orbaxFile n h = orbaxFile n' h') :
    n = n' ∧ h.proc = h'.proc ∧ h.layout.shardId = h'.layout.shardId ∧ h.layout.numShards = h'.layout.numShards := by
  by_cases c : 1 < n <;> by_cases c' : 1 < n'
  · rw [orbaxFile_multi n c, orbaxFile_multi n' c'] at e
    obtain ⟨e1, e2⟩ := cut_inj '/' _ _ _ _ (orbaxDir_no_slash _ _) (orbaxDir_no_slash _ _) e
    have e3 : dec h.proc ++ '-' :: ("of-".toList ++ dec n) = dec h'.proc ++ '-' :: ("of-".toList ++ dec n') := by
      simp only [List.append_assoc] at e1
      exact List.append_cancel_left e1
    obtain ⟨e4, e5⟩ := cut_inj '-' _ _ _ _ (dec_no _ (by decide) _) (dec_no _ (by decide) _) e3
    exact ⟨dec_inj _ _ (List.append_cancel_left e5), dec_inj _ _ e4, dsName_inj _ _ e2⟩
  · exfalso
    rw [orbaxFile_multi n c] at e
    unfold orbaxFile at e
    rw [if_neg c'] at e
    exact dsName_no_slash h'.layout (by rw [← e]; simp)
  · exfalso
    rw [orbaxFile_multi n' c'] at e
    unfold orbaxFile at e
    rw [if_neg c] at e
    exact dsName_no_slash h.layout (by rw [e]; simp)
  · unfold orbaxFile at e
    rw [if_neg c, if_neg c'] at e
    exact ⟨by omega, by omega, dsName_inj _ _ e⟩

/-! ### Files after all processes have saved -/

theorem fold_get (name : Host σ → Name) (f : Name) (hosts : List (Host σ)) (fs : Files σ) (s : σ)
    (hall : ∀ h ∈ hosts, shouldWrite h = true → name h = f → h.it = some s)
    (hex : PyDict.get fs f = some s ∨ ∃ h ∈ hosts, shouldWrite h = true ∧ name h = f) :
    PyDict.get (hosts.foldl (fun fs h => if shouldWrite h then write fs (name h) h.it else fs) fs) f = some s := by
  induction hosts generalizing fs with
  | nil =>
    rcases hex with h | ⟨h, hh, _⟩
    · exact h
    · cases hh
  | cons x xs ih =>
    rw [List.foldl_cons]
    apply ih _ (fun h hh => hall h (List.mem_cons_of_mem _ hh))
    by_cases hw : shouldWrite x = true
    · rw [if_pos hw]
      by_cases hn : name x = f
      · left
        rw [hall x List.mem_cons_self hw hn, hn, write, PyDict.get_set_self]
      · rcases hex with h | ⟨h, hh, h1, h2⟩
        · left
          cases hi : x.it with
          | none => exact h
          | some v => rw [write, PyDict.get_set, if_neg hn]; exact h
        · rcases List.mem_cons.1 hh with rfl | hh
          · exact absurd h2 hn
          · exact Or.inr ⟨h, hh, h1, h2⟩
    · rw [if_neg hw]
      rcases hex with h | ⟨h, hh, h1, h2⟩
      · exact Or.inl h
      · rcases List.mem_cons.1 hh with rfl | hh
        · exact absurd h1 hw
        · exact Or.inr ⟨h, hh, h1, h2⟩

theorem fold_none (name : Host σ → Name) (f : Name) (hosts : List (Host σ)) (fs : Files σ)
    (hall : ∀ h ∈ hosts, shouldWrite h = true → name h ≠ f) (h0 : PyDict.get fs f = none) :
    PyDict.get (hosts.foldl (fun fs h => if shouldWrite h then write fs (name h) h.it else fs) fs) f = none := by
  induction hosts generalizing fs with
  | nil => exact h0
  | cons x xs ih =>
    rw [List.foldl_cons]
    apply ih _ (fun h hh => hall h (List.mem_cons_of_mem _ hh))
    by_cases hw : shouldWrite x = true
    · rw [if_pos hw]
      cases hi : x.it with
      | none => exact h0
      | some v => rw [write, PyDict.get_set, if_neg (hall x List.mem_cons_self hw)]; exact h0
    · rw [if_neg hw]; exact h0

/-- What `C42_layout` says about the layouts of all processes. -/
theorem layouts {α H : Type} [DecidableEq α] {m : Mesh α H} {l : α → Nat} {first : H → α → Nat} (hb : Boxes m l first)
    {axes : List α} (hne : axes ≠ []) (hn : axes.Nodup) (hsub : ∀ a ∈ axes, a ∈ m.names) (proc : H → Nat) (batch : Option Nat)
    (hdiv : ∀ b, batch = some b → (axes.map m.shape).prod ∣ b) (lay : H → Layout)
    (hlay : ∀ h, getDataLayout (hostChunker m l first h) m.shape (proc h) (some axes) batch none = .ok (lay h)) (h0 : H) :
    (∀ h, (lay h).numShards = (lay h0).numShards ∧ (lay h).shardId < (lay h0).numShards) ∧
    (∀ s, s < (lay h0).numShards → ∃ h, (lay h).shardId = s ∧ (lay h).isFirstHost = true) ∧
    (∀ h h', (lay h).shardId = (lay h').shardId → (lay h).isFirstHost = true → (lay h').isFirstHost = true → h = h') ∧
    (∀ h h', (lay h).shardId = (lay h').shardId → ∀ b r, (lay h0).batchSize = some b → (HasRow m axes b h r ↔ HasRow m axes b h' r)) := by
  obtain ⟨b, n, sid, fst, g1, -, -, -, -, g2, -, g3, g4, -⟩ := LocalChunk.C42_layout hb hne hn hsub proc batch hdiv ⟨h0⟩
  have e : ∀ h, lay h = ⟨some b, sid h, n, fst h⟩ := by
    intro h
    have := (hlay h).symm.trans (g1 h)
    exact Except.ok.inj this
  refine ⟨fun h => ?_, fun s hs => ?_, fun h h' e1 e2 e3 => ?_, fun h h' e1 b' r e2 => ?_⟩
  · rw [e h, e h0]; exact ⟨rfl, g2 h⟩
  · rw [e h0] at hs
    obtain ⟨h, ⟨a1, a2⟩, -⟩ := g3 s hs
    exact ⟨h, by rw [e h]; exact a1, by rw [e h]; exact a2⟩
  · rw [e h, e h'] at e1
    rw [e h] at e2
    rw [e h'] at e3
    obtain ⟨k, -, hk⟩ := g3 (sid h) (g2 h)
    exact (hk h ⟨rfl, e2⟩).trans (hk h' ⟨e1.symm, e3⟩).symm
  · rw [e h0] at e2
    rw [e h, e h'] at e1
    obtain rfl := Option.some.inj e2
    exact g4 h h' e1 r

theorem batchAt_steps (p : Pipe σ B) (k j : Nat) (h : Host σ) (s : σ) (hs : h.it = some s) (r : Host σ)
    (hr : r.it = some (p.next^[k] s)) : batchAt p j r = batchAt p (k + j) h := by
  unfold batchAt
  rw [hs, hr, Option.map_some, Option.map_some, Nat.add_comm, Function.iterate_add_apply]

section
variable {α H H' : Type} [DecidableEq α]

/-- **C97**.  A cluster `H` (any mesh, data axes, batch size and order of processes) has trained for `k` steps from seed `seed` and
saves with `Checkpointer`.  A cluster `H'`, the same one or another one with as many data shards, is started with any seed and
restores.  Then on every process, not only those that saved, restoring succeeds, and from then on step `j` gets the batch that
step `k + j` would have got without interruption. -/
theorem C97_resume (p : Pipe σ B) (k seed seed' : Nat)
    {m : Mesh α H} {l : α → Nat} {first : H → α → Nat} (hb : Boxes m l first) {axes : List α} (hne : axes ≠ []) (hn : axes.Nodup)
    (hsub : ∀ a ∈ axes, a ∈ m.names) (proc : H → Nat) (batch : Option Nat)
    (hdiv : ∀ b, batch = some b → (axes.map m.shape).prod ∣ b) (lay : H → Layout)
    (hlay : ∀ h, getDataLayout (hostChunker m l first h) m.shape (proc h) (some axes) batch none = .ok (lay h))
    {m' : Mesh α H'} {l' : α → Nat} {first' : H' → α → Nat} (hb' : Boxes m' l' first') {axes' : List α} (hne' : axes' ≠ [])
    (hn' : axes'.Nodup) (hsub' : ∀ a ∈ axes', a ∈ m'.names) (proc' : H' → Nat) (batch' : Option Nat)
    (hdiv' : ∀ b, batch' = some b → (axes'.map m'.shape).prod ∣ b) (lay' : H' → Layout)
    (hlay' : ∀ h, getDataLayout (hostChunker m' l' first' h) m'.shape (proc' h) (some axes') batch' none = .ok (lay' h))
    (hosts : List H) (hall : ∀ h, h ∈ hosts) (hshards : ∀ h h', (lay h).numShards = (lay' h').numShards) (hH : Nonempty H) (h' : H') :
    ∃ r, restore (save (hosts.map fun h => steps p k (start p seed (proc h) (lay h)))) (start p seed' (proc' h') (lay' h')) = some r ∧
      ∀ j, batchAt p j r = batchAt p (k + j) (start p seed (proc' h') (lay' h')) := by
  obtain ⟨h0⟩ := hH
  obtain ⟨a1, a2, -, -⟩ := layouts hb hne hn hsub proc batch hdiv lay hlay h0
  obtain ⟨b1, -, -, -⟩ := layouts hb' hne' hn' hsub' proc' batch' hdiv' lay' hlay' h'
  obtain ⟨h, hs, hf⟩ := a2 (lay' h').shardId (by rw [hshards h0 h']; exact (b1 h').2)
  have key : PyDict.get (save (hosts.map fun h => steps p k (start p seed (proc h) (lay h)))) (dsName (lay' h')) =
      some (p.next^[k] (p.init seed (lay' h').shardId (lay' h').numShards)) := by
    refine fold_get (fun h => dsName h.layout) _ _ _ _ ?_ (Or.inr ⟨_, List.mem_map.2 ⟨h, hall h, rfl⟩, ?_, ?_⟩)
    · intro x hx _ hxn
      obtain ⟨y, -, rfl⟩ := List.mem_map.1 hx
      obtain ⟨e1, e2⟩ := dsName_inj _ _ hxn
      show some (p.next^[k] (p.init seed (lay y).shardId (lay y).numShards)) = _
      have e1' : (lay y).shardId = (lay' h').shardId := e1
      have e2' : (lay y).numShards = (lay' h').numShards := e2
      rw [e1', e2']
    · show (true && (lay h).isFirstHost) = true
      rw [hf]; rfl
    · show dsName (lay h) = dsName (lay' h')
      unfold dsName
      rw [hs, hshards h h']
  refine ⟨{ start p seed' (proc' h') (lay' h') with it := some (p.next^[k] (p.init seed (lay' h').shardId (lay' h').numShards)) }, ?_, ?_⟩
  · unfold restore
    have : (start p seed' (proc' h') (lay' h')).it.isSome = true := rfl
    rw [if_pos this]
    have e : (start p seed' (proc' h') (lay' h')).layout = lay' h' := rfl
    rw [e, key]
    rfl
  · intro j
    exact batchAt_steps p k j _ _ rfl _ rfl

/-- **C97** (another number of shards).  If the new cluster splits the data into another number of shards, restoring fails on every
process; no process ever continues with the state of another shard. -/
theorem C97_other_shards (p : Pipe σ B) (seed' : Nat) (hosts : List (Host σ)) (proc' : Nat) (lay' : Layout)
    (hshards : ∀ h ∈ hosts, h.layout.numShards ≠ lay'.numShards) :
    restore (save hosts) (start p seed' proc' lay') = none := by
  have key : PyDict.get (save hosts) (dsName lay') = none := by
    refine fold_none (fun h => dsName h.layout) _ _ _ ?_ rfl
    intro h hh _ e
    exact hshards h hh (dsName_inj _ _ e).2
  unfold restore
  have : (start p seed' proc' lay').it.isSome = true := rfl
  rw [if_pos this]
  have e : (start p seed' proc' lay').layout = lay' := rfl
  rw [e, key]
  rfl

/-- **C97** (Orbax, same cluster).  With the Orbax manager, the same cluster continues correctly on the processes that are first in
their replica set.  **The others start over**: step `j` after the restart gets the `j`-th batch of a new run. -/
theorem C97_orbax (p : Pipe σ B) (k seed seed' procs : Nat)
    {m : Mesh α H} {l : α → Nat} {first : H → α → Nat} (hb : Boxes m l first) {axes : List α} (hne : axes ≠ []) (hn : axes.Nodup)
    (hsub : ∀ a ∈ axes, a ∈ m.names) (proc : H → Nat) (hproc : ∀ h, proc h < procs) (batch : Option Nat)
    (hdiv : ∀ b, batch = some b → (axes.map m.shape).prod ∣ b) (lay : H → Layout)
    (hlay : ∀ h, getDataLayout (hostChunker m l first h) m.shape (proc h) (some axes) batch none = .ok (lay h))
    (hosts : List H) (hall : ∀ h, h ∈ hosts) (h : H) :
    ∃ r, orbaxRestore procs (orbaxSave procs (hosts.map fun h => steps p k (start p seed (proc h) (lay h))))
        (start p seed' (proc h) (lay h)) = some r ∧
      ((lay h).isFirstHost = true → ∀ j, batchAt p j r = batchAt p (k + j) (start p seed (proc h) (lay h))) ∧
      ((lay h).isFirstHost = false → ∀ j, batchAt p j r = batchAt p j (start p seed' (proc h) (lay h))) := by
  have hpos : 0 < procs := Nat.lt_of_le_of_lt (Nat.zero_le _) (hproc h)
  cases hf : (lay h).isFirstHost with
  | false =>
    refine ⟨start p seed' (proc h) (lay h), ?_, fun c => (by cases c), fun _ j => rfl⟩
    unfold orbaxRestore shouldWrite
    have e : (start p seed' (proc h) (lay h)).layout = lay h := rfl
    rw [e, hf, Bool.and_false]
    rfl
  | true =>
    have key : PyDict.get (orbaxSave procs (hosts.map fun h => steps p k (start p seed (proc h) (lay h))))
        (orbaxFile procs (start p seed' (proc h) (lay h))) = some (p.next^[k] (p.init seed (lay h).shardId (lay h).numShards)) := by
      refine fold_get (fun h => orbaxFile procs h) _ _ _ _ ?_ (Or.inr ⟨_, List.mem_map.2 ⟨h, hall h, rfl⟩, ?_, ?_⟩)
      · intro x hx _ hxn
        obtain ⟨y, -, rfl⟩ := List.mem_map.1 hx
        obtain ⟨-, -, e1, e2⟩ := orbaxFile_inj procs procs hpos hpos _ _ (hproc y) (hproc h) hxn
        show some (p.next^[k] (p.init seed (lay y).shardId (lay y).numShards)) = _
        have e1' : (lay y).shardId = (lay h).shardId := e1
        have e2' : (lay y).numShards = (lay h).numShards := e2
        rw [e1', e2']
      · show (true && (lay h).isFirstHost) = true
        rw [hf]; rfl
      · rfl
    refine ⟨{ start p seed' (proc h) (lay h) with it := some (p.next^[k] (p.init seed (lay h).shardId (lay h).numShards)) }, ?_, ?_,
      fun c => (by cases c)⟩
    · unfold orbaxRestore
      have : shouldWrite (start p seed' (proc h) (lay h)) = true := by
        show (true && (lay h).isFirstHost) = true
        rw [hf]; rfl
      rw [if_pos this, key]
      rfl
    · intro _ j
      exact batchAt_steps p k j _ _ rfl _ rfl

/-- **C97** (Orbax, the finding).  Two processes of the same replica set hold the same rows of every global batch.  After a restart
from a checkpoint of the Orbax manager one of them continues and the other starts over: whenever batch `k + j` of the interrupted run
differs from batch `j` of a new run, they fill the same rows of the global batch with different examples. -/
theorem C97_orbax_diverges (p : Pipe σ B) (k seed seed' procs : Nat)
    {m : Mesh α H} {l : α → Nat} {first : H → α → Nat} (hb : Boxes m l first) {axes : List α} (hne : axes ≠ []) (hn : axes.Nodup)
    (hsub : ∀ a ∈ axes, a ∈ m.names) (proc : H → Nat) (hproc : ∀ h, proc h < procs) (batch : Option Nat)
    (hdiv : ∀ b, batch = some b → (axes.map m.shape).prod ∣ b) (lay : H → Layout)
    (hlay : ∀ h, getDataLayout (hostChunker m l first h) m.shape (proc h) (some axes) batch none = .ok (lay h))
    (hosts : List H) (hall : ∀ h, h ∈ hosts) (h1 h2 : H) (hs : (lay h1).shardId = (lay h2).shardId) (hd : h1 ≠ h2)
    (hf : (lay h1).isFirstHost = true) (j : Nat)
    (hj : p.out (p.next^[k + j] (p.init seed (lay h1).shardId (lay h1).numShards)) ≠
      p.out (p.next^[j] (p.init seed' (lay h1).shardId (lay h1).numShards))) :
    (∀ b r, (lay h1).batchSize = some b → (HasRow m axes b h1 r ↔ HasRow m axes b h2 r)) ∧
    ∃ r1 r2, orbaxRestore procs (orbaxSave procs (hosts.map fun h => steps p k (start p seed (proc h) (lay h))))
        (start p seed' (proc h1) (lay h1)) = some r1 ∧
      orbaxRestore procs (orbaxSave procs (hosts.map fun h => steps p k (start p seed (proc h) (lay h))))
        (start p seed' (proc h2) (lay h2)) = some r2 ∧ batchAt p j r1 ≠ batchAt p j r2 := by
  obtain ⟨a1, a2, a3, a4⟩ := layouts hb hne hn hsub proc batch hdiv lay hlay h1
  have hf2 : (lay h2).isFirstHost = false := by
    cases e : (lay h2).isFirstHost with
    | false => rfl
    | true => exact absurd (a3 h1 h2 hs hf e) hd
  obtain ⟨r1, x1, x2, -⟩ := C97_orbax p k seed seed' procs hb hne hn hsub proc hproc batch hdiv lay hlay hosts hall h1
  obtain ⟨r2, y1, -, y3⟩ := C97_orbax p k seed seed' procs hb hne hn hsub proc hproc batch hdiv lay hlay hosts hall h2
  refine ⟨fun b r hb' => a4 h1 h2 hs b r hb', r1, r2, x1, y1, ?_⟩
  rw [x2 hf j, y3 hf2 j]
  intro e
  apply hj
  have e' := Option.some.inj e
  rw [← hs, (a1 h2).1] at e'
  exact e'

/-- **C97** (Orbax, another cluster).  A process that restores its iterator and belongs to a cluster with another number of processes,
or has another process index for its shard, fails. -/
theorem C97_orbax_other (p : Pipe σ B) (seed' procs procs' : Nat) (hosts : List (Host σ)) (hproc : ∀ h ∈ hosts, h.proc < procs)
    (proc' : Nat) (hproc' : proc' < procs') (lay' : Layout) (hf : lay'.isFirstHost = true)
    (hd : procs ≠ procs' ∨ ∀ h ∈ hosts, h.layout.isFirstHost = true → h.layout.shardId = lay'.shardId → h.proc ≠ proc') :
    orbaxRestore procs' (orbaxSave procs hosts) (start p seed' proc' lay') = none := by
  have key : PyDict.get (orbaxSave procs hosts) (orbaxFile procs' (start p seed' proc' lay')) = none := by
    refine fold_none (fun h => orbaxFile procs h) _ _ _ ?_ rfl
    intro h hh hw e
    obtain ⟨e1, e2, e3, -⟩ := orbaxFile_inj procs procs' (Nat.lt_of_le_of_lt (Nat.zero_le _) (hproc h hh))
      (Nat.lt_of_le_of_lt (Nat.zero_le _) hproc') _ _ (hproc h hh) hproc' e
    rcases hd with hd | hd
    · exact hd e1
    · unfold shouldWrite at hw
      rw [Bool.and_eq_true] at hw
      exact hd h hh hw.2 e3 e2
  unfold orbaxRestore
  have : shouldWrite (start p seed' proc' lay') = true := by
    show (true && lay'.isFirstHost) = true
    rw [hf]; rfl
  rw [if_pos this, key]
  rfl

end

/-! ### Witnesses -/

/-- Batches count up from a number made of the shard and the seed. -/
def demo : Pipe Nat Nat := ⟨fun seed sid _ => 1000 * sid + 100 * seed, fun s => s, fun s => s + 1⟩

/-- The layouts of the four processes of `LocalChunk.exMesh` with the batch over axis 0. -/
def demoLayout (h : Fin 2 × Fin 2) : Layout := ⟨some 16, h.1.val, 2, h.2.val == 0⟩

def demoProc (h : Fin 2 × Fin 2) : Nat := 2 * h.1.val + h.2.val

def demoHosts : List (Fin 2 × Fin 2) := [(1, 1), (0, 0), (1, 0), (0, 1)]

/-- The hypotheses of the theorems about clusters are met by four processes with two shards, two processes each. -/
example : Boxes LocalChunk.exMesh LocalChunk.exLocal LocalChunk.exFirst ∧
    (∀ h : Fin 2 × Fin 2, getDataLayout (hostChunker LocalChunk.exMesh LocalChunk.exLocal LocalChunk.exFirst h) LocalChunk.exMesh.shape
      (demoProc h) (some [0]) (some 16) none = .ok (demoLayout h)) ∧
    (∀ h : Fin 2 × Fin 2, h ∈ demoHosts) ∧ (∀ h : Fin 2 × Fin 2, demoProc h < 4) ∧
    (demoLayout (1, 0)).shardId = (demoLayout (1, 1)).shardId ∧ (demoLayout (1, 0)).isFirstHost = true := by
  exact ⟨LocalChunk.exBoxes, by decide, by decide, by decide, rfl, rfl⟩

example : (restore (save (demoHosts.map fun h => steps demo 7 (start demo 0 (demoProc h) (demoLayout h))))
      (start demo 5 3 (demoLayout (1, 1)))).map (batchAt demo 2) = some (some 1009) ∧
    (orbaxRestore 4 (orbaxSave 4 (demoHosts.map fun h => steps demo 7 (start demo 0 (demoProc h) (demoLayout h))))
      (start demo 5 2 (demoLayout (1, 0)))).map (batchAt demo 2) = some (some 1009) ∧
    (orbaxRestore 4 (orbaxSave 4 (demoHosts.map fun h => steps demo 7 (start demo 0 (demoProc h) (demoLayout h))))
      (start demo 5 3 (demoLayout (1, 1)))).map (batchAt demo 2) = some (some 1502) ∧
    dsName (demoLayout (1, 1)) = "train_ds-001-of-002".toList := by
  exact ⟨by decide +kernel, by decide +kernel, by decide +kernel, by decide +kernel⟩

end Verif.DsCkpt
