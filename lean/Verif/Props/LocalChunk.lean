import Verif.Lemmas.LocalChunk
namespace Verif.LocalChunk
open Spec
variable {α H : Type} [DecidableEq α]

/-- Axes named by the entries. -/
def named (es : List (Entry α)) : List α := es.filterMap (fun e => match e with | .name a => some a | _ => none)

theorem mem_named {es : List (Entry α)} {a : α} : a ∈ named es ↔ Entry.name a ∈ es := by
  unfold named
  rw [List.mem_filterMap]
  constructor
  · rintro ⟨e, he, h⟩
    cases e with
    | none => cases h
    | tuple l => cases h
    | name b => cases h; exact he
  · intro h
    exact ⟨_, h, rfl⟩

theorem shardedAxes_eq {names : List α} {parts : α → Nat} : ∀ {es : List (Entry α)} {ns : List Nat},
    Shardable names parts es ns → shardedAxes es ns = named es
  | [], [], _ => rfl
  | [], _ :: _, _ => rfl
  | .none :: es, n :: ns, h => by
    simp only [shardedAxes]; rw [shardedAxes_eq h.2]; rfl
  | .tuple l :: es, n :: ns, h => by
    simp only [shardedAxes]; rw [shardedAxes_eq h.2]; rfl
  | .name a :: es, n :: ns, h => by
    simp only [shardedAxes]; rw [shardedAxes_eq h.2]; rfl
  | _ :: _, [], h => by simp [Shardable] at h

theorem named_sub {names : List α} {parts : α → Nat} : ∀ {es : List (Entry α)} {ns : List Nat},
    Shardable names parts es ns → ∀ a ∈ named es, a ∈ names
  | [], _, _ => by intro a h; cases h
  | .none :: es, n :: ns, h => fun a ha => named_sub h.2 a (by simpa [named] using ha)
  | .tuple l :: es, n :: ns, h => fun a ha => named_sub h.2 a (by simpa [named] using ha)
  | .name b :: es, n :: ns, h => fun a ha => by
    rcases List.mem_cons.mp (show a ∈ b :: named es from ha) with rfl | h'
    · exact h.1.1
    · exact named_sub h.2 a h'
  | _ :: _, [], h => by simp [Shardable] at h

/-- The slices under good annotations. -/
def pureSlices (c : Chunker α) : List (Entry α) → List Nat → List (Option (Nat × Nat))
  | .name a :: es, n :: ns =>
    some (c.chunkIds a * (n / c.numChunks a), (c.chunkIds a + 1) * (n / c.numChunks a)) :: pureSlices c es ns
  | _ :: es, _ :: ns => none :: pureSlices c es ns
  | [], _ :: ns => none :: pureSlices c [] ns
  | _, [] => []

theorem slices_ok {c : Chunker α} {parts : α → Nat} : ∀ {es : List (Entry α)} {ns : List Nat},
    Shardable c.axes parts es ns → slices c es ns = .ok (pureSlices c es ns)
  | [], [], _ => rfl
  | [], n :: ns, h => by
    have := slices_ok (c := c) (parts := parts) (es := []) (ns := ns) h.2
    simp only [slices, Except.ok.injEq] at this
    simp only [slices, pureSlices, List.map_cons, this]
  | .none :: es, n :: ns, h => by
    have := slices_ok (c := c) h.2
    simp only [slices, slice1, this, pureSlices]
  | .tuple l :: es, n :: ns, h => by
    have := slices_ok (c := c) h.2
    rw [h.1.1]
    simp only [slices, slice1, this, pureSlices]
  | .name a :: es, n :: ns, h => by
    have := slices_ok (c := c) h.2
    simp only [slices, slice1, if_pos h.1.1, this, pureSlices]
  | _ :: _, [], h => by simp [Shardable] at h

theorem mem_chunk {i n k c : Nat} (hn : 0 < n) (hd : k ∣ n) :
    (c * (n / k) ≤ i ∧ i < (c + 1) * (n / k)) ↔ i / (n / k) = c := by
  have hk : 0 < k := Nat.pos_of_dvd_of_pos hd hn
  have : 0 < n / k := Nat.div_pos (Nat.le_of_dvd hn hd) hk
  rw [Nat.div_eq_iff this]
  have e : (c + 1) * (n / k) = c * (n / k) + n / k := by ring
  rw [e]
  generalize c * (n / k) = x
  omega

theorem inSlices_iff {c : Chunker α} : ∀ {es : List (Entry α)} {ns is : List Nat},
    Shardable c.axes c.numChunks es ns →
    (InSlices (pureSlices c es ns) ns is ↔ BlockAt c.numChunks c.chunkIds es ns is)
  | [], [], [], _ => by simp [pureSlices, InSlices, BlockAt]
  | [], [], _ :: _, _ => by simp [pureSlices, InSlices, BlockAt]
  | _, _ :: _, [], h => by
    rename_i es n ns
    cases es with
    | nil => simp [pureSlices, InSlices, BlockAt]
    | cons e es => cases e <;> simp [pureSlices, InSlices, BlockAt]
  | [], n :: ns, i :: is, h => by
    simp only [pureSlices, InSlices, BlockAt, inSlices_iff h.2]
  | .none :: es, n :: ns, i :: is, h => by
    simp only [pureSlices, InSlices, BlockAt, inSlices_iff h.2]
  | .tuple l :: es, n :: ns, i :: is, h => by
    simp only [pureSlices, InSlices, BlockAt, inSlices_iff h.2]
  | .name a :: es, n :: ns, i :: is, h => by
    simp only [pureSlices, InSlices, BlockAt, inSlices_iff h.2, mem_chunk h.1.2.1 h.1.2.2.1]
  | _ :: _, [], _, h => by simp [Shardable] at h

theorem blockAt_congr {parts p p' : α → Nat} : ∀ {es : List (Entry α)} {ns is : List Nat},
    (∀ a ∈ named es, p a = p' a) → BlockAt parts p es ns is → BlockAt parts p' es ns is
  | [], [], [], _, h => h
  | [], n :: ns, i :: is, hp, h => ⟨h.1, blockAt_congr hp h.2⟩
  | .none :: es, n :: ns, i :: is, hp, h => ⟨h.1, blockAt_congr hp h.2⟩
  | .tuple l :: es, n :: ns, i :: is, hp, h => ⟨h.1, blockAt_congr hp h.2⟩
  | .name a :: es, n :: ns, i :: is, hp, h =>
    ⟨⟨h.1.1, by rw [h.1.2]; exact hp a (List.mem_cons_self)⟩,
      blockAt_congr (fun b hb => hp b (List.mem_cons_of_mem _ hb)) h.2⟩
  | _ :: _, [], [], _, h => by simp [BlockAt]
  | [], [], _ :: _, _, h => by simp [BlockAt] at h
  | [], _ :: _, [], _, h => by simp [BlockAt] at h
  | e :: _, [], _ :: _, _, h => by cases e <;> simp [BlockAt] at h
  | e :: _, _ :: _, [], _, h => by cases e <;> simp [BlockAt] at h

/-- Different positions hold the same index only if they agree on the named axes. -/
theorem blockAt_det {parts p p' : α → Nat} : ∀ {es : List (Entry α)} {ns is : List Nat}, es.length ≤ ns.length →
    BlockAt parts p es ns is → BlockAt parts p' es ns is → ∀ a ∈ named es, p a = p' a
  | [], _, _, _, _, _ => by intro a h; cases h
  | .none :: es, n :: ns, i :: is, hl, h, h' => fun a ha =>
    blockAt_det (by simpa using hl) h.2 h'.2 a (by simpa [named] using ha)
  | .tuple l :: es, n :: ns, i :: is, hl, h, h' => fun a ha =>
    blockAt_det (by simpa using hl) h.2 h'.2 a (by simpa [named] using ha)
  | .name b :: es, n :: ns, i :: is, hl, h, h' => fun a ha => by
    rcases List.mem_cons.mp (show a ∈ b :: named es from ha) with rfl | ha
    · rw [← h.1.2, ← h'.1.2]
    · exact blockAt_det (by simpa using hl) h.2 h'.2 a ha
  | _ :: _, [], _, hl, _, _ => by simp at hl
  | e :: _, _ :: _, [], _, h, _ => by cases e <;> simp [BlockAt] at h

/-- Every index of the array is in the block of some position. -/
theorem blockAt_exists {names : List α} {parts : α → Nat} (hparts : ∀ a ∈ names, 0 < parts a) :
    ∀ {es : List (Entry α)} {ns is : List Nat},
    Shardable names parts es ns → InShape ns is → ∃ p, (∀ a ∈ names, p a < parts a) ∧ BlockAt parts p es ns is
  | [], [], _, _, .nil => ⟨fun _ => 0, hparts, trivial⟩
  | [], n :: ns, _, h, .cons hi hr => by
    obtain ⟨p, h1, h2⟩ := blockAt_exists hparts h.2 hr
    exact ⟨p, h1, hi, h2⟩
  | .none :: es, n :: ns, _, h, .cons hi hr => by
    obtain ⟨p, h1, h2⟩ := blockAt_exists hparts h.2 hr
    exact ⟨p, h1, hi, h2⟩
  | .tuple l :: es, n :: ns, _, h, .cons hi hr => by
    obtain ⟨p, h1, h2⟩ := blockAt_exists hparts h.2 hr
    exact ⟨p, h1, hi, h2⟩
  | .name a :: es, n :: ns, _, h, .cons (a := i) hi hr => by
    obtain ⟨p, h1, h2⟩ := blockAt_exists hparts h.2 hr
    refine ⟨Function.update p a (i / (n / parts a)), ?_, ⟨hi, by rw [Function.update_self]⟩, ?_⟩
    · intro b hb
      by_cases e : b = a
      · subst e
        rw [Function.update_self]
        refine Nat.div_lt_of_lt_mul ?_
        rw [Nat.div_mul_cancel h.1.2.2.1]
        exact hi
      · rw [Function.update_of_ne e]; exact h1 b hb
    · refine blockAt_congr ?_ h2
      intro b hb
      rw [Function.update_of_ne]
      rintro rfl
      exact h.1.2.2.2 (mem_named.mp hb)
  | _ :: _, [], _, h, _ => by simp [Shardable] at h

theorem shardable_length {names : List α} {parts : α → Nat} : ∀ {es : List (Entry α)} {ns : List Nat},
    Shardable names parts es ns → es.length ≤ ns.length
  | [], _, _ => Nat.zero_le _
  | .none :: es, n :: ns, h => by have := shardable_length h.2; simpa using this
  | .tuple l :: es, n :: ns, h => by have := shardable_length h.2; simpa using this
  | .name b :: es, n :: ns, h => by have := shardable_length h.2; simpa using this
  | _ :: _, [], h => by simp [Shardable] at h

theorem pureSlices_eq_iff {c c' : Chunker α} (hn : c.numChunks = c'.numChunks) : ∀ {es : List (Entry α)} {ns : List Nat},
    Shardable c.axes c.numChunks es ns →
    (pureSlices c es ns = pureSlices c' es ns ↔ ∀ a ∈ named es, c.chunkIds a = c'.chunkIds a)
  | [], [], _ => by simp [pureSlices, named]
  | [], n :: ns, h => by
    simp only [pureSlices, List.cons.injEq, true_and]
    exact pureSlices_eq_iff hn h.2
  | .none :: es, n :: ns, h => by
    simp only [pureSlices, List.cons.injEq, true_and]
    exact pureSlices_eq_iff hn h.2
  | .tuple l :: es, n :: ns, h => by
    simp only [pureSlices, List.cons.injEq, true_and]
    exact pureSlices_eq_iff hn h.2
  | .name a :: es, n :: ns, h => by
    have hk : 0 < c.numChunks a := Nat.pos_of_dvd_of_pos h.1.2.2.1 h.1.2.1
    have hp : 0 < n / c.numChunks a := Nat.div_pos (Nat.le_of_dvd h.1.2.1 h.1.2.2.1) hk
    simp only [pureSlices, List.cons.injEq, Option.some.injEq, Prod.mk.injEq, pureSlices_eq_iff hn h.2, ← hn]
    constructor
    · rintro ⟨⟨e, _⟩, hr⟩ b hb
      rcases List.mem_cons.mp (show b ∈ a :: named es from hb) with rfl | hb
      · exact Nat.eq_of_mul_eq_mul_right hp e
      · exact hr b hb
    · intro hr
      have e := hr a List.mem_cons_self
      exact ⟨⟨by rw [e], by rw [e]⟩, fun b hb => hr b (List.mem_cons_of_mem _ hb)⟩
  | _ :: _, [], h => by simp [Shardable] at h

theorem info_ok {m : Mesh α H} {l : α → Nat} {first : H → α → Nat} {es : List (Entry α)} {ns : List Nat}
    (hs : Shardable m.names (fun a => m.shape a / l a) es ns) (h : H) :
    getLocalChunkInfo (hostChunker m l first h) ns es =
      .ok (pureSlices (hostChunker m l first h) es ns, getReplicaId (hostChunker m l first h) (named es)) := by
  unfold getLocalChunkInfo
  rw [slices_ok (c := hostChunker m l first h) hs, shardedAxes_eq hs]

theorem parts_pos {m : Mesh α H} {l : α → Nat} {first : H → α → Nat} (hb : Boxes m l first) (h : H) :
    ∀ a ∈ m.names, 0 < m.shape a / l a := fun a ha => by have := hb.chunk_lt h a ha; omega

theorem replica_eq (m : Mesh α H) (l : α → Nat) (first : H → α → Nat) (h : H) (used : List α) :
    getReplicaId (hostChunker m l first h) used =
      blockNumber (fun a => m.shape a / l a) (chunk l first h) (m.names.filter (· ∉ used)) := by
  unfold getReplicaId
  rw [code_eq]
  rfl

/-- One host for each value on the used axes has replica id 0. -/
theorem replica_zero {m : Mesh α H} {l : α → Nat} {first : H → α → Nat} (hb : Boxes m l first) (used : List α) (h : H) :
    ∃! h', (∀ a ∈ m.names, a ∈ used → chunk l first h a = chunk l first h' a) ∧
      getReplicaId (hostChunker m l first h') used = 0 := by
  have hlt : ∀ h', ∀ a ∈ m.names.filter (· ∉ used), chunk l first h' a < m.shape a / l a :=
    fun h' a ha => hb.chunk_lt h' a (List.mem_filter.mp ha).1
  obtain ⟨h', e'⟩ := hb.chunk_surj h (fun a => if a ∈ used then chunk l first h a else 0) (by
    intro a ha
    have := hb.chunk_lt h a ha
    split_ifs <;> omega)
  refine ⟨h', ⟨fun a ha hu => by rw [e' a ha, if_pos hu], ?_⟩, ?_⟩
  · rw [replica_eq, blockNumber_zero _ _ _ (hlt h')]
    intro a ha
    obtain ⟨h1, h2⟩ := List.mem_filter.mp ha
    rw [e' a h1, if_neg (by simpa using h2)]
  · rintro h2 ⟨k1, k2⟩
    rw [replica_eq, blockNumber_zero _ _ _ (hlt h2)] at k2
    apply hb.chunk_inj
    intro a ha
    rw [e' a ha]
    split_ifs with hu
    · exact (k1 a ha hu).symm
    · exact k2 a (List.mem_filter.mpr ⟨ha, by simpa using hu⟩)

theorem replica_distinct {m : Mesh α H} {l : α → Nat} {first : H → α → Nat} (hb : Boxes m l first) (used : List α) {h h' : H}
    (e : ∀ a ∈ m.names, a ∈ used → chunk l first h a = chunk l first h' a)
    (er : getReplicaId (hostChunker m l first h) used = getReplicaId (hostChunker m l first h') used) : h = h' := by
  rw [replica_eq, replica_eq] at er
  have := blockNumber_inj _ _ _ _ (fun a ha => hb.chunk_lt h a (List.mem_filter.mp ha).1)
    (fun a ha => hb.chunk_lt h' a (List.mem_filter.mp ha).1) er
  apply hb.chunk_inj
  intro a ha
  by_cases hu : a ∈ used
  · exact e a ha hu
  · exact this a (List.mem_filter.mpr ⟨ha, by simpa using hu⟩)

/-- **C41** (tiling).  In a mesh whose hosts own equal boxes of devices, for an array whose annotated dimensions divide into
the chunks: every host gets its slices and replica id; the slices of the hosts cover the array; two hosts' slices are equal
or have no index in common; among the hosts with the same slices exactly one has replica id 0, and their replica ids differ. -/
theorem C41_tiles {m : Mesh α H} {l : α → Nat} {first : H → α → Nat} (hb : Boxes m l first) {es : List (Entry α)}
    {ns : List Nat} (hs : Shardable m.names (fun a => m.shape a / l a) es ns) :
    ∃ (sl : H → List (Option (Nat × Nat))) (rid : H → Nat),
      (∀ h, getLocalChunkInfo (hostChunker m l first h) ns es = .ok (sl h, rid h)) ∧
      (∀ is, Nonempty H → InShape ns is → ∃ h, InSlices (sl h) ns is) ∧
      (∀ h h', sl h = sl h' ∨ ∀ is, ¬ (InSlices (sl h) ns is ∧ InSlices (sl h') ns is)) ∧
      (∀ h, ∃! h', sl h' = sl h ∧ rid h' = 0) ∧
      (∀ h h', sl h = sl h' → rid h = rid h' → h = h') := by
  have eqi : ∀ h h', pureSlices (hostChunker m l first h) es ns = pureSlices (hostChunker m l first h') es ns ↔
      ∀ a ∈ named es, chunk l first h a = chunk l first h' a :=
    fun h h' => pureSlices_eq_iff (c := hostChunker m l first h) (c' := hostChunker m l first h') rfl hs
  have ini : ∀ h is, InSlices (pureSlices (hostChunker m l first h) es ns) ns is ↔
      BlockAt (fun a => m.shape a / l a) (chunk l first h) es ns is :=
    fun h is => inSlices_iff (c := hostChunker m l first h) hs
  refine ⟨fun h => pureSlices (hostChunker m l first h) es ns, fun h => getReplicaId (hostChunker m l first h) (named es),
    info_ok hs, ?_, ?_, ?_, ?_⟩
  · intro is ⟨h0⟩ hi
    obtain ⟨p, hp, hbk⟩ := blockAt_exists (parts_pos hb h0) hs hi
    obtain ⟨h, hh⟩ := hb.chunk_surj h0 p hp
    refine ⟨h, (ini h is).mpr (blockAt_congr ?_ hbk)⟩
    intro a ha
    exact (hh a (named_sub hs a ha)).symm
  · intro h h'
    by_cases e : pureSlices (hostChunker m l first h) es ns = pureSlices (hostChunker m l first h') es ns
    · exact Or.inl e
    · right
      rintro is ⟨i1, i2⟩
      exact e ((eqi h h').mpr (blockAt_det (shardable_length hs) ((ini h is).mp i1) ((ini h' is).mp i2)))
  · intro h
    obtain ⟨h', ⟨a1, a2⟩, a3⟩ := replica_zero hb (named es) h
    refine ⟨h', ⟨((eqi h h').mpr (fun a ha => a1 a (named_sub hs a ha) ha)).symm, a2⟩, ?_⟩
    rintro h2 ⟨b1, b2⟩
    exact a3 h2 ⟨fun a _ ha => (eqi h h2).mp b1.symm a ha, b2⟩
  · intro h h' e er
    exact replica_distinct hb (named es) (fun a _ ha => (eqi h h').mp e a ha) er

/-- **C41** (the slices are what the host's devices hold).  If the annotated dimensions divide over the whole mesh, an index
is in a host's slices exactly when one of the host's devices holds it under the sharding the annotations describe. -/
theorem C41_holds {m : Mesh α H} {l : α → Nat} {first : H → α → Nat} (hb : Boxes m l first) {es : List (Entry α)}
    {ns : List Nat} (hs : Shardable m.names m.shape es ns) (h : H) :
    ∃ sl rid, getLocalChunkInfo (hostChunker m l first h) ns es = .ok (sl, rid) ∧
      ∀ is, InSlices sl ns is ↔ ∃ p, InMesh m p ∧ m.owner p = h ∧ BlockAt m.shape p es ns is := by
  have weaken : ∀ {es : List (Entry α)} {ns : List Nat}, Shardable m.names m.shape es ns →
      Shardable m.names (fun a => m.shape a / l a) es ns := by
    intro es
    induction es with
    | nil =>
      intro ns
      induction ns with
      | nil => exact fun h => h
      | cons n ns ih => exact fun h => ⟨h.1, ih h.2⟩
    | cons e es ih =>
      intro ns hh
      cases ns with
      | nil => simp [Shardable] at hh
      | cons n ns =>
        cases e with
        | none => exact ⟨hh.1, ih hh.2⟩
        | tuple t => exact ⟨hh.1, ih hh.2⟩
        | name a =>
          refine ⟨⟨hh.1.1, hh.1.2.1, ?_, hh.1.2.2.2⟩, ih hh.2⟩
          exact dvd_trans (Nat.div_dvd_of_dvd (hb.divides h a hh.1.1)) hh.1.2.2.1
  have hs' := weaken hs
  refine ⟨_, _, info_ok hs' h, fun is => ?_⟩
  rw [inSlices_iff (c := hostChunker m l first h) hs']
  show BlockAt (fun a => m.shape a / l a) (chunk l first h) es ns is ↔ _
  -- the arithmetic of one annotated dimension
  have arith : ∀ a ∈ m.names, ∀ n i, 0 < n → m.shape a ∣ n → i / (n / (m.shape a / l a)) = i / (n / m.shape a) / l a := by
    intro a ha n i hn hd
    have hl := hb.pos a ha
    obtain ⟨k, hk⟩ := hb.divides h a ha
    obtain ⟨q, hq⟩ := hd
    have hsp : 0 < m.shape a := Nat.pos_of_ne_zero (by intro e; rw [e] at hq; simp at hq; omega)
    have hkp : 0 < k := Nat.pos_of_ne_zero (by intro e; rw [e] at hk; simp at hk; omega)
    rw [Nat.div_div_eq_div_mul]
    congr 1
    rw [hq, Nat.mul_div_cancel_left _ hsp, hk, Nat.mul_div_cancel_left _ hl]
    rw [show l a * k * q = k * (q * l a) by ring, Nat.mul_div_cancel_left _ hkp]
  have fwd : ∀ {es : List (Entry α)} {ns is : List Nat}, Shardable m.names m.shape es ns → ∀ c : α → Nat,
      BlockAt (fun a => m.shape a / l a) c es ns is →
      ∃ p, (∀ a ∈ m.names, p a / l a = c a) ∧ BlockAt m.shape p es ns is := by
    intro es
    induction es with
    | nil =>
      intro ns is _ c hk
      refine ⟨fun a => c a * l a, fun a ha => Nat.mul_div_cancel _ (hb.pos a ha), ?_⟩
      induction ns generalizing is with
      | nil => cases is <;> simp [BlockAt] at hk ⊢
      | cons n ns ih2 =>
        cases is with
        | nil => simp [BlockAt] at hk
        | cons i is => exact ⟨hk.1, ih2 (by rename_i hh; exact hh.2) hk.2⟩
    | cons e es ih =>
      intro ns is hh c hk
      cases ns with
      | nil => simp [Shardable] at hh
      | cons n ns =>
        cases is with
        | nil => cases e <;> simp [BlockAt] at hk
        | cons i is =>
          cases e with
          | none => obtain ⟨p, h1, h2⟩ := ih hh.2 c hk.2; exact ⟨p, h1, hk.1, h2⟩
          | tuple t => obtain ⟨p, h1, h2⟩ := ih hh.2 c hk.2; exact ⟨p, h1, hk.1, h2⟩
          | name a =>
            obtain ⟨p, h1, h2⟩ := ih hh.2 c hk.2
            refine ⟨Function.update p a (i / (n / m.shape a)), ?_, ⟨hk.1.1, by rw [Function.update_self]⟩, ?_⟩
            · intro b hbm
              by_cases e : b = a
              · subst e
                rw [Function.update_self, ← arith b hbm n i hh.1.2.1 hh.1.2.2.1]
                exact hk.1.2
              · rw [Function.update_of_ne e]; exact h1 b hbm
            · refine blockAt_congr ?_ h2
              intro b hbm
              rw [Function.update_of_ne]
              rintro rfl
              exact hh.1.2.2.2 (mem_named.mp hbm)
  have bwd : ∀ {es : List (Entry α)} {ns is : List Nat}, Shardable m.names m.shape es ns → ∀ p c : α → Nat,
      (∀ a ∈ m.names, p a / l a = c a) → BlockAt m.shape p es ns is →
      BlockAt (fun a => m.shape a / l a) c es ns is := by
    intro es
    induction es with
    | nil =>
      intro ns is hh p c hpc hk
      clear hpc
      induction ns generalizing is with
      | nil => cases is <;> simp [BlockAt] at hk ⊢
      | cons n ns ih2 =>
        cases is with
        | nil => simp [BlockAt] at hk
        | cons i is => exact ⟨hk.1, ih2 hh.2 hk.2⟩
    | cons e es ih =>
      intro ns is hh p c hpc hk
      cases ns with
      | nil => simp [Shardable] at hh
      | cons n ns =>
        cases is with
        | nil => cases e <;> simp [BlockAt] at hk
        | cons i is =>
          cases e with
          | none => exact ⟨hk.1, ih hh.2 p c hpc hk.2⟩
          | tuple t => exact ⟨hk.1, ih hh.2 p c hpc hk.2⟩
          | name a =>
            refine ⟨⟨hk.1.1, ?_⟩, ih hh.2 p c hpc hk.2⟩
            dsimp only
            rw [arith a hh.1.1 n i hh.1.2.1 hh.1.2.2.1, hk.1.2]
            exact hpc a hh.1.1
  constructor
  · intro hk
    obtain ⟨p, h1, h2⟩ := fwd hs _ hk
    have hp : InMesh m p := by
      intro a ha
      have e := h1 a ha
      have := hb.chunk_lt h a ha
      rw [← e] at this
      exact lt_of_not_ge fun hge => absurd (Nat.div_le_div_right (c := l a) hge) (by omega)
    exact ⟨p, hp, (hb.owner_iff h hp).mpr h1, h2⟩
  · rintro ⟨p, hp, ho, h2⟩
    exact bwd hs p _ ((hb.owner_iff h hp).mp ho) h2

/-- A one-dimensional mesh of two hosts with one device each. -/
def exMesh1 : Mesh Nat Nat := ⟨[0], fun _ => 2, fun p => p 0⟩

/-- **C41** (the divisibility hypothesis is needed).  Two hosts share an array of five elements: the chunks are `[0, 2)` and
`[2, 4)`, no host holds the last element. -/
theorem C41_tail_lost :
    getLocalChunkInfo (Chunker.init [0] (fun _ => 2) (fun _ => 1) (fun _ => 0)) [5] [.name 0] = .ok ([some (0, 2)], 0) ∧
    getLocalChunkInfo (Chunker.init [0] (fun _ => 2) (fun _ => 1) (fun _ => 1)) [5] [.name 0] = .ok ([some (2, 4)], 0) ∧
    InShape [5] [4] ∧ ¬ InSlices [some (0, 2)] [5] [4] ∧ ¬ InSlices [some (2, 4)] [5] [4] := by
  refine ⟨rfl, rfl, .cons (by decide) .nil, ?_, ?_⟩ <;> simp [InSlices]

/-! Data layouts -/

theorem reduceMul_ok {names : List α} {f : α → Nat} {axes : List α} (hne : axes ≠ []) (hsub : ∀ a ∈ axes, a ∈ names) :
    reduceMul names f axes = .ok (axes.map f).prod := by
  unfold reduceMul
  rw [if_pos (by simpa using hsub)]
  cases axes with
  | nil => exact absurd rfl hne
  | cons a as =>
    dsimp only
    congr 1
    have : ∀ x, as.foldl (fun x b => x * f b) x = x * (as.map f).prod := by
      intro x
      clear hne hsub
      induction as generalizing x with
      | nil => simp
      | cons b as ih => simp only [List.foldl_cons, ih, List.map_cons, List.prod_cons]; ring
    rw [this, List.map_cons, List.prod_cons]

theorem prod_split {m : Mesh α H} {l : α → Nat} {first : H → α → Nat} (hb : Boxes m l first) (h : H) :
    ∀ axes : List α, (∀ a ∈ axes, a ∈ m.names) →
    (axes.map m.shape).prod = (axes.map (fun a => m.shape a / l a)).prod * (axes.map l).prod
  | [], _ => by simp
  | a :: as, hsub => by
    have := prod_split hb h as (fun b hbm => hsub b (List.mem_cons_of_mem _ hbm))
    simp only [List.map_cons, List.prod_cons, this]
    have e := Nat.div_mul_cancel (hb.divides h a (hsub a List.mem_cons_self))
    calc m.shape a * _ = (m.shape a / l a * l a) * ((as.map (fun a => m.shape a / l a)).prod * (as.map l).prod) := by rw [e]
      _ = _ := by ring

theorem prod_pos {m : Mesh α H} (f : α → Nat)
    (hf : ∀ a ∈ m.names, 0 < f a) (axes : List α) (hsub : ∀ a ∈ axes, a ∈ m.names) : 0 < (axes.map f).prod := by
  induction axes with
  | nil => simp
  | cons a as ih =>
    rw [List.map_cons, List.prod_cons]
    exact Nat.mul_pos (hf a (hsub a List.mem_cons_self)) (ih (fun b hbm => hsub b (List.mem_cons_of_mem _ hbm)))

/-- Shard ids and first hosts: common part of the two layouts. -/
theorem shard_facts {m : Mesh α H} {l : α → Nat} {first : H → α → Nat} (hb : Boxes m l first) {axes : List α}
    (hn : axes.Nodup) (hsub : ∀ a ∈ axes, a ∈ m.names) :
    let n := (axes.map (fun a => m.shape a / l a)).prod
    let sid : H → Nat := fun h => blockNumber (fun a => m.shape a / l a) (chunk l first h) axes
    (∀ h, sid h < n) ∧ (Nonempty H → ∀ s, s < n → ∃ h, sid h = s) ∧
    (Nonempty H → ∀ s, s < n → ∃! h, sid h = s ∧ getReplicaId (hostChunker m l first h) axes = 0) ∧
    (∀ h h', sid h = sid h' ↔ ∀ a ∈ axes, chunk l first h a = chunk l first h' a) := by
  intro n sid
  have lt : ∀ h, ∀ a ∈ axes, chunk l first h a < m.shape a / l a := fun h a ha => hb.chunk_lt h a (hsub a ha)
  have inj : ∀ h h', sid h = sid h' ↔ ∀ a ∈ axes, chunk l first h a = chunk l first h' a :=
    fun h h' => ⟨blockNumber_inj _ _ _ _ (lt h) (lt h'), blockNumber_congr _ _⟩
  have surj : Nonempty H → ∀ s, s < n → ∃ h, sid h = s := by
    rintro ⟨h0⟩ s hs
    obtain ⟨c, h1, h2⟩ := blockNumber_surj _ axes hn s hs
    obtain ⟨h, hh⟩ := hb.chunk_surj h0 (fun a => if a ∈ axes then c a else 0) (by
      intro a ha
      have := parts_pos hb h0 a ha
      split_ifs with hu
      · exact h1 a hu
      · exact this)
    refine ⟨h, ?_⟩
    rw [← h2]
    refine blockNumber_congr _ _ ?_
    intro a ha
    rw [hh a (hsub a ha), if_pos ha]
  refine ⟨fun h => blockNumber_lt _ _ _ (lt h), surj, ?_, inj⟩
  intro hne s hs
  obtain ⟨h, hh⟩ := surj hne s hs
  obtain ⟨h', ⟨a1, a2⟩, a3⟩ := replica_zero hb axes h
  refine ⟨h', ⟨?_, a2⟩, ?_⟩
  · rw [← hh]
    exact ((inj h h').mpr (fun a ha => a1 a (hsub a ha) ha)).symm
  · rintro h2 ⟨b1, b2⟩
    exact a3 h2 ⟨fun a _ ha => (inj h h2).mp (by rw [hh, b1]) a ha, b2⟩

/-- Rows: two hosts hold the same rows if they agree on the data axes, no common row otherwise. -/
theorem rows_facts {m : Mesh α H} {l : α → Nat} {first : H → α → Nat} (hb : Boxes m l first) {axes : List α}
    (hsub : ∀ a ∈ axes, a ∈ m.names) (b : Nat) (h h' : H) :
    ((∀ a ∈ axes, chunk l first h a = chunk l first h' a) → ∀ r, HasRow m axes b h r ↔ HasRow m axes b h' r) ∧
    (¬ (∀ a ∈ axes, chunk l first h a = chunk l first h' a) → ∀ r, ¬ (HasRow m axes b h r ∧ HasRow m axes b h' r)) := by
  have half : ∀ h h' : H, (∀ a ∈ axes, chunk l first h a = chunk l first h' a) → ∀ r, HasRow m axes b h r →
      HasRow m axes b h' r := by
    rintro h h' e r ⟨p, hp, ho, hr, hk⟩
    have hfi := (hb.first_mem h').1
    let q : α → Nat := fun a => if a ∈ axes then p a else first h' a
    have hq : InMesh m q := by
      intro a ha
      dsimp only [q]
      split_ifs
      · exact hp a ha
      · exact hfi a ha
    refine ⟨q, hq, (hb.owner_iff h' hq).mpr ?_, hr, ?_⟩
    · intro a ha
      dsimp only [q]
      split_ifs with hu
      · rw [← e a hu]; exact (hb.owner_iff h hp).mp ho a ha
      · rfl
    · rw [hk]
      refine blockNumber_congr _ _ ?_
      intro a ha
      simp only [q, if_pos ha]
  refine ⟨fun e r => ⟨half h h' e r, half h' h (fun a ha => (e a ha).symm) r⟩, ?_⟩
  rintro hne r ⟨⟨p, hp, ho, _, hk⟩, ⟨p', hp', ho', _, hk'⟩⟩
  apply hne
  intro a ha
  have e := blockNumber_inj m.shape p p' axes (fun a ha => hp a (hsub a ha)) (fun a ha => hp' a (hsub a ha)) (by rw [← hk, ← hk'])
  rw [← (hb.owner_iff h hp).mp ho a (hsub a ha), ← (hb.owner_iff h' hp').mp ho' a (hsub a ha), e a ha]

/-- **C42** (data layout).  Let the hosts own equal boxes of devices and the data axes be distinct axes of the mesh.  For a
batch size that is a multiple of the product of the data axes (or left out), every host gets a layout with that batch size
(or that product) and the same number of shards, which divides the batch size; shard ids are below the number of shards; every
shard id is held by a host, and by exactly one host marked first; two hosts with the same shard id have the same rows of the
batch on their devices, two hosts with different shard ids have no row in common. -/
theorem C42_layout {m : Mesh α H} {l : α → Nat} {first : H → α → Nat} (hb : Boxes m l first) {axes : List α}
    (hne : axes ≠ []) (hn : axes.Nodup) (hsub : ∀ a ∈ axes, a ∈ m.names) (proc : H → Nat) (batch : Option Nat)
    (hdiv : ∀ b, batch = some b → (axes.map m.shape).prod ∣ b) (hH : Nonempty H) :
    ∃ (b n : Nat) (sid : H → Nat) (isFirst : H → Bool),
      (∀ h, getDataLayout (hostChunker m l first h) m.shape (proc h) (some axes) batch none =
        .ok ⟨some b, sid h, n, isFirst h⟩) ∧
      (b = (axes.map m.shape).prod ∨ batch = some b) ∧ (∀ b', batch = some b' → b' ≠ 0 → b = b') ∧
      0 < n ∧ n ∣ b ∧ (∀ h, sid h < n) ∧ (∀ s, s < n → ∃ h, sid h = s) ∧
      (∀ s, s < n → ∃! h, sid h = s ∧ isFirst h = true) ∧
      (∀ h h', sid h = sid h' → ∀ r, HasRow m axes b h r ↔ HasRow m axes b h' r) ∧
      (∀ h h', sid h ≠ sid h' → ∀ r, ¬ (HasRow m axes b h r ∧ HasRow m axes b h' r)) := by
  obtain ⟨h0⟩ := hH
  obtain ⟨f1, f2, f3, f4⟩ := shard_facts hb hn hsub
  have hd : (axes.map m.shape).prod ∣ orSize batch (axes.map m.shape).prod := by
    cases batch with
    | none => exact dvd_refl _
    | some b =>
      cases b with
      | zero => exact dvd_refl _
      | succ b => exact hdiv _ rfl
  have hps := prod_split hb h0 axes hsub
  have hnd : (axes.map (fun a => m.shape a / l a)).prod ∣ orSize batch (axes.map m.shape).prod :=
    dvd_trans ⟨_, hps⟩ hd
  refine ⟨orSize batch (axes.map m.shape).prod, (axes.map (fun a => m.shape a / l a)).prod,
    fun h => blockNumber (fun a => m.shape a / l a) (chunk l first h) axes,
    fun h => getReplicaId (hostChunker m l first h) axes == 0, ?_, ?_, ?_, ?_, hnd, f1, f2 ⟨h0⟩, ?_, ?_, ?_⟩
  · intro h
    unfold getDataLayout
    dsimp only
    rw [reduceMul_ok hne (show ∀ a ∈ axes, a ∈ (hostChunker m l first h).axes from hsub)]
    dsimp only
    rw [if_neg (by rw [not_not]; exact Nat.mod_eq_zero_of_dvd hd),
      reduceMul_ok hne (show ∀ a ∈ axes, a ∈ (hostChunker m l first h).axes from hsub)]
    dsimp only
    rw [if_neg (by rw [not_not]; exact Nat.mod_eq_zero_of_dvd hnd)]
    unfold getShardId
    rw [if_pos (by simpa using (show ∀ a ∈ axes, a ∈ (hostChunker m l first h).axes from hsub)), code_eq]
    rfl
  · cases batch with
    | none => exact Or.inl rfl
    | some b =>
      cases b with
      | zero => exact Or.inl rfl
      | succ b => exact Or.inr rfl
  · rintro b' rfl hb'
    cases b' with
    | zero => exact absurd rfl hb'
    | succ b' => rfl
  · exact prod_pos _ (parts_pos hb h0) axes hsub
  · simpa using f3 ⟨h0⟩
  · intro h h' e
    exact (rows_facts hb hsub _ h h').1 ((f4 h h').mp e)
  · intro h h' e
    exact (rows_facts hb hsub _ h h').2 (fun hh => e ((f4 h h').mpr hh))

/-- **C42** (bad batch size).  A positive batch size that is not a multiple of the product of the data axes is rejected with a
ValueError on every host; so is an explicit host index. -/
theorem C42_rejects {m : Mesh α H} {l : α → Nat} {first : H → α → Nat} {axes : List α}
    (hne : axes ≠ []) (hsub : ∀ a ∈ axes, a ∈ m.names) (proc : Nat) (b : Nat) (hb0 : b ≠ 0)
    (hdiv : ¬ (axes.map m.shape).prod ∣ b) (h : H) (i : Nat) (ax : Option (List α)) (ob : Option Nat) :
    getDataLayout (hostChunker m l first h) m.shape proc (some axes) (some b) none = .error .badBatch ∧
    getDataLayout (hostChunker m l first h) m.shape proc ax ob (some i) = .error .notImplemented := by
  refine ⟨?_, rfl⟩
  unfold getDataLayout
  dsimp only
  rw [reduceMul_ok hne (show ∀ a ∈ axes, a ∈ (hostChunker m l first h).axes from hsub)]
  dsimp only
  have e : orSize (some b) (axes.map m.shape).prod = b := by
    cases b with
    | zero => exact absurd rfl hb0
    | succ b => rfl
  rw [e, if_pos (fun hh => hdiv (Nat.dvd_of_mod_eq_zero hh))]

/-- **C42** (mixture of experts).  The layout of `MoePjitPartitioner` for distinct data and expert axes: the same claims, for
the batch sharded over the expert axis (slowest) and the data axis. -/
theorem C42_moe {m : Mesh α H} {l : α → Nat} {first : H → α → Nat} (hb : Boxes m l first) {data expert : α}
    (hd0 : data ∈ m.names) (he0 : expert ∈ m.names) (hde : expert ≠ data) (batch : Option Nat)
    (hdiv : ∀ b, batch = some b → m.shape data * m.shape expert ∣ b) (hH : Nonempty H) :
    ∃ (b n : Nat) (sid : H → Nat) (isFirst : H → Bool),
      (∀ h, getMoeDataLayout (hostChunker m l first h) m.shape data expert batch none =
        .ok ⟨some b, sid h, n, isFirst h⟩) ∧
      (b = m.shape data * m.shape expert ∨ batch = some b) ∧ (∀ b', batch = some b' → b' ≠ 0 → b = b') ∧
      0 < n ∧ n ∣ b ∧ (∀ h, sid h < n) ∧ (∀ s, s < n → ∃ h, sid h = s) ∧
      (∀ s, s < n → ∃! h, sid h = s ∧ isFirst h = true) ∧
      (∀ h h', sid h = sid h' → ∀ r, HasRow m [expert, data] b h r ↔ HasRow m [expert, data] b h' r) ∧
      (∀ h h', sid h ≠ sid h' → ∀ r, ¬ (HasRow m [expert, data] b h r ∧ HasRow m [expert, data] b h' r)) := by
  obtain ⟨h0⟩ := hH
  have hn : [expert, data].Nodup := by simp [hde]
  have hsub : ∀ a ∈ [expert, data], a ∈ m.names := by
    intro a ha
    simp only [List.mem_cons, List.not_mem_nil, or_false] at ha
    rcases ha with rfl | rfl <;> assumption
  obtain ⟨f1, f2, f3, f4⟩ := shard_facts hb hn hsub
  have size : ∀ f : α → Nat, ([expert, data].map f).prod = f data * f expert := by
    intro f; simp [Nat.mul_comm]
  rw [size] at f1 f2 f3
  have hd : m.shape data * m.shape expert ∣ orSize batch (m.shape data * m.shape expert) := by
    cases batch with
    | none => exact dvd_refl _
    | some b =>
      cases b with
      | zero => exact dvd_refl _
      | succ b => exact hdiv _ rfl
  have hps := prod_split hb h0 _ hsub
  rw [size, size] at hps
  have hnd : m.shape data / l data * (m.shape expert / l expert) ∣ orSize batch (m.shape data * m.shape expert) :=
    dvd_trans ⟨_, hps⟩ hd
  have hspos : ∀ a ∈ m.names, 0 < m.shape a := fun a ha => by have := (hb.first_mem h0).1 a ha; omega
  have hbpos : 0 < orSize batch (m.shape data * m.shape expert) := by
    have := Nat.mul_pos (hspos _ hd0) (hspos _ he0)
    cases batch with
    | none => exact this
    | some b =>
      cases b with
      | zero => exact this
      | succ b => exact Nat.succ_pos _
  have hpart : ∀ a ∈ m.names, m.shape a / l a ∣ m.shape a := fun a ha => Nat.div_dvd_of_dvd (hb.divides h0 a ha)
  have hs : Shardable m.names (fun a => m.shape a / l a) [.name expert, .name data]
      [m.shape expert, orSize batch (m.shape data * m.shape expert) / m.shape expert] := by
    obtain ⟨k, hk⟩ := hd
    have hq : orSize batch (m.shape data * m.shape expert) / m.shape expert = m.shape data * k := by
      rw [hk, show m.shape data * m.shape expert * k = m.shape expert * (m.shape data * k) by ring,
        Nat.mul_div_cancel_left _ (hspos _ he0)]
    have hkp : 0 < k := Nat.pos_of_ne_zero (by intro e; rw [hk, e] at hbpos; simp at hbpos)
    refine ⟨⟨he0, hspos _ he0, hpart _ he0, ?_⟩, ⟨hd0, ?_, ?_, ?_⟩, ?_⟩
    · simp [hde]
    · rw [hq]; exact Nat.mul_pos (hspos _ hd0) hkp
    · rw [hq]; exact dvd_trans (hpart _ hd0) ⟨_, rfl⟩
    · simp
    · trivial
  refine ⟨orSize batch (m.shape data * m.shape expert), m.shape data / l data * (m.shape expert / l expert),
    fun h => blockNumber (fun a => m.shape a / l a) (chunk l first h) [expert, data],
    fun h => getReplicaId (hostChunker m l first h) [expert, data] == 0, ?_, ?_, ?_, ?_, hnd, f1, f2 ⟨h0⟩, ?_, ?_, ?_⟩
  · intro h
    unfold getMoeDataLayout
    dsimp only
    rw [if_pos ⟨hd0, he0⟩, if_neg (by rw [not_not]; exact Nat.mod_eq_zero_of_dvd hd),
      if_neg (by rw [not_not]; exact Nat.mod_eq_zero_of_dvd hnd), info_ok hs h]
    have : (hostChunker m l first h).chunkIds data +
        (hostChunker m l first h).chunkIds expert * (hostChunker m l first h).numChunks data =
        blockNumber (fun a => m.shape a / l a) (chunk l first h) [expert, data] := by
      simp only [blockNumber, List.map_cons, List.map_nil, List.prod_cons, List.prod_nil, Nat.mul_one, Nat.add_zero]
      rw [Nat.add_comm]
      rfl
    rw [this]
    rfl
  · cases batch with
    | none => exact Or.inl rfl
    | some b =>
      cases b with
      | zero => exact Or.inl rfl
      | succ b => exact Or.inr rfl
  · rintro b' rfl hb'
    cases b' with
    | zero => exact absurd rfl hb'
    | succ b' => rfl
  · exact Nat.mul_pos (parts_pos hb h0 _ hd0) (parts_pos hb h0 _ he0)
  · simpa using f3 ⟨h0⟩
  · intro h h' e
    exact (rows_facts hb hsub _ h h').1 ((f4 h h').mp e)
  · intro h h' e
    exact (rows_facts hb hsub _ h h').2 (fun hh => e ((f4 h h').mpr hh))

/-! A concrete mesh: axes 0 (data, 4), 1 (expert, 2), 2 (model, 2); each host owns a 2x1x2 box, four hosts. -/

def exShape (a : Nat) : Nat := if a = 0 then 4 else 2
def exLocal (a : Nat) : Nat := if a = 1 then 1 else 2
def exMesh : Mesh Nat (Fin 2 × Fin 2) :=
  ⟨[0, 1, 2], exShape, fun p => (⟨p 0 / 2 % 2, Nat.mod_lt _ (by decide)⟩, ⟨p 1 % 2, Nat.mod_lt _ (by decide)⟩)⟩
def exFirst (h : Fin 2 × Fin 2) (a : Nat) : Nat := if a = 0 then 2 * h.1.val else if a = 1 then h.2.val else 0

theorem exBoxes : Boxes exMesh exLocal exFirst where
  nodup := by decide
  pos := by decide
  inside := by
    intro h a ha
    have := h.1.2
    have := h.2.2
    simp only [exMesh, List.mem_cons, List.not_mem_nil, or_false] at ha
    rcases ha with rfl | rfl | rfl <;> simp [exFirst, exLocal, exMesh, exShape] <;> omega
  owns := by
    rintro ⟨⟨x, hx⟩, ⟨y, hy⟩⟩ p hp
    have p0 := hp 0 (by simp [exMesh])
    have p1 := hp 1 (by simp [exMesh])
    have p2 := hp 2 (by simp [exMesh])
    simp [exMesh, exShape] at p0 p1 p2
    simp [exMesh, exFirst, exLocal]
    omega

/-- An array of shape (8, 6, 3) sharded over (data, model, nothing) meets the hypotheses of `C41_tiles` and `C41_holds`. -/
example : Shardable exMesh.names (fun a => exMesh.shape a / exLocal a) [.name 0, .name 2, .none] [8, 6, 3] ∧
    Shardable exMesh.names exMesh.shape [.name 0, .name 2, .none] [8, 6, 3] := by
  simp [Shardable, exMesh, exShape, exLocal]

example : getLocalChunkInfo (hostChunker exMesh exLocal exFirst (1, 1)) [8, 6, 3] [.name 0, .name 2, .none] =
    .ok ([some (4, 8), some (0, 6), none], 1) := by decide

/-- A batch of 16 over the data axis, and over the expert and data axes, meets the hypotheses of `C42_layout`, `C42_moe`. -/
example : ([0].map exMesh.shape).prod ∣ 16 ∧ exMesh.shape 0 * exMesh.shape 1 ∣ 16 ∧
    getDataLayout (hostChunker exMesh exLocal exFirst (1, 1)) exMesh.shape 3 (some [0]) (some 16) none =
      .ok ⟨some 16, 1, 2, false⟩ ∧
    getMoeDataLayout (hostChunker exMesh exLocal exFirst (1, 1)) exMesh.shape 0 1 (some 16) none =
      .ok ⟨some 16, 3, 4, true⟩ := by decide

example : ¬ ([0].map exMesh.shape).prod ∣ 6 := by decide

end Verif.LocalChunk
