import Verif.Props.AdafactorStack
import Verif.Props.ApplyGrad
import Verif.Props.InitScalable
import Verif.Spec.ScanTrain
namespace Verif.ScanTrain
open Verif.ND Verif.Adafactor Verif.Adafactor.Spec Verif.AdafactorStack Verif.AdafactorStack.Spec
open Verif.AdafactorNum Verif.AdafactorNum.Spec

/-! ### Corresponding parameters -/

/-- Means and second moments of a parameter of shape `s` are found at the indices `e i` of a parameter of shape `s'`. -/
structure Emb (e : List Nat → List Nat) (s s' avg avg' : List Nat) (d d' : Dims) : Prop where
  box : ∀ i, InBox s i → InBox s' (e i)
  rms : ∀ f f' : List Nat → ℝ, (∀ j, InBox s j → f j = f' (e j)) → ∀ i, InBox s i → rmsOf s' avg' f' (e i) = rmsOf s avg f i
  est : ∀ W W' : List Nat → ℝ, (∀ j, InBox s j → W j = W' (e j)) → ∀ i, InBox s i → estimate s' d' W' (e i) = estimate s d W i

theorem mean_congr {s dims i : List Nat} {f f' : List Nat → ℝ} (h : ∀ j, InBox s j → f j = f' j) : mean s dims f' i = mean s dims f i := by
  unfold mean
  rw [List.map_congr_left fun j hj => h j ((mem_slice s dims i j).1 hj).1]

theorem emb_id (s avg : List Nat) (d : Dims) : Emb id s s avg avg d d where
  box := fun _ h => h
  rms := fun f f' h i _ => by
    unfold rmsOf
    rw [mean_congr (f := fun j => f j ^ 2) fun j hj => by simp only [h j hj, id]]
    rfl
  est := fun W W' h i hi => by
    have h' : ∀ j, InBox s j → W j = W' j := fun j hj => h j hj
    unfold estimate
    cases d with
    | dims d1 d0 =>
      simp only [id]
      rw [mean_congr h', mean_congr h', mean_congr (f := mean s d0 W) fun j _ => (mean_congr h').symm]
    | _ => exact (h i hi).symm

theorem emb_layers {ax n k : Nat} {s avg avg' : List Nat} {d d' : Dims} (hk : k < n) (hax : ax ≤ s.length) (ha : Lifts ax avg avg') (hl : LiftsD ax d d') :
    Emb (ins ax k) s (ins ax n s) avg avg' d d' where
  box := fun _ h => ins_inBox hk h
  rms := fun _ _ h i hi => rmsOf_ins hk hax hi ha h
  est := fun W W' h i hi => by
    cases d with
    | dims d1 d0 =>
      cases d' with
      | dims d1' d0' =>
        obtain ⟨l1, l0⟩ := hl
        unfold estimate
        dsimp only
        rw [mean_ins hk hax hi l0 h, mean_ins hk hax hi l1 h,
          mean_ins hk hax hi l1 (f := mean s d0 W) fun j hj => (mean_ins hk hax hj l0 h).symm]
      | _ => exact absurd hl (by simp [LiftsD])
    | _ =>
      cases d' with
      | dims d1' d0' => exact absurd hl (by simp [LiftsD])
      | _ => exact (h i hi).symm

theorem emb_matrix {ax N k n m : Nat} {avg avg' e1 e0 d1 d0 d1' d0' : List Nat} (hk : k < N) (hax : ax ≤ 2) (ha : Lifts ax avg avg')
    (h1 : Lifts ax d1 d1') (h0 : Lifts ax d0 d0') (ht : Two d1 d0) (he : Two e1 e0) :
    Emb (ins ax k) [n, m] (ins ax N [n, m]) avg avg' (.dims e1 e0) (.dims d1' d0') where
  box := fun _ h => ins_inBox hk h
  rms := fun _ _ h i hi => rmsOf_ins hk hax hi ha h
  est := fun W W' h i hi => by rw [estimate_ins hk hax h1 h0 h hi, estimate_two he ht _ i hi]

/-- What is kept along the training of two corresponding parameters. -/
structure LInv (e : List Nat → List Nat) (s s' : List Nat) (momentum : Bool) (d d' : Dims) (init init' : PState ℝ) (y x : NDArray ℝ × PState ℝ)
    (W W' : List Nat → ℝ) : Prop where
  shape : y.1.shape = s
  shape' : x.1.shape = s'
  of : ShapesOf y.2 init
  of' : ShapesOf x.2 init'
  param : ∀ i, InBox s i → y.1.get i = x.1.get (e i)
  mom : momentum = true → ∀ i, InBox s i → y.2.m.get i = x.2.m.get (e i)
  holds : Holds s d y.2 W
  holds' : Holds s' d' x.2 W'
  eq : ∀ i, InBox s i → W i = W' (e i)
  nonneg : ∀ i, 0 ≤ W' i
  nonneg1 : ∀ i, 0 ≤ W i

/-- The optimizer treats the two parameters in the same way. -/
def LinkDims (D D' : Def) (path path' : List Char) (s s' : List Nat) (e : List Nat → List Nat) : Prop :=
  ∃ avg avg' d d', dimsFor D path s = .ok (avg, d) ∧ dimsFor D' path' s' = .ok (avg', d') ∧ Emb e s s' avg avg' d d'

/-- Two corresponding parameters with their states. -/
def Linked (D D' : Def) (momentum : Bool) (path path' : List Char) (s s' : List Nat) (e : List Nat → List Nat) (y x : NDArray ℝ × PState ℝ) : Prop :=
  ∃ avg avg' d d' init init' W W', dimsFor D path s = .ok (avg, d) ∧ dimsFor D' path' s' = .ok (avg', d') ∧ Emb e s s' avg avg' d d' ∧
    initParam realOps D momentum path s = .ok init ∧ initParam realOps D' momentum path' s' = .ok init' ∧
    LInv e s s' momentum d d' init init' y x W W'

theorem holds_zero {D : Def} {momentum : Bool} {path : List Char} {s avg : List Nat} {d : Dims} {init : PState ℝ} (hd : dimsFor D path s = .ok (avg, d))
    (hi : initParam realOps D momentum path s = .ok init) : Holds s d init fun _ => 0 := by
  obtain ⟨init2, h1, h2, -⟩ := init_of_dims realOps D momentum path hd
  rw [hi] at h1
  simp only [Except.ok.injEq] at h1
  subst h1
  have hz : ∀ (t dims i : List Nat), mean t dims (fun _ => (0 : ℝ)) i = 0 := by
    intro t dims i
    unfold mean
    simp
  constructor
  · intro hne i _
    have := h2 i
    cases d with
    | dims a b => exact absurd rfl (hne a b)
    | _ =>
      simp only [moments, count, List.replicate_succ, List.replicate_zero, List.cons.injEq, and_true] at this
      exact this
  · intro d1 d0 hdd i _
    subst hdd
    have := h2 i
    simp only [moments, count, List.replicate_succ, List.replicate_zero, List.cons.injEq, and_true] at this
    rw [this.1, this.2, hz, hz]
    exact ⟨rfl, rfl⟩

theorem linked_init {D D' : Def} {momentum : Bool} {path path' : List Char} {s s' : List Nat} {e : List Nat → List Nat} (h : LinkDims D D' path path' s s' e)
    {q p : NDArray ℝ} (hq : q.shape = s) (hp : p.shape = s') (hv : ∀ i, InBox s i → q.get i = p.get (e i)) :
    ∃ init init', initParam realOps D momentum path q.shape = .ok init ∧ initParam realOps D' momentum path' p.shape = .ok init' ∧
      Linked D D' momentum path path' s s' e (q, init) (p, init') := by
  obtain ⟨avg, avg', d, d', h1, h2, h3⟩ := h
  obtain ⟨init, hi, -, hz⟩ := init_of_dims realOps D momentum path h1
  obtain ⟨init', hi', -, hz'⟩ := init_of_dims realOps D' momentum path' h2
  refine ⟨init, init', by rw [hq]; exact hi, by rw [hp]; exact hi', avg, avg', d, d', init, init', fun _ => 0, fun _ => 0, h1, h2, h3, hi, hi', ?_⟩
  exact ⟨hq, hp, ⟨rfl, rfl, rfl, rfl⟩, ⟨rfl, rfl, rfl, rfl⟩, hv, fun _ i _ => (hz i).trans (hz' _).symm, holds_zero h1 hi, holds_zero h2 hi',
    fun _ _ => rfl, fun _ => le_rfl, fun _ => le_rfl⟩

theorem linked_step {D D' : Def} {momentum : Bool} {path path' : List Char} {s s' : List Nat} {e : List Nat → List Nat} {H : HP ℝ} {step : Int}
    (hs : ∀ l, (D.argsort l).Perm (List.range l.length)) (hs' : ∀ l, (D'.argsort l).Perm (List.range l.length))
    (hlr : H.learningRate.isSome = true) (hb1 : H.beta1.isSome = momentum) (hdr : 0 < H.decayRate) (heps : 0 < H.eps1) (ho : H.stepOffset ≤ step)
    {q p g gk : NDArray ℝ} {su st : PState ℝ} (hgs : gk.shape = s) (hg : g.shape = s') (hgk : ∀ i, InBox s i → gk.get i = g.get (e i))
    (hv : Linked D D' momentum path path' s s' e (q, su) (p, st)) :
    ∃ y x, applyParam realOps D H step path q su gk = .ok y ∧ applyParam realOps D' H step path' p st g = .ok x ∧
      Linked D D' momentum path path' s s' e y x := by
  obtain ⟨avg, avg', d, d', init, init', W, W', hd, hd', hE, hi, hi', hv⟩ := hv
  subst hb1
  obtain ⟨lr, hlr⟩ := Option.isSome_iff_exists.mp hlr
  have hp : p.shape = s' := hv.shape'
  have hq : q.shape = s := hv.shape
  obtain ⟨x, u', hx, hxs, hu', -, hx0, hx1⟩ := C91_step D' H step path' p g st init' lr avg' _ hs' (by rw [hp]; exact hd') hlr (by rw [hg, hp])
    (by rw [hp]; exact hi') hv.of' W' (by rw [hp]; exact hv.holds') (fun i _ => hv.nonneg i) hdr heps ho
  obtain ⟨y, u, hy, hys, hu, -, hy0, hy1⟩ := C91_step D H step path q gk su init lr avg _ hs (by rw [hq]; exact hd) hlr (by rw [hgs, hq])
    (by rw [hq]; exact hi) hv.of W (by rw [hq]; exact hv.holds) (fun i _ => hv.nonneg1 i) hdr heps ho
  obtain ⟨a1, a2, a3⟩ := holds_step D' H step path' p g st init' avg' _ x hs' (by rw [hp]; exact hd') (by rw [hg, hp]) (by rw [hp]; exact hi') hv.of' W'
    (by rw [hp]; exact hv.holds') hx
  obtain ⟨b1, b2, b3⟩ := holds_step D H step path q gk su init avg _ y hs (by rw [hq]; exact hd) (by rw [hgs, hq]) (by rw [hq]; exact hi) hv.of W
    (by rw [hq]; exact hv.holds) hy
  rw [hp] at hxs hu' hx0 hx1 a3
  rw [hq] at hys hu hy0 hy1 b3
  have hmom : ∀ j, InBox s j → moment H step W gk.get j = moment H step W' g.get (e j) := by
    intro j hj
    unfold moment
    rw [hv.eq j hj, hgk j hj]
  have huu : ∀ i, InBox s i → u i = u' (e i) := by
    intro i hb
    rw [hu i hb, hu' _ (hE.box i hb)]
    have hy : ∀ j, InBox s j → gk.get j / √(estimate s d (moment H step W gk.get) j) = g.get (e j) / √(estimate s' d' (moment H step W' g.get) (e j)) := by
      intro j hj
      rw [hgk j hj, hE.est _ _ hmom j hj]
    unfold step1 size
    rw [hE.rms _ _ hv.param i hb, hE.rms (fun j => gk.get j / √(estimate s d (moment H step W gk.get) j)) _ hy i hb]
    beta_reduce
    rw [hy i hb]
  refine ⟨y, x, hy, hx, avg, avg', d, d', init, init', moment H step W gk.get, moment H step W' g.get, hd, hd', hE, hi, hi',
    ⟨hys, hxs, b2, a2, ?_, ?_, b3, a3, hmom, ?_, ?_⟩⟩
  · intro i hb
    have hb' := hE.box i hb
    have hpi : q.get i = p.get (e i) := hv.param i hb
    cases hbeta : H.beta1 with
    | none => rw [hx0 hbeta _ hb', hy0 hbeta i hb, huu i hb, hpi]
    | some b =>
      rw [(hx1 b hbeta _ hb').2, (hy1 b hbeta i hb).2, (hx1 b hbeta _ hb').1, (hy1 b hbeta i hb).1, huu i hb]
      have := hv.mom (by rw [hbeta]; rfl) i hb
      dsimp only at this
      rw [this, hpi]
  · intro hbt i hb
    have hb' := hE.box i hb
    obtain ⟨b, hbeta⟩ := Option.isSome_iff_exists.mp hbt
    rw [(hx1 b hbeta _ hb').1, (hy1 b hbeta i hb).1, huu i hb]
    have := hv.mom hbt i hb
    dsimp only at this
    rw [this]
  · exact fun i => (moment_pos H hdr heps step ho W' _ i (hv.nonneg i)).le
  · exact fun i => (moment_pos H hdr heps step ho W _ i (hv.nonneg1 i)).le

/-! ### Trees of corresponding parameters -/

open Verif.StateDict Verif.StateDict.Spec Verif.OptaxState.Spec Verif.ApplyGrad Verif.ApplyGrad.Spec Spec
open Verif.InitT5 (Var Name)

/-- Two corresponding parameters of two networks. -/
structure Link where
  path : List Name
  path' : List Name
  shape : List Nat
  shape' : List Nat
  e : List Nat → List Nat

/-- The links are between all parameters of two networks. -/
structure Covers (vars vars' : List Var) (L : List Link) : Prop where
  left : L.map (fun l => (l.path, l.shape)) = vars.map fun v => (v.path, v.shape)
  right : ∀ l ∈ L, ∃ v ∈ vars', v.path = l.path' ∧ v.shape = l.shape'
  onto : ∀ v ∈ vars', ∃ l ∈ L, l.path' = v.path
  nodup : (vars.map Var.path).Nodup
  nodup' : (vars'.map Var.path).Nodup
  box : ∀ l ∈ L, ∀ i, InBox l.shape i → InBox l.shape' (l.e i)
  inj : ∀ l ∈ L, ∀ m ∈ L, ∀ i j, InBox l.shape i → InBox m.shape j → l.path' = m.path' → l.e i = m.e j → l.path = m.path ∧ i = j
  sum : ∀ F : List Name → List Nat → ℝ, (vars'.map fun v => ((Adafactor.box v.shape).map (F v.path)).sum).sum =
    (L.map fun l => ((Adafactor.box l.shape).map fun i => F l.path' (l.e i)).sum).sum

/-- Equal elements at corresponding places. -/
def Agree (L : List Link) (W W' : Values) : Prop := ∀ l ∈ L, ∀ i, InBox l.shape i → W l.path i = W' l.path' (l.e i)

variable {vars vars' : List Var} {L : List Link}

theorem Covers.mem_left (hL : Covers vars vars' L) {l : Link} (hl : l ∈ L) : ∃ v ∈ vars, v.path = l.path ∧ v.shape = l.shape := by
  have : (l.path, l.shape) ∈ vars.map fun v => (v.path, v.shape) := by rw [← hL.left]; exact List.mem_map_of_mem hl
  obtain ⟨v, hv, h⟩ := List.mem_map.1 this
  exact ⟨v, hv, congrArg Prod.fst h, congrArg Prod.snd h⟩

theorem Covers.of_left (hL : Covers vars vars' L) {v : Var} (hv : v ∈ vars) : ∃ l ∈ L, l.path = v.path ∧ l.shape = v.shape := by
  have : (v.path, v.shape) ∈ L.map fun l => (l.path, l.shape) := by rw [hL.left]; exact List.mem_map_of_mem hv
  obtain ⟨l, hl, h⟩ := List.mem_map.1 this
  exact ⟨l, hl, congrArg Prod.fst h, congrArg Prod.snd h⟩

theorem agree_bump (hL : Covers vars vars' L) {W W' : Values} (h : Agree L W W') {l : Link} (hl : l ∈ L) {i : List Nat} (hi : InBox l.shape i) (t : ℝ) :
    Agree L (bump W l.path i t) (bump W' l.path' (l.e i) t) := by
  intro m hm j hj
  have hpath : m.path = l.path → m = l := by
    intro hp
    have hn : (L.map Link.path).Nodup := by
      have : L.map Link.path = vars.map Var.path := by
        have := congrArg (List.map Prod.fst) hL.left
        simpa [List.map_map, Function.comp_def] using this
      rw [this]; exact hL.nodup
    exact List.inj_on_of_nodup_map hn hm hl hp
  unfold bump
  by_cases hc : m.path = l.path ∧ j = i
  · have : m = l := hpath hc.1
    subst this
    rw [if_pos hc, if_pos ⟨rfl, by rw [hc.2]⟩, h m hm j hj]
  · rw [if_neg hc, if_neg, h m hm j hj]
    rintro ⟨h1, h2⟩
    exact hc (hL.inj m hm l hl j i hj hi h1 h2)

/-- Losses that agree have gradients that agree. -/
theorem agree_grad (hL : Covers vars vars' L) {loss loss' : Values → ℝ} (hloss : ∀ W W', Agree L W W' → loss W = loss' W') {P P' G G' : Dict (NDArray ℝ)}
    (h : Agree L (values P) (values P')) (hG : IsGrad vars loss P G) (hG' : IsGrad vars' loss' P' G') : Agree L (values G) (values G') := by
  intro l hl i hi
  obtain ⟨v, hv, h1, h2⟩ := hL.mem_left hl
  obtain ⟨v', hv', h1', h2'⟩ := hL.right l hl
  have e1 := hG.deriv v hv i (by rw [h2]; exact hi)
  have e2 := hG'.deriv v' hv' (l.e i) (by rw [h2']; exact hL.box l hl i hi)
  rw [h1] at e1
  rw [h1'] at e2
  rw [e1, e2]
  congr 1
  funext t
  exact hloss _ _ (agree_bump hL h hl hi t)

theorem Spec.Fits.at_ {P : Dict (NDArray ℝ)} (h : Fits vars P) {v : Var} (hv : v ∈ vars) : ∃ a, arrayAt P v.path = some a ∧ a.shape = v.shape := by
  have := (h.paths.2 v.path).1 (List.mem_map_of_mem hv)
  obtain ⟨a, ha⟩ := Option.ne_none_iff_exists'.mp this
  exact ⟨a, ha, h.shapes v hv a ha⟩

theorem squares_of {P : Dict (NDArray ℝ)} (h : Fits vars P) {v : Var} (hv : v ∈ vars) :
    squares (arrayAt P v.path) = ((Adafactor.box v.shape).map fun i => values P v.path i ^ 2).sum := by
  obtain ⟨a, h1, h2⟩ := h.at_ hv
  simp only [squares, values, h1, h2]

theorem agree_norm (hL : Covers vars vars' L) {G G' : Dict (NDArray ℝ)} (h : Agree L (values G) (values G')) (hG : Fits vars G) (hG' : Fits vars' G') :
    normAll G (vars.map Var.path) = normAll G' (vars'.map Var.path) := by
  unfold normAll
  congr 1
  rw [List.map_map, List.map_map]
  simp only [Function.comp_def]
  rw [List.map_congr_left (g := fun v : Var => ((Adafactor.box v.shape).map fun i => values G' v.path i ^ 2).sum)
      fun v hv => squares_of hG' hv,
    List.map_congr_left (g := fun v : Var => ((Adafactor.box v.shape).map fun i => values G v.path i ^ 2).sum) fun v hv => squares_of hG hv]
  rw [hL.sum fun p i => values G' p i ^ 2]
  have e1 : (vars.map fun v => ((Adafactor.box v.shape).map fun i => values G v.path i ^ 2).sum) =
      (vars.map fun v => (v.path, v.shape)).map fun x => ((Adafactor.box x.2).map fun i => values G x.1 i ^ 2).sum := by
    rw [List.map_map]; rfl
  rw [e1, ← hL.left, List.map_map]
  congr 1
  refine List.map_congr_left fun l hl => ?_
  simp only [Function.comp]
  congr 1
  refine List.map_congr_left fun i hi => ?_
  rw [h l hl i ((mem_box _ _).1 hi)]

/-- What is kept along the training of two networks. -/
structure TInv (D D' : Def) (momentum : Bool) (vars vars' : List Var) (L : List Link) (t : Nat) (s s' : St) : Prop where
  step : s.2.1 = t
  step' : s'.2.1 = t
  fits : Fits vars s.1
  fits' : Fits vars' s'.1
  proper : ProperDict s.2.2
  proper' : ProperDict s'.2.2
  states : ∀ v ∈ vars, arrayAt s.2.2 v.path ≠ none
  states' : ∀ v ∈ vars', arrayAt s'.2.2 v.path ≠ none
  linked : ∀ l ∈ L, ∀ x u x' u', arrayAt s.1 l.path = some x → arrayAt s.2.2 l.path = some u → arrayAt s'.1 l.path' = some x' →
    arrayAt s'.2.2 l.path' = some u' → Linked D D' momentum (join l.path) (join l.path') l.shape l.shape' l.e (x, u) (x', u')

theorem TInv.agree {D D' : Def} {momentum : Bool} {t : Nat} {s s' : St} (hL : Covers vars vars' L) (h : TInv D D' momentum vars vars' L t s s') :
    Agree L (values s.1) (values s'.1) := by
  intro l hl i hi
  obtain ⟨v, hv, h1, h2⟩ := hL.mem_left hl
  obtain ⟨v', hv', h1', h2'⟩ := hL.right l hl
  obtain ⟨a, ha, -⟩ := h.fits.at_ hv
  obtain ⟨a', ha', -⟩ := h.fits'.at_ hv'
  obtain ⟨u, hu⟩ := Option.ne_none_iff_exists'.mp (h.states v hv)
  obtain ⟨u', hu'⟩ := Option.ne_none_iff_exists'.mp (h.states' v' hv')
  rw [h1] at ha hu
  rw [h1'] at ha' hu'
  obtain ⟨_, _, _, _, _, _, _, _, -, -, -, -, -, hI⟩ := h.linked l hl a u a' u' ha hu ha' hu'
  simp only [values, ha, ha']
  exact hI.param i hi

theorem start_inv {D D' : Def} {H : HP ℝ} (hL : Covers vars vars' L) (hd : ∀ l ∈ L, LinkDims D D' (join l.path) (join l.path') l.shape l.shape' l.e)
    {P P' : Dict (NDArray ℝ)} (hP : Fits vars P) (hP' : Fits vars' P') (h : Agree L (values P) (values P')) :
    ∃ s s', start D H P = .ok s ∧ start D' H P' = .ok s' ∧ TInv D D' H.beta1.isSome vars vars' L 0 s s' := by
  have hq : ∀ l ∈ L, ∀ a a', arrayAt P l.path = some a → arrayAt P' l.path' = some a' →
      ∃ init init', initParam realOps D H.beta1.isSome (join l.path) a.shape = .ok init ∧
        initParam realOps D' H.beta1.isSome (join l.path') a'.shape = .ok init' ∧
        Linked D D' H.beta1.isSome (join l.path) (join l.path') l.shape l.shape' l.e (a, init) (a', init') := by
    intro l hl a a' ha ha'
    obtain ⟨v, hv, h1, h2⟩ := hL.mem_left hl
    obtain ⟨v', hv', h1', h2'⟩ := hL.right l hl
    refine linked_init (hd l hl) ((hP.shapes v hv a (by rw [h1]; exact ha)).trans h2) ((hP'.shapes v' hv' a' (by rw [h1']; exact ha')).trans h2') ?_
    intro i hi
    have := h l hl i hi
    simpa only [values, ha, ha'] using this
  obtain ⟨i1, i2⟩ := C59_init (fun path p => initParam realOps D H.beta1.isSome path p.shape) P hP.proper
  obtain ⟨j1, j2⟩ := C59_init (fun path p => initParam realOps D' H.beta1.isSome path p.shape) P' hP'.proper
  obtain ⟨r, hr⟩ := i1.2 (by
    intro p x hx
    obtain ⟨v, hv, rfl⟩ := List.mem_map.1 ((hP.paths.2 p).2 (by rw [hx]; simp))
    obtain ⟨l, hl, e1, e2⟩ := hL.of_left hv
    obtain ⟨v', hv', h1', -⟩ := hL.right l hl
    obtain ⟨a', ha', -⟩ := hP'.at_ hv'
    obtain ⟨init, _, g1, -⟩ := hq l hl x a' (by rw [e1]; exact hx) (by rw [← h1']; exact ha')
    exact ⟨init, by rw [← e1]; exact g1⟩)
  obtain ⟨r', hr'⟩ := j1.2 (by
    intro p x hx
    obtain ⟨v', hv', rfl⟩ := List.mem_map.1 ((hP'.paths.2 p).2 (by rw [hx]; simp))
    obtain ⟨l, hl, e1⟩ := hL.onto v' hv'
    obtain ⟨v, hv, h1, -⟩ := hL.mem_left hl
    obtain ⟨a, ha, -⟩ := hP.at_ hv
    obtain ⟨_, init', _, g1, -⟩ := hq l hl a x (by rw [← h1]; exact ha) (by rw [e1]; exact hx)
    exact ⟨init', by rw [← e1]; exact g1⟩)
  obtain ⟨k1, k2, k3⟩ := i2 r hr
  obtain ⟨m1, m2, m3⟩ := j2 r' hr'
  refine ⟨(P, r), (P', r'), by simp only [start, hr], by simp only [start, hr'], k1, m1, hP, hP', k2, m2, ?_, ?_, ?_⟩
  · intro v hv
    obtain ⟨a, ha, -⟩ := hP.at_ hv
    obtain ⟨s, -, hs⟩ := (k3 v.path).2 a ha
    simp [hs]
  · intro v hv
    obtain ⟨a, ha, -⟩ := hP'.at_ hv
    obtain ⟨s, -, hs⟩ := (m3 v.path).2 a ha
    simp [hs]
  · intro l hl x u x' u' hx hu hx' hu'
    obtain ⟨init, init', g1, g2, g3⟩ := hq l hl x x' hx hx'
    obtain ⟨s, q1, q2⟩ := (k3 l.path).2 x hx
    obtain ⟨s', q1', q2'⟩ := (m3 l.path').2 x' hx'
    dsimp only at hu hu' q1 q1'
    rw [hu] at q2
    rw [hu'] at q2'
    cases q2
    cases q2'
    rw [g1] at q1
    rw [g2] at q1'
    cases q1
    cases q1'
    exact g3

theorem step_inv {D D' : Def} {H : HP ℝ} {lr : ℝ} {thr : Option ℝ} (hs : ∀ l, (D.argsort l).Perm (List.range l.length))
    (hs' : ∀ l, (D'.argsort l).Perm (List.range l.length)) (hdr : 0 < H.decayRate) (heps : 0 < H.eps1) (ho : H.stepOffset ≤ 0)
    (hL : Covers vars vars' L) {t : Nat} {s s' : St} (h : TInv D D' H.beta1.isSome vars vars' L t s s') {G G' : Dict (NDArray ℝ)} (hG : Fits vars G)
    (hG' : Fits vars' G') (hg : Agree L (values G) (values G')) :
    ∃ r r', step D H thr lr G s = .ok r ∧ step D' H thr lr G' s' = .ok r' ∧ TInv D D' H.beta1.isSome vars vars' L (t + 1) r r' := by
  have hnorm := agree_norm hL hg hG hG'
  set c := clipFactor thr (normAll G (vars.map Var.path)) with hc
  have hq : ∀ l ∈ L, ∀ x u g x' u' g', arrayAt s.1 l.path = some x → arrayAt s.2.2 l.path = some u → arrayAt G l.path = some g →
      arrayAt s'.1 l.path' = some x' → arrayAt s'.2.2 l.path' = some u' → arrayAt G' l.path' = some g' →
      ∃ y y', applyParam realOps D { H with learningRate := some lr } (t : Nat) (join l.path) x u (scaled c g) = .ok y ∧
        applyParam realOps D' { H with learningRate := some lr } (t : Nat) (join l.path') x' u' (scaled c g') = .ok y' ∧
        Linked D D' H.beta1.isSome (join l.path) (join l.path') l.shape l.shape' l.e y y' := by
    intro l hl x u g x' u' g' hx hu hgg hx' hu' hgg'
    obtain ⟨v, hv, h1, h2⟩ := hL.mem_left hl
    obtain ⟨v', hv', h1', h2'⟩ := hL.right l hl
    refine linked_step (H := { H with learningRate := some lr }) hs hs' rfl rfl hdr heps (by dsimp only; omega)
      ((hG.shapes v hv g (by rw [h1]; exact hgg)).trans h2) ((hG'.shapes v' hv' g' (by rw [h1']; exact hgg')).trans h2') ?_
      (h.linked l hl x u x' u' hx hu hx' hu')
    intro i hi
    have := hg l hl i hi
    simp only [values, hgg, hgg'] at this
    simp only [scaled, this]
  obtain ⟨-, a2⟩ := C59_apply (fun n path p st g => applyParam realOps D { H with learningRate := some lr } n path p st g) thr s.1 s.2 G h.fits.proper
    h.proper hG.proper (vars.map Var.path) h.fits.paths
  obtain ⟨-, b2⟩ := C59_apply (fun n path p st g => applyParam realOps D' { H with learningRate := some lr } n path p st g) thr s'.1 s'.2 G' h.fits'.proper
    h.proper' hG'.proper (vars'.map Var.path) h.fits'.paths
  obtain ⟨a3, a4⟩ := a2 (by
    intro p hp
    obtain ⟨v, hv, rfl⟩ := List.mem_map.1 hp
    obtain ⟨g, hgg, -⟩ := hG.at_ hv
    exact ⟨h.states v hv, by rw [hgg]; simp⟩)
  obtain ⟨b3, b4⟩ := b2 (by
    intro p hp
    obtain ⟨v, hv, rfl⟩ := List.mem_map.1 hp
    obtain ⟨g, hgg, -⟩ := hG'.at_ hv
    exact ⟨h.states' v hv, by rw [hgg]; simp⟩)
  rw [← hnorm] at b3 b4
  rw [← hc] at a3 a4 b3 b4
  rw [h.step] at a3
  rw [h.step'] at b3
  obtain ⟨r, hr⟩ := a3.2 (by
    intro p x u g hx hu hgg
    obtain ⟨v, hv, rfl⟩ := List.mem_map.1 ((h.fits.paths.2 p).2 (by rw [hx]; simp))
    obtain ⟨l, hl, e1, e2⟩ := hL.of_left hv
    obtain ⟨v', hv', h1', -⟩ := hL.right l hl
    obtain ⟨x', hx', -⟩ := h.fits'.at_ hv'
    obtain ⟨g', hg', -⟩ := hG'.at_ hv'
    obtain ⟨u', hu'⟩ := Option.ne_none_iff_exists'.mp (h.states' v' hv')
    rw [h1'] at hx' hg' hu'
    rw [← e1] at hx hu hgg
    obtain ⟨y, _, g1, -⟩ := hq l hl x u g x' u' g' hx hu hgg hx' hu' hg'
    exact ⟨y, by rw [← e1]; exact g1⟩)
  obtain ⟨r', hr'⟩ := b3.2 (by
    intro p x' u' g' hx' hu' hg'
    obtain ⟨v', hv', rfl⟩ := List.mem_map.1 ((h.fits'.paths.2 p).2 (by rw [hx']; simp))
    obtain ⟨l, hl, e1⟩ := hL.onto v' hv'
    obtain ⟨v, hv, h1, -⟩ := hL.mem_left hl
    obtain ⟨x, hx, -⟩ := h.fits.at_ hv
    obtain ⟨g, hgg, -⟩ := hG.at_ hv
    obtain ⟨u, hu⟩ := Option.ne_none_iff_exists'.mp (h.states v hv)
    rw [h1] at hx hgg hu
    rw [← e1] at hx' hu' hg'
    obtain ⟨_, y, _, g1, -⟩ := hq l hl x u g x' u' g' hx hu hgg hx' hu' hg'
    exact ⟨y, by rw [← e1]; exact g1⟩)
  obtain ⟨k1, k2, k3, k4, k5⟩ := a4 r hr
  obtain ⟨m1, m2, m3, m4, m5⟩ := b4 r' hr'
  rw [h.step] at k5
  rw [h.step'] at m5
  have hl5 : ∀ v ∈ vars, ∃ x u g y, arrayAt s.1 v.path = some x ∧ arrayAt s.2.2 v.path = some u ∧ arrayAt G v.path = some g ∧
      applyParam realOps D { H with learningRate := some lr } (t : Nat) (join v.path) x u (scaled c g) = .ok y ∧ arrayAt r.1 v.path = some y.1 ∧
      arrayAt r.2.2 v.path = some y.2 := by
    intro v hv
    obtain ⟨x, hx, -⟩ := h.fits.at_ hv
    obtain ⟨g, hgg, -⟩ := hG.at_ hv
    obtain ⟨u, hu⟩ := Option.ne_none_iff_exists'.mp (h.states v hv)
    obtain ⟨y, y1, y2, y3⟩ := k5 v.path x u g hx hu hgg
    exact ⟨x, u, g, y, hx, hu, hgg, y1, y2, y3⟩
  have hr5 : ∀ v ∈ vars', ∃ x u g y, arrayAt s'.1 v.path = some x ∧ arrayAt s'.2.2 v.path = some u ∧ arrayAt G' v.path = some g ∧
      applyParam realOps D' { H with learningRate := some lr } (t : Nat) (join v.path) x u (scaled c g) = .ok y ∧ arrayAt r'.1 v.path = some y.1 ∧
      arrayAt r'.2.2 v.path = some y.2 := by
    intro v hv
    obtain ⟨x, hx, -⟩ := h.fits'.at_ hv
    obtain ⟨g, hgg, -⟩ := hG'.at_ hv
    obtain ⟨u, hu⟩ := Option.ne_none_iff_exists'.mp (h.states' v hv)
    obtain ⟨y, y1, y2, y3⟩ := m5 v.path x u g hx hu hgg
    exact ⟨x, u, g, y, hx, hu, hgg, y1, y2, y3⟩
  have hlk : ∀ l ∈ L, ∀ x u x' u', arrayAt r.1 l.path = some x → arrayAt r.2.2 l.path = some u → arrayAt r'.1 l.path' = some x' →
      arrayAt r'.2.2 l.path' = some u' → Linked D D' H.beta1.isSome (join l.path) (join l.path') l.shape l.shape' l.e (x, u) (x', u') := by
    intro l hl x u x' u' hx hu hx' hu'
    obtain ⟨v, hv, h1, h2⟩ := hL.mem_left hl
    obtain ⟨v', hv', h1', h2'⟩ := hL.right l hl
    obtain ⟨px, pu, pg, y, w1, w2, w3, w4, w5, w6⟩ := hl5 v hv
    obtain ⟨px', pu', pg', y', z1, z2, z3, z4, z5, z6⟩ := hr5 v' hv'
    rw [h1] at w1 w2 w3 w4 w5 w6
    rw [h1'] at z1 z2 z3 z4 z5 z6
    obtain ⟨o, o', q1, q2, q3⟩ := hq l hl px pu pg px' pu' pg' w1 w2 w3 z1 z2 z3
    rw [q1] at w4
    rw [q2] at z4
    cases w4
    cases z4
    rw [hx] at w5
    rw [hu] at w6
    rw [hx'] at z5
    rw [hu'] at z6
    have e1 : (x, u) = y := Prod.ext (Option.some.inj w5) (Option.some.inj w6)
    have e2 : (x', u') = y' := Prod.ext (Option.some.inj z5) (Option.some.inj z6)
    rw [e1, e2]
    exact q3
  refine ⟨r, r', hr, hr', ?_, ?_, ?_, ?_, k3, m3, ?_, ?_, hlk⟩
  · rw [k1, h.step]
  · rw [m1, h.step']
  · refine ⟨k2, ⟨h.fits.paths.1, fun p => ⟨fun hp => ?_, fun hp => ?_⟩⟩, ?_⟩
    · obtain ⟨v, hv, rfl⟩ := List.mem_map.1 hp
      obtain ⟨_, _, _, y, -, -, -, -, w5, -⟩ := hl5 v hv
      rw [w5]; simp
    · by_contra hn
      exact hp (k4 p hn).1
    · intro v hv a ha
      obtain ⟨l, hl, e1, e2⟩ := hL.of_left hv
      obtain ⟨v', hv', h1', h2'⟩ := hL.right l hl
      obtain ⟨_, _, _, y, -, -, -, -, -, w6⟩ := hl5 v hv
      obtain ⟨_, _, _, y', -, -, -, -, z5, z6⟩ := hr5 v' hv'
      rw [h1'] at z5 z6
      rw [← e1] at ha w6
      obtain ⟨_, _, _, _, _, _, _, _, -, -, -, -, -, hI⟩ := hlk l hl a y.2 y'.1 y'.2 ha w6 z5 z6
      rw [← e2]
      exact hI.shape
  · refine ⟨m2, ⟨h.fits'.paths.1, fun p => ⟨fun hp => ?_, fun hp => ?_⟩⟩, ?_⟩
    · obtain ⟨v, hv, rfl⟩ := List.mem_map.1 hp
      obtain ⟨_, _, _, y, -, -, -, -, w5, -⟩ := hr5 v hv
      rw [w5]; simp
    · by_contra hn
      exact hp (m4 p hn).1
    · intro v' hv' a ha
      obtain ⟨l, hl, e1⟩ := hL.onto v' hv'
      obtain ⟨w', hw', h1', h2'⟩ := hL.right l hl
      have hvw : w' = v' := List.inj_on_of_nodup_map hL.nodup' hw' hv' (h1'.trans e1)
      subst hvw
      obtain ⟨v, hv, h1, -⟩ := hL.mem_left hl
      obtain ⟨_, _, _, y, -, -, -, -, w5, w6⟩ := hl5 v hv
      obtain ⟨_, _, _, y', -, -, -, -, -, z6⟩ := hr5 w' hv'
      rw [h1] at w5 w6
      rw [← e1] at ha z6
      obtain ⟨_, _, _, _, _, _, _, _, -, -, -, -, -, hI⟩ := hlk l hl y.1 y.2 a y'.2 w5 w6 ha z6
      rw [h2']
      exact hI.shape'
  · intro v hv
    obtain ⟨_, _, _, y, -, -, -, -, -, w6⟩ := hl5 v hv
    rw [w6]; simp
  · intro v hv
    obtain ⟨_, _, _, y, -, -, -, -, -, w6⟩ := hr5 v hv
    rw [w6]; simp

theorem train_inv {D D' : Def} {H : HP ℝ} {lr : Nat → ℝ} {thr : Option ℝ} (hs : ∀ l, (D.argsort l).Perm (List.range l.length))
    (hs' : ∀ l, (D'.argsort l).Perm (List.range l.length)) (hdr : 0 < H.decayRate) (heps : 0 < H.eps1) (ho : H.stepOffset ≤ 0)
    (hL : Covers vars vars' L) (hd : ∀ l ∈ L, LinkDims D D' (join l.path) (join l.path') l.shape l.shape' l.e) {loss loss' : Nat → Values → ℝ}
    (hloss : ∀ t W W', Agree L W W' → loss t W = loss' t W') {grad grad' : Nat → Dict (NDArray ℝ) → Dict (NDArray ℝ)}
    (hg : ∀ t P, Fits vars P → IsGrad vars (loss t) P (grad t P)) (hg' : ∀ t P, Fits vars' P → IsGrad vars' (loss' t) P (grad' t P))
    {P P' : Dict (NDArray ℝ)} (hP : Fits vars P) (hP' : Fits vars' P') (h : Agree L (values P) (values P')) (T : Nat) :
    ∃ s s', train D H thr lr grad P T = .ok s ∧ train D' H thr lr grad' P' T = .ok s' ∧ TInv D D' H.beta1.isSome vars vars' L T s s' := by
  induction T with
  | zero => exact start_inv hL hd hP hP' h
  | succ T ih =>
    obtain ⟨s, s', h1, h2, h3⟩ := ih
    obtain ⟨r, r', k1, k2, k3⟩ := step_inv (lr := lr T) (thr := thr) hs hs' hdr heps ho hL h3 (hg T s.1 h3.fits).fits (hg' T s'.1 h3.fits').fits
      (agree_grad hL (hloss T) (h3.agree hL) (hg T s.1 h3.fits) (hg' T s'.1 h3.fits'))
    exact ⟨r, r', by simp only [train, h1, k1], by simp only [train, h2, k2], k3⟩

end Verif.ScanTrain
