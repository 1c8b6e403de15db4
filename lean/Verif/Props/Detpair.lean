import Verif.Lemmas.Detpair
import Verif.Props.Beam
import Verif.Props.BeamMore
import Verif.Props.Plate

/-!
# C117: preparing a detector pair
-/

namespace Verif.Beam

open Verif.Spinmaps

variable {K : Type} [Field K] [LinearOrder K] [FloorRing K] [IsStrictOrderedRing K]

omit [IsStrictOrderedRing K] in
/-- Beams and ghosts made with the constructor and `create_ghost` are a family in the sense of the
theorems below, whatever else is done to them, as long as ghost indices are not changed by hand or by
`reuse_blm`. -/
theorem C117_family (env : Env K) (h : Heap K) (hr : Reachable env NoIdxChange h) (r : Ref)
    (gs : List Ref) (hg : HasGhosts h r gs) : Family h r gs := by
  have hP : ∀ op : Op K, NoIdxChange op → NoCountAssign op := by
    intro op ho
    cases op <;> simp_all [NoIdxChange, NoCountAssign]
  obtain ⟨-, h2, -, h4⟩ := (hr.wf hP).ghosts_lt hg.1 hg.2.2
  refine ⟨hg, h2, fun k g hk => ⟨(h4 g ?_).2.1, C38_creation_order_partial env h hr r gs hg k g hk⟩⟩
  exact List.mem_of_getElem? hk

/-- **C117.** Preparing a detector pair makes the maps of the main beam of A from the coefficients this
beam stands for, with the azimuthal limit it has at this moment, and the maps of each ghost of A from
the coefficients of that ghost, with the limit it has once they are in memory.  Afterwards none of the
beams of the pair holds coefficients, no other beam and no attribute other than the azimuthal limit is
touched, and this limit is the one of the coefficients. -/
theorem C117_maps {D : Type} (env : Env K) (mk : Maker K D) (ground : Option (Maker K D))
    (maxSpin : Int) (h : Heap K) (a : Ref) (gs : List Ref) (B : Option (Ref × List Ref))
    (v : Ref → Val K) (M : Ref → Int) (sy mu : Ref → Val K) (hp : PairOk env h a gs B v M sy mu)
    (M0 : Int) (h0 : (h.cell a).attr .mmax = some (.int M0))
    (da : D) (hm : mk (v a) (.int (min M0 maxSpin)) (sy a) (mu a) = .ok da) (d : Ref → D)
    (hg : ∀ g ∈ gs, mk (v g) (.int (min (M g) maxSpin)) (sy g) (mu g) = .ok (d g)) (gr : Option D)
    (hgr : GroundIs ground (gs.getLast?.elim (v a, .int (min M0 maxSpin)) fun g =>
      (v g, .int (min (M g) maxSpin))) (sy a) (mu a) gr) :
    ∃ h', Exec.run (initDetpair env mk ground maxSpin a (B.map Prod.fst)) h =
        (.ok ⟨da, gr, gs.map fun g => some (d g)⟩, h') ∧
      After (a :: gs ++ B.elim [] fun b => b.1 :: b.2) (a :: gs ++ B.elim [] Prod.snd) M h h' :=
  initDetpair_spec hp.famA hp.famB hp.blm h0 hp.symmetric hp.mueller hm hg hgr

omit [FloorRing K] [IsStrictOrderedRing K] in
/-- After the preparation the pair is ready for the next one. -/
theorem PairOk.after {env : Env K} (hf : LimitFree env) {h h' : Heap K} {a : Ref} {gs : List Ref}
    {B : Option (Ref × List Ref)} {v : Ref → Val K} {M : Ref → Int} {sy mu : Ref → Val K}
    (hp : PairOk env h a gs B v M sy mu)
    (hn : ∀ x ∈ a :: gs ++ B.elim [] Prod.snd, (h.cell x).attr .blm = none)
    (ha : After (a :: gs ++ B.elim [] fun b => b.1 :: b.2) (a :: gs ++ B.elim [] Prod.snd) M h h') :
    PairOk env h' a gs B v M sy mu ∧
      ∀ x ∈ a :: gs ++ B.elim [] Prod.snd, (h'.cell x).attr .blm = none := by
  have fam : ∀ r gs, Family h r gs → Family h' r gs := fun r gs f =>
    ⟨⟨ha.size ▸ f.own.1, (isGhost_congr (ha.attr r .ghost (by simp) (by simp))).trans f.own.2.1,
      (ha.ghosts r).trans f.own.2.2⟩, (ha.attr r _ (by simp) (by simp)).trans f.count,
      fun k g hk => ⟨(isGhost_congr (ha.attr g .ghost (by simp) (by simp))).trans (f.ghost k g hk).1,
        (ha.attr g _ (by simp) (by simp)).trans (f.ghost k g hk).2⟩⟩
  have hnone : ∀ x ∈ a :: gs ++ B.elim [] Prod.snd, (h'.cell x).attr .blm = none := by
    intro x hx
    refine ha.gone x ?_
    rcases List.mem_append.1 hx with hx | hx
    · exact List.mem_append_left _ hx
    · refine List.mem_append_right _ ?_
      cases B with
      | none => cases hx
      | some b => exact List.mem_cons_of_mem _ hx
  refine ⟨⟨fam a gs hp.famA, fun b hb => fam _ _ (hp.famB b hb), fun x hx => ?_,
    fun x hx => (ha.attr x _ (by simp) (by simp)).trans (hp.symmetric x hx),
    fun x hx => (ha.attr x _ (by simp) (by simp)).trans (hp.mueller x hx)⟩, hnone⟩
  have hl : env.loadBlm (h'.cell x).attr = env.loadBlm (h.cell x).attr :=
    hf _ _ fun k h1 h2 => ha.attr x k h1 h2
  have hM := ha.limit x hx
  have hd := hp.blm x hx
  generalize hMx : M x = m at hd hM ⊢
  cases hd with
  | held _ h1 => rw [hn x hx] at h1; cases h1
  | made _ h1 h2 h3 => exact .made _ (hnone x hx) (hl.trans h2) hM
  | file f M1 L h1 h2 h3 h4 =>
    have e := Describes.file (env := env) (v := v x) f _ L (hnone x hx) (hl.trans h2) hM
      ((ha.attr x _ (by simp) (by simp)).trans h4)
    have : (if f < (if f < M1 then min f L else M1) then min f L
        else (if f < M1 then min f L else M1)) = if f < M1 then min f L else M1 := by
      by_cases q : f < M1
      · simp only [if_pos q]
        rw [if_neg (by omega)]
      · simp only [if_neg q]
    rw [this] at e
    exact e

/-- **C117, repetition (a part).** If no coefficients are assigned by hand and the azimuthal limit of the
main beam of A is not lowered by its file, the preparation can be repeated any number of times and
always gives the same maps.  Missing: main beams whose FITS file lowers the limit
(`C117_fits_violation`), coefficients assigned by hand (`C117_handmade_violation`). -/
theorem C117_again_partial {D : Type} (env : Env K) (hf : LimitFree env) (mk : Maker K D)
    (ground : Option (Maker K D)) (maxSpin : Int) (h : Heap K) (a : Ref) (gs : List Ref)
    (B : Option (Ref × List Ref)) (v : Ref → Val K) (M : Ref → Int) (sy mu : Ref → Val K)
    (hp : PairOk env h a gs B v M sy mu)
    (hn : ∀ x ∈ a :: gs ++ B.elim [] Prod.snd, (h.cell x).attr .blm = none)
    (h0 : (h.cell a).attr .mmax = some (.int (M a)))
    (da : D) (hm : mk (v a) (.int (min (M a) maxSpin)) (sy a) (mu a) = .ok da) (d : Ref → D)
    (hg : ∀ g ∈ gs, mk (v g) (.int (min (M g) maxSpin)) (sy g) (mu g) = .ok (d g)) (gr : Option D)
    (hgr : GroundIs ground (gs.getLast?.elim (v a, .int (min (M a) maxSpin)) fun g =>
      (v g, .int (min (M g) maxSpin))) (sy a) (mu a) gr) (n : Nat) :
    (Exec.run (initDetpair env mk ground maxSpin a (B.map Prod.fst))
      ((fun h => (Exec.run (initDetpair env mk ground maxSpin a (B.map Prod.fst)) h).2)^[n] h)).1 =
      .ok ⟨da, gr, gs.map fun g => some (d g)⟩ := by
  induction n generalizing h with
  | zero =>
    obtain ⟨h', e, -⟩ := C117_maps env mk ground maxSpin h a gs B v M sy mu hp _ h0 da hm d hg gr hgr
    rw [Function.iterate_zero, id, e]
  | succ n ih =>
    obtain ⟨h', e, ha⟩ := C117_maps env mk ground maxSpin h a gs B v M sy mu hp _ h0 da hm d hg gr hgr
    obtain ⟨hp', hn'⟩ := hp.after hf hn ha
    rw [Function.iterate_succ_apply]
    have := ih h' hp' hn' (ha.limit a (by simp))
    rw [← this, e]

/-- **C117, repetition with any file.** From the second preparation on the maps do not change any more;
those of the ghosts are the same in the first one, those of the main beam are made with the lowered
limit. -/
theorem C117_settles {D : Type} (env : Env K) (hf : LimitFree env) (mk : Maker K D)
    (maxSpin : Int) (h : Heap K) (a : Ref) (gs : List Ref)
    (B : Option (Ref × List Ref)) (v : Ref → Val K) (M : Ref → Int) (sy mu : Ref → Val K)
    (hp : PairOk env h a gs B v M sy mu)
    (hn : ∀ x ∈ a :: gs ++ B.elim [] Prod.snd, (h.cell x).attr .blm = none)
    (M0 : Int) (h0 : (h.cell a).attr .mmax = some (.int M0))
    (da da' : D) (hm : mk (v a) (.int (min M0 maxSpin)) (sy a) (mu a) = .ok da)
    (hm' : mk (v a) (.int (min (M a) maxSpin)) (sy a) (mu a) = .ok da') (d : Ref → D)
    (hg : ∀ g ∈ gs, mk (v g) (.int (min (M g) maxSpin)) (sy g) (mu g) = .ok (d g)) (n : Nat) :
    (Exec.run (initDetpair env mk none maxSpin a (B.map Prod.fst)) h).1 =
      .ok ⟨da, none, gs.map fun g => some (d g)⟩ ∧
    (Exec.run (initDetpair env mk none maxSpin a (B.map Prod.fst))
      ((fun h => (Exec.run (initDetpair env mk none maxSpin a (B.map Prod.fst)) h).2)^[n + 1] h)).1 =
      .ok ⟨da', none, gs.map fun g => some (d g)⟩ := by
  obtain ⟨h', e, ha⟩ := C117_maps env mk none maxSpin h a gs B v M sy mu hp M0 h0 da hm d hg none rfl
  obtain ⟨hp', hn'⟩ := hp.after hf hn ha
  refine ⟨by rw [e], ?_⟩
  rw [Function.iterate_succ_apply, e]
  exact C117_again_partial env hf mk none maxSpin h' a gs B v M sy mu hp' hn'
    (ha.limit a (by simp)) da' hm' d hg none rfl n

/-! ### concrete pairs -/

namespace Pairs

/-- Gaussian beams are object 1, files are object 2 and FITS files with the azimuthal limit 0. -/
def env : Env ℚ :=
  { pi := 22 / 7, loadBlm := fun a =>
      if a .btype = some (.str "Gaussian") then .ok (.obj 1, none)
      else if a .poFile = some (.str "beam.fits") then .ok (.obj 2, some 0)
      else .error .osError }

/-- Maps that show what they were made of. -/
def mk : Maker ℚ (Val ℚ × Val ℚ) := fun v s _ _ => .ok (v, s)

def after (ops : List (Op ℚ)) : Heap ℚ := ops.foldl (fun h op => op.after env h) emptyHeap

/-- The maps of the first, second and third preparation of A = 0, B = 1. -/
def three (h : Heap ℚ) : List (Except PyErr (List (Option (Val ℚ × Val ℚ)))) :=
  (List.range 3).map fun n => ((Exec.run (initDetpair env mk none 5 0 (some 1))
    ((fun h => (Exec.run (initDetpair env mk none 5 0 (some 1)) h).2)^[n] h)).1).map
      fun sm => some sm.main :: sm.ghosts

/-- A pair of Gaussian beams, A with two ghosts of which the second is read from a FITS file, B with
one ghost. -/
def ops : List (Op ℚ) :=
  [.new [(.lmax, .int 10)], .new [(.lmax, .int 10)], .createGhost 0 none [],
   .createGhost 0 none [(.btype, .str "PO"), (.poFile, .str "beam.fits")], .createGhost 1 none []]

/-- Every operation acts on existing objects. -/
def refs : List (Op ℚ) → Heap ℚ → Bool
  | [], _ => true
  | op :: ops, h => op.refs.all (fun r => decide (r < h.size)) && refs ops (op.after env h)

theorem reachable {P : Op ℚ → Prop} : ∀ (ops : List (Op ℚ)) (h : Heap ℚ),
    Reachable env P h → (∀ op ∈ ops, P op) → refs ops h = true →
    Reachable env P (ops.foldl (fun h op => op.after env h) h)
  | [], h, hr, _, _ => hr
  | op :: ops, h, hr, hP, ho => by
    simp only [refs, Bool.and_eq_true, List.all_eq_true, decide_eq_true_eq] at ho
    exact reachable ops _ (.step op hr (hP op (by simp)) ho.1) (fun o h => hP o (by simp [h])) ho.2

end Pairs

/-- The hypotheses are met by a pair with ghosts. -/
theorem Pairs.ok : PairOk Pairs.env (Pairs.after Pairs.ops) 0 [2, 3] (some (1, [4]))
    (fun r => if r = 3 then .obj 2 else .obj 1) (fun r => if r = 3 then 0 else 10)
    (fun _ => .bool false) (fun _ => .none) := by
  have hr : Reachable Pairs.env NoIdxChange (Pairs.after Pairs.ops) :=
    Pairs.reachable Pairs.ops _ .start (by simp [Pairs.ops, NoIdxChange]) (by decide +kernel)
  refine ⟨C117_family Pairs.env _ hr 0 [2, 3] (by
    refine ⟨?_, ?_, ?_⟩ <;> decide +kernel), fun b hb => ?_, fun x hx => ?_, fun x hx => ?_,
    fun x hx => ?_⟩
  · cases hb
    exact C117_family Pairs.env _ hr 1 [4] (by refine ⟨?_, ?_, ?_⟩ <;> decide +kernel)
  · simp only [Option.elim_some, List.cons_append, List.nil_append, List.mem_cons,
      List.not_mem_nil, or_false] at hx
    rcases hx with rfl | rfl | rfl | rfl
    · exact .made 10 (by decide +kernel) (by decide +kernel) (by decide +kernel)
    · exact .made 10 (by decide +kernel) (by decide +kernel) (by decide +kernel)
    · exact .file 0 10 10 (by decide +kernel) (by decide +kernel) (by decide +kernel)
        (by decide +kernel)
    · exact .made 10 (by decide +kernel) (by decide +kernel) (by decide +kernel)
  · simp only [List.mem_cons, List.not_mem_nil, or_false] at hx
    rcases hx with rfl | rfl | rfl <;> decide +kernel
  · simp only [List.mem_cons, List.not_mem_nil, or_false] at hx
    rcases hx with rfl | rfl | rfl <;> decide +kernel

theorem Pairs.free : LimitFree Pairs.env := by
  intro a a' h
  unfold Pairs.env
  dsimp only
  rw [h .btype (by simp) (by simp), h .poFile (by simp) (by simp)]

example : Pairs.three (Pairs.after Pairs.ops) =
    List.replicate 3 (.ok [some (.obj 1, .int 5), some (.obj 1, .int 5), some (.obj 2, .int 0)]) := by
  decide +kernel

/-- **C117, violation: FITS files.** The main beam of A is read from a FITS file with azimuthal limit 0.
In the first preparation its maps are made with the azimuthal numbers up to 5, in all later ones with
those up to 0: the file was read after `mmax` was looked at, and lowered it. -/
theorem C117_fits_violation : Pairs.three (Pairs.after
      [.new [(.lmax, .int 10), (.btype, .str "PO"), (.poFile, .str "beam.fits")],
       .new [(.lmax, .int 10)]]) =
    [.ok [some (.obj 2, .int 5)], .ok [some (.obj 2, .int 0)], .ok [some (.obj 2, .int 0)]] := by
  decide +kernel

/-- **C117, violation: coefficients assigned by hand.** The first preparation uses the coefficients
(object 9) that were assigned to `beam.blm`, and deletes them; the next ones use a Gaussian beam. -/
theorem C117_handmade_violation : Pairs.three (Pairs.after
      [.new [(.lmax, .int 10)], .new [(.lmax, .int 10)], .setattr 0 .blm (.obj 9)]) =
    [.ok [some (.obj 9, .int 5)], .ok [some (.obj 1, .int 5)], .ok [some (.obj 1, .int 5)]] := by
  decide +kernel

/-- **C117, violation: coefficients that are not used.** A ghost of B whose file cannot be read stops the
preparation, although the maps of B are those of A and of the ghosts of A. -/
theorem C117_unused_violation : Pairs.three (Pairs.after
      [.new [(.lmax, .int 10)], .new [(.lmax, .int 10)], .createGhost 0 none [],
       .createGhost 1 none [(.btype, .str "PO"), (.poFile, .str "missing.npy")]]) =
    List.replicate 3 (.error .osError) := by
  decide +kernel

end Verif.Beam

noncomputable section

namespace Verif.Props

open Verif.Alm Verif.Spin Verif.Spec Verif.Timeline Verif.Spinmaps Complex

/-- A symmetric beam with azimuthal limit below 2 picks nothing of the polarization. -/
theorem convolved_blind (Y : Harmonics) (nside L : Nat) {a a' : Nat → Nat → Nat → ℂ}
    (hI : ∀ l m, a 0 l m = a' 0 l m ∧ a 3 l m = a' 3 l m) {b : Nat → Nat → Nat → ℂ} (hax : AxiSym b)
    (inputV beamV : Bool) (m : Int) (hm : m ≤ 1) (psi : ℝ) (y : Smp) :
    convolved Y nside L (spinsI false m) (spinsP false m) (skyOf inputV a)
      (turned psi (beamOf beamV b)) y =
    convolved Y nside L (spinsI false m) (spinsP false m) (skyOf inputV a')
      (turned psi (beamOf beamV b)) y := by
  have e : (skyOf inputV a).I = (skyOf inputV a').I := by
    unfold skyOf
    rw [show a 0 = a' 0 from funext fun l => funext fun m => (hI l m).1]
  have e' : (skyOf inputV a).V = (skyOf inputV a').V := by
    unfold skyOf
    rw [show a 3 = a' 3 from funext fun l => funext fun m => (hI l m).2]
  have hz : ∀ s ∈ spinsP false m, ∀ l, (turned psi (beamOf beamV b)).P l s = 0 := by
    intro s hs l
    have h2 : s.natAbs ≠ 2 := by
      unfold spinsP at hs
      simp at hs
      omega
    rw [turned_P, beamP]
    rcases Int.lt_or_le s 0 with hneg | hpos
    · rw [beamMode_neg _ _ _ _ hneg, hax.2.2]
      simp
    · obtain ⟨k, rfl⟩ := Int.eq_ofNat_of_zero_le hpos
      rw [beamMode_nat, hax.2.1 l k (by simpa using h2)]
      simp
  unfold convolved
  rw [e, e']
  have hp : ∀ q : Nat → Int → ℂ, ∑ s ∈ spinsP false m, look y (synth Y nside L s fun l m =>
      (turned psi (beamOf beamV b)).P l s * q l m) * exp (-Complex.I * (s : ℂ) * (y.pa : ℂ)) =
      ∑ s ∈ spinsP false m, look y (synth Y nside L s fun _ _ => 0) *
        exp (-Complex.I * (s : ℂ) * (y.pa : ℂ)) := by
    intro q
    refine Finset.sum_congr rfl fun s hs => ?_
    simp only [hz s hs, zero_mul]
  rw [hp, hp]

/-- **C117, violation: polarization is lost.** What this means for a beam that is symmetric around its
axis (but not declared `symmetric`): with an azimuthal limit below 2 the detector does not see the
polarization of the sky at all: it measures the same of every other sky with the same intensity. -/
theorem C117_blind_violation (Y : Harmonics) (hY : Conjugation Y) (x : Ext)
    (hx : ExtOk x) (mission : List Chunks.Chunk)
    {Ls : Nat} {alm alm' : List (List ℂ)} {a a' : Nat → Nat → Nat → ℂ} {maxSpin : Int}
    {inputV beamV : Bool} {main : Detector} {ghosts : List Detector} {Lb : Detector → Nat}
    {b : Detector → Nat → Nat → Nat → ℂ}
    (h : DetectorOk Ls alm a maxSpin inputV beamV main ghosts Lb b)
    (h' : DetectorOk Ls alm' a' maxSpin inputV beamV main ghosts Lb b)
    (ha : RealSky Ls a) (ha' : RealSky Ls a') (hI : ∀ l m, a 0 l m = a' 0 l m ∧ a 3 l m = a' 3 l m)
    (hb : ∀ g ∈ main :: ghosts, RealBeam (Lb g) (b g))
    (hm : ∀ g ∈ main :: ghosts, g.data.mueller = none ∧ g.data.symmetric = false ∧ AxiSym (b g) ∧
      g.data.mmax ≤ 1)
    (nside : Nat) (hns : 0 < nside)
    (s : Sub) (interp savePoint : Bool) (st : State) (i n : Nat)
    (hs : SubOk mission st st.qBore s i n) :
    observe Y x mission alm maxSpin nside inputV beamV main ghosts s interp savePoint st =
      observe Y x mission alm' maxSpin nside inputV beamV main ghosts s interp savePoint st := by
  refine (C71_convolution Y hY x hx mission h ha hb (fun g hg => (hm g hg).1) nside hns s interp
    savePoint st i n hs _ (fun _ _ => rfl)).trans ?_
  refine Eq.symm ((C71_convolution Y hY x hx mission h' ha' hb (fun g hg => (hm g hg).1) nside hns s
    interp savePoint st i n hs _ (fun _ _ => rfl)).trans ?_)
  refine congrArg Except.ok (List.map_congr_left fun k _ => ?_)
  have key : ∀ g ∈ main :: ghosts, ∀ (y : Smp) (psi : ℝ),
      convolved Y nside (min Ls (Lb g)) (spinsI g.data.symmetric (min g.data.mmax maxSpin))
        (spinsP g.data.symmetric (min g.data.mmax maxSpin)) (skyOf inputV a')
        (turned psi (beamOf beamV (b g))) y =
      convolved Y nside (min Ls (Lb g)) (spinsI g.data.symmetric (min g.data.mmax maxSpin))
        (spinsP g.data.symmetric (min g.data.mmax maxSpin)) (skyOf inputV a)
        (turned psi (beamOf beamV (b g))) y := by
    intro g hg y psi
    obtain ⟨-, hsym, hax, hmm⟩ := hm g hg
    rw [hsym]
    exact (convolved_blind Y nside _ hI hax inputV beamV _ (le_trans (min_le_left _ _) hmm) psi y).symm
  have hl : ∀ (l : List Detector) (f f' : Detector → ℝ), (∀ g ∈ l, f g = f' g) →
      (l.map f).sum = (l.map f').sum := fun l f f' h => by rw [List.map_congr_left h]
  exact congrArg₂ (· + ·) (key main List.mem_cons_self _ _)
    (hl _ _ _ fun g hg => key g (List.mem_cons_of_mem _ (List.mem_filter.1 hg).1) _ _)

/-- The detector of the examples with another azimuthal limit. -/
def Conv.limited (mmax : Int) : Detector :=
  ⟨(Conv.det none 0 false).point, { (Conv.det none 0 false).data with mmax := mmax }⟩

theorem Conv.limited_ok (a : Nat → Nat → Nat → ℂ) (mmax : Int) (h0 : 0 ≤ mmax) :
    DetectorOk 4 (Conv.rows 4 3 a) a 4 false false (Conv.limited mmax) [] (fun _ => 4)
      (fun _ => Conv.symb) := by
  refine ⟨rfl, rfl, ?_, by simp, ⟨0, ?_⟩, by simp⟩
  · intro g hg
    have hg : g = Conv.limited mmax := by simpa using hg
    subst hg
    exact ⟨Conv.rows_ok _ _ _, Conv.rows_ok _ _ _, by simp, by simp,
      by simp [Conv.limited, Conv.det, h0], by simp [Conv.limited, Conv.det], by simp, by simp⟩
  · intro n
    simp

/-- The hypotheses of `C117_blind_violation` are met: a sky of one E mode and one of one B mode. -/
example : observe Conv.Y Demo.ext Demo.mission (Conv.rows 4 3 (Conv.one 1)) 4 1 false false
      (Conv.limited 1) [] Demo.sub true true Demo.st =
    observe Conv.Y Demo.ext Demo.mission (Conv.rows 4 3 (Conv.one 2)) 4 1 false false
      (Conv.limited 1) [] Demo.sub true true Demo.st :=
  C117_blind_violation Conv.Y Conv.Y_conj Demo.ext Demo.ext_ok Demo.mission
    (Conv.limited_ok _ 1 (by norm_num)) (Conv.limited_ok _ 1 (by norm_num)) (Conv.one_real 1 4)
    (Conv.one_real 2 4) (fun l m => by simp [Conv.one]) (fun _ _ => Conv.symb_real _) (by
      intro g hg
      rw [List.mem_singleton.1 hg]
      exact ⟨rfl, rfl, Conv.symb_sym, by simp [Conv.limited]⟩) 1 one_pos Demo.sub true true Demo.st 1 2
    Demo.sub_ok

/-- **C117, violation: a concrete case.** With the azimuthal limit 4 of its coefficients the detector
sees a sky of one E mode, with the limit 0 it sees nothing. -/
theorem C117_polarization_violation :
    observe Conv.Y Demo.ext Demo.mission (Conv.rows 4 3 (Conv.one 1)) 4 1 false false
      (Conv.limited 4) [] Demo.sub false true { Demo.st with hwpAng := none } = .ok [-3, -3] ∧
    observe Conv.Y Demo.ext Demo.mission (Conv.rows 4 3 (Conv.one 1)) 4 1 false false
      (Conv.limited 0) [] Demo.sub false true { Demo.st with hwpAng := none } = .ok [0, 0] := by
  have hs : SubOk Demo.mission { Demo.st with hwpAng := none } Demo.st.qBore Demo.sub 1 2 :=
    ⟨Demo.sub_ok.chunk, Demo.sub_ok.times, Demo.sub_ok.bore, fun _ e => by cases e⟩
  constructor
  · refine (C74_symmetric Conv.Y Demo.ext Demo.ext_ok Demo.mission
      (Conv.limited_ok (Conv.one 1) 4 (by norm_num)) (by
        intro g hg
        rw [List.mem_singleton.1 hg]
        exact ⟨rfl, Conv.symb_sym, by simp [Conv.limited]⟩) 1 one_pos Demo.sub false true _ 1 2
      hs).trans C72_violation.2.2
  · rw [observe_spec Conv.Y Demo.ext Demo.ext_ok Demo.mission
      (Conv.limited_ok (Conv.one 1) 0 le_rfl) 1 one_pos Demo.sub false true _ 1 2 hs]
    have hv := values_sym Conv.Y 1 4 (Conv.one 1) Conv.symb Conv.symb_sym none false false
    have h00 : ∀ p, values Conv.Y 1 4 (Conv.one 1) Conv.symb none false false .s0a0 0 p = 0 := by
      intro p
      show rawReal _ _ _ _ _ _ _ + 0 = 0
      rw [Conv.rawReal_sky 1 4 _ _ _ _ fun l m => by simp [Conv.one], add_zero]
    have h4 : ∀ p, values Conv.Y 1 4 (Conv.one 1) Conv.symb none false false .s2a4 0 p = 0 :=
      fun p => (hv 0 p).2.1 (by norm_num)
    have key : ∀ k, signal (dictOf Conv.Y 1 4 (Conv.one 1) 4 false false (fun _ => 4)
        (fun _ => Conv.symb) (Conv.limited 0)) ((Conv.limited 0).point.polang * Real.pi / 180)
        (sampleOf Demo.ext { Demo.st with hwpAng := none } false 1 1 (Conv.limited 0).point k) = 0 := by
      intro k
      rw [Conv.sample]
      unfold dictOf
      rw [signal_dictSpec Conv.Y 1 _ _ _ _ (by simp [Conv.limited]) _ _ _ _ _ _ (by
        intro iw hiw
        have : iw = (3, 1) := by simpa using hiw
        subst this
        norm_num)]
      have e1 : spinsUnpol (Conv.limited 0).data.symmetric (min (Conv.limited 0).data.mmax 4) = [0] := by
        decide
      have e2 : spinsPol (Conv.limited 0).data.symmetric (min (Conv.limited 0).data.mmax 4) = [0] := by
        decide
      rw [e1, e2]
      unfold signalF sumC sumR
      simp [Conv.limited, Conv.det, look_zero _ _ h00, look_zero _ _ h4]
    simp only [key]
    simp [List.range_succ]

end Verif.Props
