import Verif.Spec.BeamLinear
import Verif.Lemmas.BeamLinear
import Verif.Props.WholeScans

/-!
# Property C137: maps are linear in the beams
-/

noncomputable section

namespace Verif.Props

open Verif.Chunks Verif.Timeline Verif.Spinmaps Verif.MapMaking Verif.ScanInstrument Verif.Spec

variable {E : Type}

theorem addBeam_input {Ls Lb : Nat} {alm : List (List ℂ)} {g g' : BeamData}
    {a b b' : Nat → Nat → Nat → ℂ} {maxSpin : Int} {inputV beamV : Bool} (c : ℝ)
    (h : InputOk Ls Lb alm g.blm a b (min g.mmax maxSpin) g.symmetric g.mueller inputV beamV)
    (h' : InputOk Ls Lb alm g'.blm a b' (min g'.mmax maxSpin) g'.symmetric g'.mueller inputV beamV) :
    InputOk Ls Lb alm (addBeam c g g').blm a (fun i l m => b i l m + c * b' i l m)
      (min g.mmax maxSpin) g.symmetric g.mueller inputV beamV :=
  ⟨h.sky, addSky_rows c h.beam h'.beam, h.skyV, fun e => by
    show (addSky c g.blm g'.blm).length = 4
    unfold addSky
    rw [List.length_zipWith, h.beamV e, h'.beamV e, min_self], h.spin0, h.spin, h.sym, h.mueller⟩

/-- The spin maps of a beam. -/
abbrev made (Y : Harmonics) (alm : List (List ℂ)) (maxSpin : Int) (nside : Nat) (inputV beamV : Bool)
    (g : BeamData) : PyM SpinDict :=
  spinmapsOf Y alm g.blm (min g.mmax maxSpin) nside g.symmetric g.mueller inputV beamV

/-- The spin maps of a beam are there, and are those for which signals are `f`. -/
def Sees (Y : Harmonics) (alm : List (List ℂ)) (maxSpin : Int) (nside : Nat) (inputV beamV : Bool)
    (g : BeamData) (f : ℝ → Smp → ℝ) : Prop :=
  ∃ D, made Y alm maxSpin nside inputV beamV g = .ok D ∧ DictOk (12 * nside ^ 2) D ∧
    ∀ psi y, InRange nside y → signal D psi y = f psi y

theorem sees_add (Y : Harmonics) {Ls Lb : Nat} {alm : List (List ℂ)} {g g' : BeamData}
    {a b b' : Nat → Nat → Nat → ℂ} {maxSpin : Int} {nside : Nat} {inputV beamV : Bool} (c : ℝ)
    (hal : Alike g g')
    (h : InputOk Ls Lb alm g.blm a b (min g.mmax maxSpin) g.symmetric g.mueller inputV beamV)
    (h' : InputOk Ls Lb alm g'.blm a b' (min g'.mmax maxSpin) g'.symmetric g'.mueller inputV beamV) :
    ∃ f f', Sees Y alm maxSpin nside inputV beamV g f ∧ Sees Y alm maxSpin nside inputV beamV g' f' ∧
      Sees Y alm maxSpin nside inputV beamV (addBeam c g g') fun psi y => f psi y + c * f' psi y := by
  refine ⟨_, _, ⟨_, spinmapsOf_spec Y nside h, dictF_ok nside _ _ _ h.spin0 _, fun _ _ _ => rfl⟩,
    ⟨_, spinmapsOf_spec Y nside h', dictF_ok nside _ _ _ h'.spin0 _, fun _ _ _ => rfl⟩,
    ⟨_, spinmapsOf_spec Y nside (addBeam_input c h h'), dictF_ok nside _ _ _ h.spin0 _, ?_⟩⟩
  intro psi y hy
  have h0 := h.spin0
  dsimp only [addBeam]
  rw [hal.mmax, hal.symmetric, hal.mueller, signal_dictSpec Y nside _ _ _ _ h0 _ _ _ _ psi y hy,
    signal_dictSpec Y nside _ _ _ _ h0 _ _ _ _ psi y hy,
    signal_dictSpec Y nside _ _ _ _ h0 _ _ _ _ psi y hy, values_beam, signalF_lin]

theorem pair_spin (w : World E) (Y : Harmonics) {maxSpin : Int} {nside : Nat} (hns : 0 < nside)
    {inputV beamV : Bool} {data : BinBeam → BeamData} {gdata : BinBeam → List BeamData}
    {alm : List (List ℂ)} {d : BinBeam} {e : Option BinBeam}
    (hD : ∀ g ∈ data d :: gdata d, ∃ D, made Y alm maxSpin nside inputV beamV g = .ok D ∧
      DictOk (12 * nside ^ 2) D)
    (hnum : ∃ k : Nat, ∀ n : Int, (∃ g ∈ gdata d, g.ghostIdx = n) ↔ 0 ≤ n ∧ n < k)
    (hsh : ∀ g ∈ gdata d, ∀ g' ∈ gdata d, g.ghostIdx = g'.ghostIdx → g = g')
    (hmain : ∀ f, (live (some d) = some f ∨ live e = some f) → f.beam.ghost = false ∧
      ∀ g ∈ f.ghosts, g.dead = false → g.ghost = true ∧ ∃ g' ∈ gdata d, g'.ghostIdx = g.ghostIdx) :
    ∃ sm, MapsOk (under w Y maxSpin nside inputV beamV data gdata alm) nside sm (some d, e) ∧
      made Y alm maxSpin nside inputV beamV (data d) = .ok sm.main ∧
      ∀ g ∈ gdata d, ∃ D, made Y alm maxSpin nside inputV beamV g = .ok D ∧
        pyGet sm.ghosts g.ghostIdx = .ok (some D) := by
  obtain ⟨k, hk⟩ := hnum
  have hE : ∀ g : BeamData, ∃ D, g ∈ data d :: gdata d →
      made Y alm maxSpin nside inputV beamV g = .ok D ∧ DictOk (12 * nside ^ 2) D := by
    intro g
    by_cases hg : g ∈ data d :: gdata d
    · obtain ⟨D, h⟩ := hD g hg
      exact ⟨D, fun _ => h⟩
    · exact ⟨[], fun h => (hg h).elim⟩
  choose D hE using hE
  obtain ⟨sm, m1, m2, m3, m4⟩ := C57_lookup_partial (fun d : BeamData => d.ghostIdx)
    (made Y alm maxSpin nside inputV beamV)
    (data d) (gdata d) k hk _ (hE _ List.mem_cons_self).1 D
    (fun g hg => (hE g (List.mem_cons_of_mem _ hg)).1) (by
      intro g hg g' hg' e
      rw [hsh g hg g' hg' e])
  refine ⟨sm, .inr ⟨d, rfl, m1, hns, fun f hf => ⟨(hmain f hf).1, ?_, ?_⟩⟩, ?_, fun g hg => ?_⟩
  · rw [m2]
    exact (hE _ List.mem_cons_self).2
  · intro g hg hd
    obtain ⟨g1, g', hg', e'⟩ := (hmain f hf).2 g hg hd
    refine ⟨g1, _, ?_, (hE g' (List.mem_cons_of_mem _ hg')).2⟩
    rw [← e']
    exact m4 g' hg'
  · rw [m2]
    exact (hE _ List.mem_cons_self).1
  · exact ⟨_, (hE g (List.mem_cons_of_mem _ hg)).1, m4 g hg⟩

theorem forall2_mem {α β : Type} {R : α → β → Prop} {l : List α} {l' : List β}
    (h : List.Forall₂ R l l') : (∀ x ∈ l, ∃ y ∈ l', R x y) ∧ ∀ y ∈ l', ∃ x ∈ l, R x y := by
  induction h with
  | nil => simp
  | cons hxy _ ih =>
    obtain ⟨i1, i2⟩ := ih
    refine ⟨fun x hx => ?_, fun y hy => ?_⟩
    · rcases List.mem_cons.1 hx with rfl | hx
      · exact ⟨_, List.mem_cons_self, hxy⟩
      · obtain ⟨y, h1, h2⟩ := i1 x hx
        exact ⟨y, List.mem_cons_of_mem _ h1, h2⟩
    · rcases List.mem_cons.1 hy with rfl | hy
      · exact ⟨_, List.mem_cons_self, hxy⟩
      · obtain ⟨x, h1, h2⟩ := i2 y hy
        exact ⟨x, List.mem_cons_of_mem _ h1, h2⟩

theorem forall2_zip {α β γ : Type} {R : α → β → Prop} (f : α → β → γ) {l : List α} {l' : List β}
    (h : List.Forall₂ R l l') : (∀ z ∈ List.zipWith f l l', ∃ x ∈ l, ∃ y ∈ l', R x y ∧ z = f x y) ∧
      ∀ x ∈ l, ∃ y ∈ l', R x y ∧ f x y ∈ List.zipWith f l l' := by
  induction h with
  | nil => simp
  | cons hxy _ ih =>
    obtain ⟨i1, i2⟩ := ih
    rw [List.zipWith_cons_cons]
    refine ⟨fun z hz => ?_, fun x hx => ?_⟩
    · rcases List.mem_cons.1 hz with rfl | hz
      · exact ⟨_, List.mem_cons_self, _, List.mem_cons_self, hxy, rfl⟩
      · obtain ⟨x, h1, y, h2, h3⟩ := i1 z hz
        exact ⟨x, List.mem_cons_of_mem _ h1, y, List.mem_cons_of_mem _ h2, h3⟩
    · rcases List.mem_cons.1 hx with rfl | hx
      · exact ⟨_, List.mem_cons_self, hxy, List.mem_cons_self⟩
      · obtain ⟨y, h1, h2, h3⟩ := i2 x hx
        exact ⟨y, List.mem_cons_of_mem _ h1, h2, List.mem_cons_of_mem _ h3⟩

theorem forall2_imp {α β : Type} {R S : α → β → Prop} {l : List α} {l' : List β}
    (h : List.Forall₂ R l l') (hi : ∀ x ∈ l, ∀ y ∈ l', R x y → S x y) : List.Forall₂ S l l' := by
  induction h with
  | nil => exact .nil
  | cons hxy _ ih =>
    exact .cons (hi _ List.mem_cons_self _ List.mem_cons_self hxy)
      (ih fun x hx y hy => hi x (List.mem_cons_of_mem _ hx) y (List.mem_cons_of_mem _ hy))

/-- What is needed of two sets of beams for a pair. -/
structure Both (Ls : Nat) (alm : List (List ℂ)) (a : Nat → Nat → Nat → ℂ) (maxSpin : Int)
    (inputV beamV : Bool) (l l' : List BeamData) : Prop where
  all : List.Forall₂ (fun g g' => Alike g g' ∧ ∃ Lb b b',
    InputOk Ls Lb alm g.blm a b (min g.mmax maxSpin) g.symmetric g.mueller inputV beamV ∧
    InputOk Ls Lb alm g'.blm a b' (min g'.mmax maxSpin) g'.symmetric g'.mueller inputV beamV) l l'

/-- Numbers of ghosts, and ghosts of the live detectors. -/
structure Ghosts (gdata : BinBeam → List BeamData) (d : BinBeam) (e : Option BinBeam) : Prop where
  numbers : ∃ k : Nat, ∀ n : Int, (∃ g ∈ gdata d, g.ghostIdx = n) ↔ 0 ≤ n ∧ n < k
  share : ∀ g ∈ gdata d, ∀ g' ∈ gdata d, g.ghostIdx = g'.ghostIdx → g = g'
  main : ∀ f, (live (some d) = some f ∨ live e = some f) → f.beam.ghost = false ∧
    ∀ g ∈ f.ghosts, g.dead = false → g.ghost = true ∧ ∃ g' ∈ gdata d, g'.ghostIdx = g.ghostIdx

theorem linear_core (w : World E) (M : Motion) (o : Opts) (N : Nat) (chunks : List Chunk) (i : Inst E)
    (hs : Session w M o N chunks i) (Y : Harmonics) (maxSpin : Int) (nside : Nat) (hns : 0 < nside)
    (inputV beamV : Bool) (data1 data2 : BinBeam → BeamData) (gdata1 gdata2 : BinBeam → List BeamData)
    (Ls : Nat) (sky : List (List ℂ)) (a : Nat → Nat → Nat → ℂ) (beams : List Pair)
    (hp : ∀ p ∈ beams, p = (none, none) ∨ ∃ d, p.1 = some d ∧
      Ghosts gdata1 d p.2 ∧ Ghosts gdata2 d p.2 ∧
      Both Ls sky a maxSpin inputV beamV (data1 d :: gdata1 d) (data2 d :: gdata2 d)) (c : ℝ)
    (size : Nat) (hsize : 0 < size) :
    let scan := fun data gdata => scanAll (under w Y maxSpin nside inputV beamV data gdata sky) o beams
      true size i
    ∃ m1 m2, scan data1 gdata1 = .ok m1 ∧ scan data2 gdata2 = .ok m2 ∧
      m1.map (·.proj) = m2.map (·.proj) ∧
      scan (fun d => addBeam c (data1 d) (data2 d))
          (fun d => List.zipWith (addBeam c) (gdata1 d) (gdata2 d)) =
        .ok (List.zipWith (fun c1 c2 => ⟨c1.vec + c • c2.vec, c1.proj⟩) m1 m2) := by
  intro scan
  set data3 : BinBeam → BeamData := fun d => addBeam c (data1 d) (data2 d) with hdata3
  set gdata3 : BinBeam → List BeamData := fun d => List.zipWith (addBeam c) (gdata1 d) (gdata2 d)
    with hgdata3
  have hmaps : ∀ p : Pair, ∃ s1 s2 s3 : Spinmaps SpinDict, p ∈ beams →
      (MapsOk (under w Y maxSpin nside inputV beamV data1 gdata1 sky) nside s1 p ∧
      MapsOk (under w Y maxSpin nside inputV beamV data2 gdata2 sky) nside s2 p ∧
      MapsOk (under w Y maxSpin nside inputV beamV data3 gdata3 sky) nside s3 p) ∧
      ∀ f, (live p.1 = some f ∨ live p.2 = some f) → ∀ t,
        detects M w.x o.interp nside s3 f t = detects M w.x o.interp nside s1 f t +
          c * detects M w.x o.interp nside s2 f t := by
    intro p
    by_cases hb : p ∈ beams
    swap
    · exact ⟨⟨[], none, []⟩, ⟨[], none, []⟩, ⟨[], none, []⟩, fun h => (hb h).elim⟩
    rcases hp p hb with rfl | ⟨d, hd, k1, k2, ⟨hall⟩⟩
    · refine ⟨⟨[], none, []⟩, ⟨[], none, []⟩, ⟨[], none, []⟩, fun _ =>
        ⟨⟨.inl rfl, .inl rfl, .inl rfl⟩, ?_⟩⟩
      rintro f (h | h) <;> cases h
    obtain ⟨p1, e⟩ := p
    dsimp only at hd k1 k2
    subst hd
    obtain ⟨hm0, hg0⟩ := List.forall₂_cons.1 hall
    obtain ⟨z1, z2⟩ := forall2_zip (addBeam c) hg0
    have hsee : ∀ g g', (Alike g g' ∧ ∃ Lb b b',
          InputOk Ls Lb sky g.blm a b (min g.mmax maxSpin) g.symmetric g.mueller inputV beamV ∧
          InputOk Ls Lb sky g'.blm a b' (min g'.mmax maxSpin) g'.symmetric g'.mueller inputV beamV) →
        ∃ f f', Sees Y sky maxSpin nside inputV beamV g f ∧
          Sees Y sky maxSpin nside inputV beamV g' f' ∧
          Sees Y sky maxSpin nside inputV beamV (addBeam c g g') fun psi y =>
            f psi y + c * f' psi y := by
      rintro g g' ⟨hal, Lb, b, b', i1, i2⟩
      exact sees_add Y c hal i1 i2
    have dict1 : ∀ g ∈ data1 d :: gdata1 d, ∃ D, made Y sky maxSpin nside inputV beamV g = .ok D ∧
        DictOk (12 * nside ^ 2) D := by
      intro g hg
      obtain ⟨g', -, h⟩ := (forall2_mem hall).1 g hg
      obtain ⟨_, _, ⟨D, h1, h2, -⟩, -⟩ := hsee g g' h
      exact ⟨D, h1, h2⟩
    have dict2 : ∀ g ∈ data2 d :: gdata2 d, ∃ D, made Y sky maxSpin nside inputV beamV g = .ok D ∧
        DictOk (12 * nside ^ 2) D := by
      intro g hg
      obtain ⟨g', -, h⟩ := (forall2_mem hall).2 g hg
      obtain ⟨_, _, -, ⟨D, h1, h2, -⟩, -⟩ := hsee g' g h
      exact ⟨D, h1, h2⟩
    have dict3 : ∀ g ∈ data3 d :: gdata3 d, ∃ D, made Y sky maxSpin nside inputV beamV g = .ok D ∧
        DictOk (12 * nside ^ 2) D := by
      intro g hg
      rcases List.mem_cons.1 hg with rfl | hg
      · obtain ⟨_, _, -, -, D, h1, h2, -⟩ := hsee _ _ hm0
        exact ⟨D, h1, h2⟩
      · obtain ⟨x, hx, y, hy, hxy, rfl⟩ := z1 g hg
        obtain ⟨_, _, -, -, D, h1, h2, -⟩ := hsee _ _ hxy
        exact ⟨D, h1, h2⟩
    have idx3 : ∀ n : Int, (∃ g ∈ gdata3 d, g.ghostIdx = n) ↔ ∃ g ∈ gdata1 d, g.ghostIdx = n := by
      intro n
      constructor
      · rintro ⟨g, hg, e⟩
        obtain ⟨x, hx, y, hy, hxy, rfl⟩ := z1 g hg
        exact ⟨x, hx, e⟩
      · rintro ⟨x, hx, e⟩
        obtain ⟨y, hy, hxy, h⟩ := z2 x hx
        exact ⟨_, h, e⟩
    obtain ⟨s1, x1, y1, w1⟩ := pair_spin w Y hns dict1 k1.numbers k1.share k1.main
    obtain ⟨s2, x2, y2, w2⟩ := pair_spin w Y hns dict2 k2.numbers k2.share k2.main
    obtain ⟨s3, x3, y3, w3⟩ := pair_spin (data := data3) (gdata := gdata3) (e := e) w Y hns dict3 (by
      obtain ⟨k, hk⟩ := k1.numbers
      exact ⟨k, fun n => (idx3 n).trans (hk n)⟩) (by
      intro g hg g' hg' eq
      obtain ⟨x, hx, y, hy, hxy, rfl⟩ := z1 g hg
      obtain ⟨x', hx', y', hy', hxy', rfl⟩ := z1 g' hg'
      have q1 := k1.share x hx x' hx' eq
      have q2 := k2.share y hy y' hy' (by
        rw [hxy.1.ghostIdx, hxy'.1.ghostIdx]
        exact eq)
      rw [q1, q2]) (by
      intro f hf
      obtain ⟨h1, h2⟩ := k1.main f hf
      refine ⟨h1, fun g hg hd => ?_⟩
      obtain ⟨h3, h4⟩ := h2 g hg hd
      exact ⟨h3, (idx3 _).2 h4⟩)
    refine ⟨s1, s2, s3, fun _ => ⟨⟨x1, x2, x3⟩, ?_⟩⟩
    intro f hf t
    have hr : ∀ g : Timeline.Beam, InRange nside (sampleAt w.x o.interp (offset w.x (M.rot t) g) nside
        (M.time t) (M.bore t) (M.alpha t)) := fun g =>
      sampleAt_inRange w.x hs.ext o.interp _ nside hns _ _ _
    have hone : ∀ g g', (Alike g g' ∧ ∃ Lb b b',
          InputOk Ls Lb sky g.blm a b (min g.mmax maxSpin) g.symmetric g.mueller inputV beamV ∧
          InputOk Ls Lb sky g'.blm a b' (min g'.mmax maxSpin) g'.symmetric g'.mueller inputV beamV) →
        ∀ D1 D2 D3, made Y sky maxSpin nside inputV beamV g = .ok D1 →
          made Y sky maxSpin nside inputV beamV g' = .ok D2 →
          made Y sky maxSpin nside inputV beamV (addBeam c g g') = .ok D3 → ∀ psi y,
          InRange nside y → signal D3 psi y = signal D1 psi y + c * signal D2 psi y := by
      intro g g' hal D1 D2 D3 e1 e2 e3 psi y hy
      obtain ⟨f, f', ⟨D, u1, -, u2⟩, ⟨D', v1, -, v2⟩, ⟨D'', t1, -, t2⟩⟩ := hsee g g' hal
      obtain rfl := Except.ok.inj (u1.symm.trans e1)
      obtain rfl := Except.ok.inj (v1.symm.trans e2)
      obtain rfl := Except.ok.inj (t1.symm.trans e3)
      rw [u2 psi y hy, v2 psi y hy, t2 psi y hy]
    have hmain : M.signal w.x o.interp nside s3.main f.beam t =
        M.signal w.x o.interp nside s1.main f.beam t +
          c * M.signal w.x o.interp nside s2.main f.beam t := by
      unfold Motion.signal
      exact hone _ _ hm0 _ _ _ y1 y2 y3 _ _ (hr _)
    have hgh : ∀ g ∈ f.ghosts, g.dead = false → M.signal w.x o.interp nside (ghostMaps s3 g) g t =
        M.signal w.x o.interp nside (ghostMaps s1 g) g t +
          c * M.signal w.x o.interp nside (ghostMaps s2 g) g t := by
      intro g hg hd
      obtain ⟨-, g', hg', e'⟩ := (k1.main f hf).2 g hg hd
      obtain ⟨g'', hg'', hal, hz⟩ := z2 g' hg'
      obtain ⟨D1, q1, r1⟩ := w1 g' hg'
      obtain ⟨D2, q2, r2⟩ := w2 g'' hg''
      obtain ⟨D3, q3, r3⟩ := w3 _ hz
      rw [e'] at r1
      rw [hal.1.ghostIdx, e'] at r2
      have e3 : (addBeam c g' g'').ghostIdx = g.ghostIdx := e'
      rw [e3] at r3
      unfold Motion.signal ghostMaps
      rw [r1, r2, r3]
      exact hone _ _ hal _ _ _ q1 q2 q3 _ _ (hr _)
    unfold detects
    rw [hmain]
    have hsum : ∀ l : List Timeline.Beam, (∀ g ∈ l, g ∈ f.ghosts ∧ g.dead = false) →
        (l.map fun g => M.signal w.x o.interp nside (ghostMaps s3 g) g t).sum =
        (l.map fun g => M.signal w.x o.interp nside (ghostMaps s1 g) g t).sum +
        c * (l.map fun g => M.signal w.x o.interp nside (ghostMaps s2 g) g t).sum := by
      intro l hl
      induction l with
      | nil => simp
      | cons g l ih =>
        simp only [List.map_cons, List.sum_cons]
        rw [hgh g (hl g List.mem_cons_self).1 (hl g List.mem_cons_self).2,
          ih fun g hg => hl g (List.mem_cons_of_mem _ hg)]
        ring
    rw [hsum _ fun g hg => by
      obtain ⟨g1, g2⟩ := List.mem_filter.1 hg
      exact ⟨g1, by simpa using g2⟩]
    ring
  choose s1 s2 s3 hsm using hmaps
  have r1 : scan data1 gdata1 = .ok (mapsOf (12 * w.nsideOut ^ 2) (beams.flatMap fun p =>
      missionObs w M o N (detects M w.x o.interp nside (s1 p)) p)) :=
    session_maps (session_under hs Y maxSpin nside inputV beamV data1 gdata1 sky)
      (fun p h => (hsm p h).1.1) hsize
  have r2 : scan data2 gdata2 = .ok (mapsOf (12 * w.nsideOut ^ 2) (beams.flatMap fun p =>
      missionObs w M o N (detects M w.x o.interp nside (s2 p)) p)) :=
    session_maps (session_under hs Y maxSpin nside inputV beamV data2 gdata2 sky)
      (fun p h => (hsm p h).1.2.1) hsize
  have r3 : scan data3 gdata3 = .ok (mapsOf (12 * w.nsideOut ^ 2) (beams.flatMap fun p =>
      missionObs w M o N (detects M w.x o.interp nside (s3 p)) p)) :=
    session_maps (session_under hs Y maxSpin nside inputV beamV data3 gdata3 sky)
      (fun p h => (hsm p h).1.2.2) hsize
  have hc : Comb c (beams.flatMap fun p => missionObs w M o N (detects M w.x o.interp nside (s1 p)) p)
      (beams.flatMap fun p => missionObs w M o N (detects M w.x o.interp nside (s2 p)) p)
      (beams.flatMap fun p => missionObs w M o N (detects M w.x o.interp nside (s3 p)) p) := by
    apply Comb.flatMap
    intro p h
    unfold missionObs
    apply Comb.flatMap
    intro t _
    exact pairObs_comb _ _ _ _ _ _ _ _ _ _ p t fun f hf => (hsm p h).2 f hf t
  refine ⟨_, _, r1, r2, ?_, r3.trans ?_⟩
  · unfold mapsOf
    rw [List.map_map, List.map_map]
    apply List.map_congr_left
    intro p _
    exact ((hc.cell p).2.2).symm
  · congr 1
    unfold mapsOf
    rw [List.zipWith_map, List.zipWith_self]
    apply List.map_congr_left
    intro p _
    obtain ⟨h1, h2, -⟩ := hc.cell p
    exact Cell.ext h1 h2

/-- **C137.** A whole scan is linear in the beams, for all focal planes with ghosts, non-ideal plates
and cross-talk, and any number of ranks: if the coefficients of every beam and every ghost are those of
a first set plus `c` times those of a second set, the binned signal is that of the first set plus `c`
times that of the second, and hits and angles do not depend on the beams. -/
theorem C137_linear (w : World E) (M : Motion) (o : Opts) (N : Nat) (chunks : List Chunk) (i : Inst E)
    (hs : Session w M o N chunks i) (Y : Harmonics) (maxSpin : Int) (nside : Nat) (hns : 0 < nside)
    (inputV beamV : Bool) (data1 data2 : BinBeam → BeamData) (gdata1 gdata2 : BinBeam → List BeamData)
    (Ls : Nat) (sky : List (List ℂ)) (a : Nat → Nat → Nat → ℂ) (L1 L2 : BeamData → Nat)
    (b1 b2 : BeamData → Nat → Nat → Nat → ℂ) (beams : List Pair)
    (hp : ∀ p ∈ beams, p = (none, none) ∨ ∃ d, p.1 = some d ∧
      PairOk Ls sky a maxSpin inputV beamV data1 gdata1 L1 b1 d p.2 ∧
      PairOk Ls sky a maxSpin inputV beamV data2 gdata2 L2 b2 d p.2 ∧
      List.Forall₂ (fun g g' => Alike g g' ∧ L1 g = L2 g') (data1 d :: gdata1 d)
        (data2 d :: gdata2 d)) (c : ℝ)
    (size : Nat) (hsize : 0 < size) :
    let scan := fun data gdata => scanAll (under w Y maxSpin nside inputV beamV data gdata sky) o beams
      true size i
    ∃ m1 m2, scan data1 gdata1 = .ok m1 ∧ scan data2 gdata2 = .ok m2 ∧
      m1.map (·.proj) = m2.map (·.proj) ∧
      scan (fun d => addBeam c (data1 d) (data2 d))
          (fun d => List.zipWith (addBeam c) (gdata1 d) (gdata2 d)) =
        .ok (List.zipWith (fun c1 c2 => ⟨c1.vec + c • c2.vec, c1.proj⟩) m1 m2) := by
  refine linear_core w M o N chunks i hs Y maxSpin nside hns inputV beamV data1 data2 gdata1 gdata2 Ls
    sky a beams (fun p h => ?_) c size hsize
  rcases hp p h with h | ⟨d, h1, k1, k2, h2⟩
  · exact .inl h
  · refine .inr ⟨d, h1, ⟨k1.numbers, k1.share, k1.main⟩, ⟨k2.numbers, k2.share, k2.main⟩, ⟨?_⟩⟩
    refine forall2_imp h2 fun g hg g' hg' ⟨hal, hL⟩ => ⟨hal, L1 g, b1 g, b2 g', k1.input g hg, ?_⟩
    rw [hL]
    exact k2.input g' hg'

theorem add_self (c : ℝ) (g : BeamData) : addBeam c g g = times (1 + c) g := by
  unfold addBeam times addSky
  congr 1
  rw [List.zipWith_self]
  apply List.map_congr_left
  intro r _
  rw [List.zipWith_self]
  apply List.map_congr_left
  intro x _
  push_cast
  ring

theorem add_zero (c : ℝ) (g : BeamData) : addBeam c g (times 0 g) = g := by
  obtain ⟨blm, _, _, _, _⟩ := g
  unfold addBeam times addSky
  congr 1
  rw [List.zipWith_map_right, List.zipWith_self]
  conv_rhs => rw [← List.map_id blm]
  apply List.map_congr_left
  intro r _
  rw [List.zipWith_map_right, List.zipWith_self]
  conv_rhs => rw [id, ← List.map_id r]
  apply List.map_congr_left
  intro x _
  simp

theorem times_input {Ls Lb : Nat} {alm blm : List (List ℂ)}
    {a b : Nat → Nat → Nat → ℂ} {maxSpin : Int} {symmetric : Bool} {mueller : Option Spin.Mat4}
    {inputV beamV : Bool} (c : ℝ)
    (h : InputOk Ls Lb alm blm a b maxSpin symmetric mueller inputV beamV) :
    InputOk Ls Lb alm (blm.map (·.map ((c : ℂ) * ·))) a (fun i l m => c * b i l m) maxSpin symmetric
      mueller inputV beamV :=
  ⟨h.sky, fun i hi => by
    obtain ⟨r, h1, h2⟩ := h.beam i hi
    exact ⟨r.map ((c : ℂ) * ·), by rw [List.getElem?_map, h1]; rfl, Alm.represents_map _ h2⟩, h.skyV,
    fun e => by rw [List.length_map, h.beamV e], h.spin0, h.spin, h.sym, h.mueller⟩

/-- **C137 (gain).** If the coefficients of all beams and ghosts are multiplied by a number, so is the
binned signal; hits and angles stay. -/
theorem C137_gain (w : World E) (M : Motion) (o : Opts) (N : Nat) (chunks : List Chunk) (i : Inst E)
    (hs : Session w M o N chunks i) (Y : Harmonics) (maxSpin : Int) (nside : Nat) (hns : 0 < nside)
    (inputV beamV : Bool) (data : BinBeam → BeamData) (gdata : BinBeam → List BeamData)
    (Ls : Nat) (sky : List (List ℂ)) (a : Nat → Nat → Nat → ℂ) (L : BeamData → Nat)
    (b : BeamData → Nat → Nat → Nat → ℂ) (beams : List Pair)
    (hp : ∀ p ∈ beams, p = (none, none) ∨ ∃ d, p.1 = some d ∧
      PairOk Ls sky a maxSpin inputV beamV data gdata L b d p.2) (A : ℝ)
    (size : Nat) (hsize : 0 < size) :
    let scan := fun data gdata => scanAll (under w Y maxSpin nside inputV beamV data gdata sky) o beams
      true size i
    ∃ m, scan data gdata = .ok m ∧
      scan (fun d => times A (data d)) (fun d => (gdata d).map (times A)) =
        .ok (m.map fun c => ⟨A • c.vec, c.proj⟩) := by
  intro scan
  obtain ⟨m1, m2, h1, h2, -, h3⟩ := C137_linear w M o N chunks i hs Y maxSpin nside hns inputV beamV
    data data gdata gdata Ls sky a L L b b beams (fun p h => by
      rcases hp p h with h | ⟨d, h1, k⟩
      · exact .inl h
      · exact .inr ⟨d, h1, k, k, List.forall₂_same.2 fun g _ => ⟨⟨rfl, rfl, rfl, rfl⟩, rfl⟩⟩) (A - 1)
      size hsize
  obtain rfl := Except.ok.inj (h1.symm.trans h2)
  refine ⟨m1, h1, ?_⟩
  have e : (1 : ℝ) + (A - 1) = A := by ring
  simp only [List.zipWith_self, add_self, e] at h3
  refine h3.trans ?_
  congr 1
  apply List.map_congr_left
  intro c _
  congr 1
  module

theorem live_alone (x : Option BinBeam) : live (x.map alone) = (live x).map alone := by
  cases x with
  | none => rfl
  | some d =>
    show live (some (alone d)) = _
    unfold live alone
    dsimp only
    split <;> rfl

theorem pairObs_alone (M : Motion) (x : Ext) (q : QExt) (varphi : ℝ) (nsideOut : Nat) (k : ℝ)
    (v0 v1 : BinBeam → Nat → ℝ) (p : Pair) (t : Nat)
    (h : ∀ f, (live p.1 = some f ∨ live p.2 = some f) → v0 (alone f) t = v1 f t) :
    pairObs M x q varphi nsideOut k v0 (p.1.map alone, p.2.map alone) t =
      pairObs M x q varphi nsideOut k v1 p t := by
  have hobs : ∀ f d, obsAt M x q varphi nsideOut (alone f) t d = obsAt M x q varphi nsideOut f t d :=
    fun _ _ => rfl
  unfold pairObs
  dsimp only
  rw [live_alone, live_alone]
  split
  · rfl
  · rcases l1 : live p.1 with _ | a <;> rcases l2 : live p.2 with _ | b
    · rfl
    · simp only [Option.map_none, Option.map_some]
      rw [h b (.inr l2), hobs]
    · simp only [Option.map_none, Option.map_some]
      rw [h a (.inl l1), hobs]
    · simp only [Option.map_some]
      rw [h a (.inl l1), h b (.inr l2), hobs, hobs]

/-- Ghosts without signal are the same as no ghosts. -/
theorem alone_scan (w : World E) (M : Motion) (o : Opts) (N : Nat) (chunks : List Chunk) (i : Inst E)
    (hs : Session w M o N chunks i) (Y : Harmonics) (maxSpin : Int) (nside : Nat) (hns : 0 < nside)
    (inputV beamV : Bool) (data : BinBeam → BeamData) (gdata : BinBeam → List BeamData)
    (hown : OwnBeam data) (hnone : ∀ d, gdata (alone d) = [])
    (Ls : Nat) (sky : List (List ℂ)) (a : Nat → Nat → Nat → ℂ) (L : BeamData → Nat)
    (b : BeamData → Nat → Nat → Nat → ℂ) (beams : List Pair)
    (hp : ∀ p ∈ beams, p = (none, none) ∨ ∃ d, p.1 = some d ∧
      PairOk Ls sky a maxSpin inputV beamV data gdata L b d p.2)
    (size : Nat) (hsize : 0 < size) :
    scanAll (under w Y maxSpin nside inputV beamV data gdata sky) o
        (beams.map fun p => (p.1.map alone, p.2.map alone)) true size i =
      scanAll (under w Y maxSpin nside inputV beamV data (fun d => (gdata d).map (times 0)) sky) o beams
        true size i := by
  have hmaps : ∀ p : Pair, ∃ s0 s1 : Spinmaps SpinDict, p ∈ beams →
      (MapsOk (under w Y maxSpin nside inputV beamV data gdata sky) nside s0
        (p.1.map alone, p.2.map alone) ∧
      MapsOk (under w Y maxSpin nside inputV beamV data (fun d => (gdata d).map (times 0)) sky) nside s1
        p) ∧
      ∀ f, (live p.1 = some f ∨ live p.2 = some f) → ∀ t,
        detects M w.x o.interp nside s0 (alone f) t = detects M w.x o.interp nside s1 f t := by
    intro p
    by_cases hb : p ∈ beams
    swap
    · exact ⟨⟨[], none, []⟩, ⟨[], none, []⟩, fun h => (hb h).elim⟩
    rcases hp p hb with rfl | ⟨d, hd, k⟩
    · refine ⟨⟨[], none, []⟩, ⟨[], none, []⟩, fun _ => ⟨⟨.inl rfl, .inl rfl⟩, ?_⟩⟩
      rintro f (h | h) <;> cases h
    obtain ⟨p1, e⟩ := p
    dsimp only at hd k
    subst hd
    have hdict : ∀ c : ℝ, ∀ g ∈ data d :: gdata d, ∃ D, made Y sky maxSpin nside inputV beamV (times c g)
        = .ok D ∧ DictOk (12 * nside ^ 2) D := fun c g hg =>
      ⟨_, spinmapsOf_spec Y nside (times_input c (k.input g hg)),
        dictF_ok nside _ _ _ (k.input g hg).spin0 _⟩
    have hdata : ∃ D, made Y sky maxSpin nside inputV beamV (data d) = .ok D ∧
        DictOk (12 * nside ^ 2) D :=
      ⟨_, spinmapsOf_spec Y nside (k.input _ List.mem_cons_self),
        dictF_ok nside _ _ _ (k.input _ List.mem_cons_self).spin0 _⟩
    obtain ⟨s0, x0, y0, -⟩ := pair_spin (data := data) (gdata := gdata) (d := alone d)
      (e := e.map alone) (alm := sky) w Y hns (by
        rw [hown, hnone]
        intro g hg
        obtain rfl := List.mem_singleton.1 hg
        exact hdata) ⟨0, by
        rw [hnone]
        intro n
        simp⟩ (by
        rw [hnone]
        simp) (by
        intro f hf
        have hf' : ∃ f', (live (some d) = some f' ∨ live e = some f') ∧ alone f' = f := by
          rcases hf with hf | hf
          · have h := live_alone (some d)
            rw [Option.map_some, hf] at h
            cases hl : live (some d) with
            | none => rw [hl] at h; cases h
            | some f' => rw [hl] at h; exact ⟨f', .inl rfl, (Option.some.inj h).symm⟩
          · rw [live_alone] at hf
            cases hl : live e with
            | none => rw [hl] at hf; cases hf
            | some f' => rw [hl] at hf; exact ⟨f', .inr rfl, Option.some.inj hf⟩
        obtain ⟨f', h1, rfl⟩ := hf'
        refine ⟨(k.main f' h1).1, fun g hg => ?_⟩
        simp [alone] at hg)
    obtain ⟨s1, x1, y1, w1⟩ := pair_spin (data := data) (gdata := fun d => (gdata d).map (times 0))
      (d := d) (e := e) (alm := sky) w Y hns (by
        intro g hg
        rcases List.mem_cons.1 hg with rfl | hg
        · exact hdata
        · obtain ⟨g', hg', rfl⟩ := List.mem_map.1 hg
          exact hdict 0 g' (List.mem_cons_of_mem _ hg')) (by
        obtain ⟨n, hn⟩ := k.numbers
        refine ⟨n, fun x => ?_⟩
        rw [← hn x]
        simp [times]) (by
        intro g hg g' hg' eq
        obtain ⟨x, hx, rfl⟩ := List.mem_map.1 hg
        obtain ⟨x', hx', rfl⟩ := List.mem_map.1 hg'
        rw [k.share x hx x' hx' eq]) (by
        intro f hf
        refine ⟨(k.main f hf).1, fun g hg hd => ?_⟩
        obtain ⟨h1, g', hg', h2⟩ := (k.main f hf).2 g hg hd
        exact ⟨h1, _, List.mem_map_of_mem hg', h2⟩)
    refine ⟨s0, s1, fun _ => ⟨⟨x0, x1⟩, ?_⟩⟩
    intro f hf t
    have hr : ∀ g : Timeline.Beam, InRange nside (sampleAt w.x o.interp (offset w.x (M.rot t) g) nside
        (M.time t) (M.bore t) (M.alpha t)) := fun g =>
      sampleAt_inRange w.x hs.ext o.interp _ nside hns _ _ _
    have hz : ∀ g ∈ f.ghosts, g.dead = false → M.signal w.x o.interp nside (ghostMaps s1 g) g t = 0 := by
      intro g hg hd
      obtain ⟨-, g', hg', e'⟩ := (k.main f hf).2 g hg hd
      obtain ⟨D, q, r⟩ := w1 _ (List.mem_map_of_mem hg')
      have e'' : (times 0 g').ghostIdx = g.ghostIdx := e'
      rw [e''] at r
      have hi := k.input g' (List.mem_cons_of_mem _ hg')
      obtain ⟨u, u', ⟨D1, d1, -, d2⟩, ⟨D2, d3, -, d4⟩, ⟨D3, d5, -, d6⟩⟩ :=
        sees_add (nside := nside) Y (-1) ⟨rfl, rfl, rfl, rfl⟩ hi hi
      obtain rfl := Except.ok.inj (d1.symm.trans d3)
      rw [add_self, show (1 : ℝ) + -1 = 0 by ring] at d5
      obtain rfl := Except.ok.inj (d5.symm.trans q)
      unfold Motion.signal ghostMaps
      rw [r]
      dsimp only
      rw [d6 _ _ (hr _)]
      dsimp only
      rw [← d2 _ _ (hr _), ← d4 _ _ (hr _)]
      ring
    have e0 : s0.main = s1.main := by
      rw [hown] at y0
      exact Except.ok.inj (y0.symm.trans y1)
    unfold detects
    rw [e0]
    have : ((f.ghosts.filter fun g => !g.dead).map fun g =>
        M.signal w.x o.interp nside (ghostMaps s1 g) g t).sum = 0 := by
      apply List.sum_eq_zero
      intro v hv
      obtain ⟨g, hg, rfl⟩ := List.mem_map.1 hv
      obtain ⟨g1, g2⟩ := List.mem_filter.1 hg
      exact hz g g1 (by simpa using g2)
    rw [this]
    simp [alone]
  choose s0 s1 hsm using hmaps
  classical
  have r0 := session_maps (session_under hs Y maxSpin nside inputV beamV data gdata sky)
    (beams := beams.map fun p => (p.1.map alone, p.2.map alone)) (nside := nside)
    (sm := fun q => if h : ∃ p ∈ beams, (p.1.map alone, p.2.map alone) = q then s0 h.choose
      else ⟨[], none, []⟩) (by
      intro q hq
      obtain ⟨p, h1, h2⟩ := List.mem_map.1 hq
      have hx : ∃ p ∈ beams, (p.1.map alone, p.2.map alone) = q := ⟨p, h1, h2⟩
      rw [dif_pos hx]
      have := (hsm _ hx.choose_spec.1).1.1
      rw [hx.choose_spec.2] at this
      exact this) hsize
  have r1 := session_maps (session_under hs Y maxSpin nside inputV beamV data
    (fun d => (gdata d).map (times 0)) sky) (fun p h => (hsm p h).1.2) hsize
  rw [r0, r1, List.flatMap_map]
  congr 2
  apply List.flatMap_congr
  intro p hb
  have hx : ∃ p' ∈ beams, (p'.1.map alone, p'.2.map alone) = (p.1.map alone, p.2.map alone) :=
    ⟨p, hb, rfl⟩
  rw [dif_pos hx]
  have hq := (hsm _ hx.choose_spec.1).1.1
  rw [hx.choose_spec.2] at hq
  unfold missionObs
  apply List.flatMap_congr
  intro t _
  rcases (hsm p hb).1.1 with h | ⟨d, h1, h2, -⟩
  · have e1 : p.1 = none := by simpa using congrArg Prod.fst h
    have e2 : p.2 = none := by simpa using congrArg Prod.snd h
    exact pairObs_alone M w.x w.q w.varphi w.nsideOut o.ctalk _ _ p t (by
      rintro f (h | h)
      · rw [e1] at h
        cases h
      · rw [e2] at h
        cases h)
  rcases hq with h | ⟨d', h1', h2', -⟩
  · rw [h] at h1
    cases h1
  obtain rfl := Option.some.inj (h1.symm.trans h1')
  obtain e := Except.ok.inj (h2'.symm.trans h2)
  rw [e]
  exact pairObs_alone M w.x w.q w.varphi w.nsideOut o.ctalk _ _ p t fun f hf => (hsm p hb).2 f hf t

/-- **C137 (ghosts).** What ghosts add to the maps is proportional to the amplitude of their
coefficients: with the ghosts of all detectors multiplied by `A`, the binned signal is that of the
detectors without ghosts plus `A` times what the ghosts add for `A = 1`. -/
theorem C137_ghosts (w : World E) (M : Motion) (o : Opts) (N : Nat) (chunks : List Chunk) (i : Inst E)
    (hs : Session w M o N chunks i) (Y : Harmonics) (maxSpin : Int) (nside : Nat) (hns : 0 < nside)
    (inputV beamV : Bool) (data : BinBeam → BeamData) (gdata : BinBeam → List BeamData)
    (hown : OwnBeam data) (hnone : ∀ d, gdata (alone d) = [])
    (Ls : Nat) (sky : List (List ℂ)) (a : Nat → Nat → Nat → ℂ) (L : BeamData → Nat)
    (b : BeamData → Nat → Nat → Nat → ℂ) (beams : List Pair)
    (hp : ∀ p ∈ beams, p = (none, none) ∨ ∃ d, p.1 = some d ∧
      PairOk Ls sky a maxSpin inputV beamV data gdata L b d p.2)
    (size : Nat) (hsize : 0 < size) :
    let scan := fun A => scanAll (under w Y maxSpin nside inputV beamV data
      (fun d => (gdata d).map (times A)) sky) o beams true size i
    ∃ m0 m1, scanAll (under w Y maxSpin nside inputV beamV data gdata sky) o
        (beams.map fun p => (p.1.map alone, p.2.map alone)) true size i = .ok m0 ∧
      scanAll (under w Y maxSpin nside inputV beamV data gdata sky) o beams true size i = .ok m1 ∧
      m0.map (·.proj) = m1.map (·.proj) ∧
      ∀ A, scan A =
        .ok (List.zipWith (fun c0 c1 => ⟨c0.vec + A • (c1.vec - c0.vec), c0.proj⟩) m0 m1) := by
  intro scan
  have hcore := fun c : ℝ => linear_core w M o N chunks i hs Y maxSpin nside hns inputV beamV
    data (fun d => times 0 (data d)) gdata gdata Ls sky a beams (fun p h => by
      rcases hp p h with h | ⟨d, h1, k⟩
      · exact .inl h
      · refine .inr ⟨d, h1, ⟨k.numbers, k.share, k.main⟩, ⟨k.numbers, k.share, k.main⟩, ⟨.cons ?_ ?_⟩⟩
        · have hi := k.input _ List.mem_cons_self
          exact ⟨⟨rfl, rfl, rfl, rfl⟩, _, _, _, hi, times_input 0 hi⟩
        · refine List.forall₂_same.2 fun g hg => ?_
          have hi := k.input g (List.mem_cons_of_mem _ hg)
          exact ⟨⟨rfl, rfl, rfl, rfl⟩, _, _, _, hi, hi⟩) c size hsize
  obtain ⟨m1, m2, h1, h2, h3, -⟩ := hcore 0
  have hA : ∀ A, scan A =
      .ok (List.zipWith (fun c1 c2 => ⟨c1.vec + (A - 1) • c2.vec, c1.proj⟩) m1 m2) := by
    intro A
    obtain ⟨m1', m2', h1', h2', -, h4⟩ := hcore (A - 1)
    obtain rfl := Except.ok.inj (h1.symm.trans h1')
    obtain rfl := Except.ok.inj (h2.symm.trans h2')
    have e : (1 : ℝ) + (A - 1) = A := by ring
    simp only [List.zipWith_self, add_self, add_zero, e] at h4
    exact h4
  have hlen : m1.length = m2.length := by simpa using congrArg List.length h3
  refine ⟨_, m1, (alone_scan w M o N chunks i hs Y maxSpin nside hns inputV beamV data gdata hown hnone
    Ls sky a L b beams hp size hsize).trans (hA 0), h1, ?_, fun A => (hA A).trans ?_⟩
  · apply List.ext_getElem
    · simp [hlen]
    · intro n k1 k2
      simp
  · congr 1
    apply List.ext_getElem
    · simp [hlen]
    · intro n k1 k2
      simp only [List.getElem_zipWith]
      congr 1
      module

/-! ## the hypotheses are met -/

namespace Whole

open Rec Classical

/-- Coefficients of ghosts for detectors that have ghosts. -/
def ghostData (d : BinBeam) : List BeamData := if d.ghosts = [] then [] else [Conv.ghost.data]

theorem ghostData_ok (c : Nat) : PairOk 5 (Conv.rows 5 3 (Conv.coef c)) (Conv.coef c) 4 false false
    (fun _ => Conv.main.data) ghostData (fun _ => 6)
    (fun g => if g = Conv.main.data then Conv.bcoef 2 else Conv.bcoef 3) ghostly none := by
  have h := ghostly_ok c
  have e : ghostData ghostly = [Conv.ghost.data] := if_neg (by simp [ghostly])
  exact ⟨by rw [e]; exact h.input, by rw [e]; exact h.numbers, by rw [e]; exact h.share,
    by rw [e]; exact h.main⟩

/-- The hypotheses of `C137_gain` and `C137_ghosts` are met: a detector with an asymmetric beam, a live
and a dead ghost, beside a place without detectors. -/
example (A : ℝ) : ∃ m0 m1, scanAll (under w Conv.Y 4 1 false false (fun _ => Conv.main.data) ghostData
      (Conv.rows 5 3 (Conv.coef 1))) o [(some (alone ghostly), none), (none, none)] true 2 i = .ok m0 ∧
    scanAll (under w Conv.Y 4 1 false false (fun _ => Conv.main.data) ghostData
      (Conv.rows 5 3 (Conv.coef 1))) o [(some ghostly, none), (none, none)] true 2 i = .ok m1 ∧
    scanAll (under w Conv.Y 4 1 false false (fun _ => Conv.main.data)
      (fun d => (ghostData d).map (times A)) (Conv.rows 5 3 (Conv.coef 1))) o
        [(some ghostly, none), (none, none)] true 2 i =
      .ok (List.zipWith (fun c0 c1 => ⟨c0.vec + A • (c1.vec - c0.vec), c0.proj⟩) m0 m1) := by
  obtain ⟨m0, m1, h0, h1, -, h2⟩ := C137_ghosts w M o 3 chunks i session Conv.Y 4 1 one_pos false false
    (fun _ => Conv.main.data) ghostData (fun _ => rfl) (fun _ => if_pos rfl) 5
    (Conv.rows 5 3 (Conv.coef 1)) (Conv.coef 1) (fun _ => 6)
    (fun g => if g = Conv.main.data then Conv.bcoef 2 else Conv.bcoef 3)
    [(some ghostly, none), (none, none)] (by
      intro p hp
      simp only [List.mem_cons, List.not_mem_nil, or_false] at hp
      rcases hp with rfl | rfl
      · exact .inr ⟨ghostly, rfl, ghostData_ok 1⟩
      · exact .inl rfl) 2 (by decide)
  exact ⟨m0, m1, h0, h1, h2 A⟩

/-- Those of `C137_linear` are met: beams with other coefficients. -/
example : PairOk 5 (Conv.rows 5 3 (Conv.coef 1)) (Conv.coef 1) 4 false false
    (fun _ => Conv.main.data) ghostData (fun _ => 6)
    (fun g => if g = Conv.main.data then Conv.bcoef 2 else Conv.bcoef 3) ghostly none ∧
  PairOk 5 (Conv.rows 5 3 (Conv.coef 1)) (Conv.coef 1) 4 false false
    (fun _ => Conv.ghost.data) (fun _ => [Conv.ghost.data]) (fun _ => 6)
    (fun _ => Conv.bcoef 3) ghostly none ∧
  List.Forall₂ (fun g g' => Alike g g' ∧ 6 = 6) (Conv.main.data :: ghostData ghostly)
    [Conv.ghost.data, Conv.ghost.data] := by
  have e : ghostData ghostly = [Conv.ghost.data] := if_neg (by simp [ghostly])
  refine ⟨ghostData_ok 1, ?_, ?_⟩
  · have h := ghostly_ok 1
    refine ⟨?_, h.numbers, h.share, h.main⟩
    intro g hg
    have : g = Conv.ghost.data := by simpa using hg
    rw [this]
    exact ⟨Conv.rows_ok _ _ _, Conv.rows_ok _ _ _, by simp, by simp, by decide, by decide, by decide,
      by simp [Conv.ghost]⟩
  · rw [e]
    exact .cons ⟨⟨rfl, rfl, rfl, rfl⟩, rfl⟩ (.cons ⟨⟨rfl, rfl, rfl, rfl⟩, rfl⟩ .nil)

end Whole

end Verif.Props
