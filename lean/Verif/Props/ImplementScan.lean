import Verif.Lemmas.ImplementScan
import Verif.Lemmas.Signal
import Mathlib.Data.Rat.Floor

/-!
# Properties C49, C50, C51, C55, C68: boresight pointing of the generic scan
-/

namespace Verif.Props

open Verif.Scan Verif.Step Verif.Spec

variable {K Q : Type}

/-- A site for examples: patches move in elevation by one degree per second, `azel2bore` keeps its
arguments. -/
def demoSite : Site Rat (Rat × Rat × Rat) where
  radec2azel := fun ra dec t => (ra, dec + t)
  azel2bore := fun az el t => (az, el, t)
  ground := fun az el => (az, el, 0)
  triangle := fun _ v th n => (List.range n).map fun (i : Nat) => min (i * v) th

/-- Options for examples: two patches, sawtooth of 6 degrees, checks every 2 samples. -/
def demoOpts : Opts Rat where
  fsamp := 1
  ctime0 := 100
  ra0 := [10, 20]
  dec0 := [-57, -70]
  azThrow := 6
  scanSpeed := 1
  azPrf := .sawtooth
  checkLen := 2
  elMin := 45
  cutElMin := false
  ground := false

/-- A strategy on which nothing has been set. -/
def demoState : State Rat (Rat × Rat × Rat) := ⟨[], [], none, none, none, none⟩

/-! ### C49 -/

/-- **C49.** The loop over patches terminates: a number of iterations fixed by the number of patches
is always enough, whatever the positions (and also when `ra0` and `dec0` have different sizes). -/
theorem C49_terminates [LinearOrder K] (site : Site K Q) (o : Opts K) (times : List K)
    (fuel : Nat) (hf : o.dec0.length + 1 ≤ fuel) : (elCheck site o times fuel).isSome := by
  unfold elCheck
  split
  · rename_i ra dec h1 h2
    have : 0 < o.dec0.length := by
      rcases Nat.eq_zero_or_pos o.dec0.length with h | h
      · rw [List.length_eq_zero_iff] at h
        rw [h] at h2
        simp [pyGet] at h2
      · exact h
    exact elLoop_isSome site o times fuel 1 _ (by omega) (by omega)
  · rfl
  · rfl

/-- **C49.** For every non-empty list of patches, every elevation limit and every list of check
times: each check time observes the first patch that is high enough, or the elevation limit in the
direction of the last patch if there is none. -/
theorem C49_selection [LinearOrder K] (site : Site K Q) (o : Opts K) (hd : o.dec0 ≠ [])
    (hr : o.ra0.length = o.dec0.length) (times : List K) (fuel : Nat)
    (hf : o.dec0.length + 1 ≤ fuel) :
    ∃ c, elCheck site o times fuel = some (.ok c) ∧ c.az.length = times.length ∧
      c.el.length = times.length ∧
      ∀ (i : Nat) (t : K), times[i]? = some t → ∃ p : K × K, c.az[i]? = some p.1 ∧
        c.el[i]? = some p.2 ∧
        Selected o.elMin (List.zipWith (fun ra dec => site.radec2azel ra dec t) o.ra0 o.dec0) p := by
  obtain ⟨p, h1, h2⟩ := elCheck_spec site o hd hr
  obtain ⟨fl, h3⟩ := h2 times fuel hf
  refine ⟨_, h3, by simp, by simp, fun i t ht => ⟨p t, by simp [ht], by simp [ht], h1 t⟩⟩

/-- **C49.** No observed elevation is below the limit. -/
theorem C49_elevation_limit [LinearOrder K] (elMin : K) (cands : List (K × K)) (p : K × K)
    (h : Selected elMin cands p) : elMin ≤ p.2 := by
  rcases h with ⟨_, _, h, _⟩ | ⟨_, h, _⟩
  · exact h
  · rw [h]

/-- At the first check both patches are too low, at the second the first one is high enough; with
the order of patches reversed the second one is used as a fallback. -/
example : ((elCheck demoSite demoOpts [100, 102] 3).bind fun r => r.toOption.map fun c =>
    (c.az, c.el)) = some ([20, 10], [45, 45]) := by decide +kernel
example : ((elCheck demoSite { demoOpts with ra0 := [20, 10], dec0 := [-70, -57] } [100, 103] 3).bind
    fun r => r.toOption.map fun c => (c.az, c.el)) = some ([10, 10], [45, 46]) := by decide +kernel

/-! ### C50 -/

/-- The azimuth profile is well defined sample by sample: zero for staring, the sawtooth of C30
otherwise (the triangle profile over the reals is `C50_triangle_profile`). -/
theorem C50_sawtooth_profile [Field K] [LinearOrder K] [IsStrictOrderedRing K] [FloorRing K]
    (site : Site K Q) (o : Opts K) (hth : o.azThrow ≠ 0) (hp : o.azPrf = .sawtooth) :
    IsProfile site o fun i => Hwp.npMod ((i : K) *
      ((if o.scanSpeed = 0 then 1 / 10 ^ 12 else o.scanSpeed) / o.fsamp)) o.azThrow
        - o.azThrow / 2 := by
  refine .inr (.inr ⟨hth, hp, fun n => ?_⟩)
  rcases Nat.eq_zero_or_pos n with rfl | hn
  · simp [Signal.sawtoothProfile, Signal.sawtoothWave, Hwp.linspace]
  · simp only [Signal.sawtoothProfile, Signal.sawtoothWave, Hwp.linspace, List.map_map]
    apply List.map_congr_left
    intro i _
    have : (n : K) ≠ 0 := by exact_mod_cast hn.ne'
    simp only [Function.comp_def]
    congr 2
    field_simp
    ring

theorem C50_triangle_profile (site : Site ℝ Q) (o : Opts ℝ) (hth : o.azThrow ≠ 0)
    (hp : o.azPrf = .triangle) (hs : site.triangle = Signal.triangleProfile) :
    IsProfile site o fun i => Real.arcsin (Real.sin ((i : ℝ) * (2 * Real.pi /
      (2 * o.azThrow / (if o.scanSpeed = 0 then 1 / 10 ^ 12 else o.scanSpeed)) / o.fsamp)))
        * (o.azThrow / Real.pi) := by
  refine .inr (.inl ⟨hth, hp, fun n => ?_⟩)
  rw [hs]
  rfl

/-- **C50 (partial).** Let a mission be cut in chunks in any way, with or without elevation steps.
Then sample `i` of each chunk is pointed at the selected patch of its check interval, with the scan
profile added to the azimuth and the elevation step of its sample in the mission added to the
elevation, at its sample time.
Missing from the full statement: zero throw is only covered if the check interval divides the
chunk lengths (see `C50_violation_staring`); check intervals shorter than a sample are excluded (see
`C50_violation_short_check`). -/
theorem C50_pointing_partial [Field K] [LinearOrder K] [FloorRing K] (site : Site K Q) (o : Opts K)
    (w : Nat → K) (hw : IsProfile site o w) (hfs : o.fsamp ≠ 0) (hcl : 0 < o.checkLen)
    (hd : o.dec0 ≠ []) (hr : o.ra0.length = o.dec0.length) (cfg : ElCfg K) (hv : cfg.Valid)
    (cs : List (Int × Int)) (N : Nat) (ht : Tiles 0 N cs)
    (hdiv : o.azThrow ≠ 0 ∨ ∀ c ∈ cs, o.checkLen.toNat ∣ (c.2 - c.1).toNat)
    (st : State K Q) (hfr : Fresh cfg st.el) (hm : st.mmap = none) (pre : Bool) :
    ∃ out st', passPointing site o pre cs st = .ok (out, st') ∧ out.length = cs.length ∧
      ∀ (k : Nat) (c : Int × Int), cs[k]? = some c → ∃ (q : List Q) (g : Option (List Q)),
        out[k]? = some (q, g) ∧ q.length = (c.2 - c.1).toNat ∧
        ∀ i : Nat, i < (c.2 - c.1).toNat → ∃ (p : K × K) (y : K),
          Selected o.elMin (patches site o (((c.1 +
            (i / o.checkLen.toNat * o.checkLen.toNat : Nat) : Int) : K) / o.fsamp + o.ctime0)) p ∧
          cfg.At (c.1.toNat + i) p.2 y ∧
          q[i]? = some (site.azel2bore (w i + p.1) y (((c.1 + i : Int) : K) / o.fsamp + o.ctime0)) := by
  obtain ⟨p, h1, h2⟩ := pass_pointwise site o w hw hfs hcl hd hr cfg hv
  obtain ⟨out, st', h3, h4, _, h5⟩ := h2 cs N pre st ht hdiv hfr hm
  refine ⟨out, st', h3, h4, fun k c hk => ?_⟩
  obtain ⟨q, g, g1, g2, g3⟩ := h5 k c hk
  refine ⟨q, g, g1, g2, fun i hi => ?_⟩
  obtain ⟨y, y1, y2⟩ := g3 i hi
  exact ⟨_, y, h1 _, y1, y2⟩

/-- Two chunks of 3 and 2 samples with elevation steps of 1 degree every 2 samples. -/
example : (do let s ← setElSteps 2 [0, 1]
              let r ← passPointing demoSite demoOpts false [(0, 3), (3, 5)]
                { demoState with el := some s }
              return r.1.map Prod.fst)
    = Except.ok [[(17, 45, 100), (18, 45, 101), (9, 46, 102)], [(7, 47, 103), (8, 46, 104)]] := by
  decide +kernel
example : Fresh (some (2, [0, 1])) (setElSteps (K := Rat) 2 [0, 1]).toOption :=
  ⟨rfl, rfl, rfl, rfl⟩

/-- **C50 (violation).** With zero throw (staring), any chunk whose length is not a multiple of the
check interval raises ValueError. -/
theorem C50_violation_staring [Field K] [LinearOrder K] [FloorRing K] (site : Site K Q) (o : Opts K)
    (hfs : o.fsamp ≠ 0) (hcl : 0 < o.checkLen) (hd : o.dec0 ≠ [])
    (hr : o.ra0.length = o.dec0.length) (h0 : o.azThrow = 0) (start stop : Int)
    (hdiv : ¬ o.checkLen.toNat ∣ (stop - start).toNat) (st : State K Q) :
    implementScan site o false start stop st = .error .valueError := by
  obtain ⟨p, _, hp⟩ := azel_spec site o hcl hd hr
  have hprf : Profile site o (times o (start, stop)).length
      (List.replicate (times o (start, stop)).length 0) := by
    unfold Profile azProfile; simp only [h0, if_true]
  have := (hp _ _ hprf).2 (by
    rw [List.length_replicate, length_times]
    intro h
    exact hdiv ⟨_, h⟩)
  have hct := ctimes_ok o (start, stop) hfs
  simp only at hct
  simp only [implementScan, hct, compute, this, bind, Except.bind]

/-- Staring for 5 samples with checks every 2 samples. -/
example : (implementScan demoSite { demoOpts with azThrow := 0 } false 0 5 demoState).map
    (fun _ => ()) = .error .valueError := by
  rw [C50_violation_staring demoSite { demoOpts with azThrow := 0 } (by decide +kernel)
    (by decide) (by decide) rfl rfl 0 5 (by decide)]
  rfl

/-- **C50 (violation).** A check interval shorter than a sample raises ZeroDivisionError. -/
theorem C50_violation_short_check [Field K] [LinearOrder K] [FloorRing K] (site : Site K Q)
    (o : Opts K) (hfs : o.fsamp ≠ 0) (hcl : o.checkLen = 0) (start stop : Int) (st : State K Q) :
    implementScan site o false start stop st = .error .zeroDivisionError := by
  have hct := ctimes_ok o (start, stop) hfs
  simp only at hct
  have : azel site o (times o (start, stop)) = .error .zeroDivisionError := by
    unfold azel; rw [if_pos hcl]
  simp only [implementScan, hct, compute, this, bind, Except.bind]

/-! ### C51 -/

private theorem elLoop_cut [LinearOrder K] (site : Site K Q) (o : Opts K) (b b' : Bool)
    (times : List K) (fuel n : Nat) (s s' : Checks K) (h1 : s.az = s'.az) (h2 : s.el = s'.el) :
    (elLoop site { o with cutElMin := b } times fuel n s).map (Except.map fun c => (c.az, c.el))
      = (elLoop site { o with cutElMin := b' } times fuel n s').map
          (Except.map fun c => (c.az, c.el)) := by
  induction fuel generalizing n s s' with
  | zero => rfl
  | succ f ih =>
    unfold elLoop
    rw [h2]
    dsimp only
    by_cases h : (below o.elMin s'.el).any id = true
    · rw [if_pos h, if_pos h]
      by_cases hn : n < o.dec0.length
      · rw [if_pos hn, if_pos hn]
        rcases pyGet o.ra0 n with e | ra
        · rfl
        · rcases pyGet o.dec0 n with e | dec
          · rfl
          · dsimp only
            exact ih _ _ _ (by rw [h1]) rfl
      · rw [if_neg hn, if_neg hn]
        exact ih _ _ _ h1 rfl
    · rw [if_neg h, if_neg h]
      simp [h1, h2, Except.map]

/-- **C51 (violation).** `cut_el_min` has no effect: for every input the scan with it is the scan
without it, and the flags of the strategy are never touched. -/
theorem C51_violation_no_effect [Field K] [LinearOrder K] [FloorRing K] (site : Site K Q)
    (o : Opts K) (pre : Bool) (start stop : Int) (st : State K Q) :
    implementScan site { o with cutElMin := true } pre start stop st
      = implementScan site { o with cutElMin := false } pre start stop st ∧
    ∀ st', implementScan site o pre start stop st = .ok st' → st'.flag = st.flag := by
  constructor
  · have hM : ∀ ts, (elCheckM site { o with cutElMin := true } ts).map (fun c => (c.az, c.el))
        = (elCheckM site { o with cutElMin := false } ts).map (fun c => (c.az, c.el)) := by
      intro ts
      unfold elCheckM elCheck
      dsimp only
      rcases pyGet o.ra0 0 with e | ra
      · rfl
      · rcases pyGet o.dec0 0 with e | dec
        · rfl
        · dsimp only
          have := elLoop_cut site o true false ts (o.dec0.length + 2) 1
            ⟨ts.map fun t => (site.radec2azel ra dec t).1,
              ts.map fun t => (site.radec2azel ra dec t).2, ts.map fun _ => false⟩ _ rfl rfl
          rcases e1 : elLoop site { o with cutElMin := true } ts (o.dec0.length + 2) 1
            ⟨ts.map fun t => (site.radec2azel ra dec t).1,
              ts.map fun t => (site.radec2azel ra dec t).2, ts.map fun _ => false⟩ with _ | r1
          · rcases e2 : elLoop site { o with cutElMin := false } ts (o.dec0.length + 2) 1
              ⟨ts.map fun t => (site.radec2azel ra dec t).1,
                ts.map fun t => (site.radec2azel ra dec t).2, ts.map fun _ => false⟩ with _ | r2
            · rfl
            · rw [e1, e2] at this; simp at this
          · rcases e2 : elLoop site { o with cutElMin := false } ts (o.dec0.length + 2) 1
              ⟨ts.map fun t => (site.radec2azel ra dec t).1,
                ts.map fun t => (site.radec2azel ra dec t).2, ts.map fun _ => false⟩ with _ | r2
            · rw [e1, e2] at this; simp at this
            · rw [e1, e2] at this
              exact Option.some.inj this
    have hA : ∀ ct, azel site { o with cutElMin := true } ct
        = azel site { o with cutElMin := false } ct := by
      intro ct
      unfold azel
      dsimp only
      split
      · rfl
      · split
        · rfl
        · have := hM (stride o.checkLen.toNat ct)
          rcases e1 : elCheckM site { o with cutElMin := true } (stride o.checkLen.toNat ct)
            with e | c1 <;>
          rcases e2 : elCheckM site { o with cutElMin := false } (stride o.checkLen.toNat ct)
            with e' | c2 <;> rw [e1, e2] at this <;> simp [Except.map] at this
          · rw [this]; rfl
          · simp only [bind, Except.bind, this.1, this.2]
            rfl
    unfold implementScan compute
    dsimp only
    simp only [hA]
  · intro st' h
    unfold implementScan at h
    simp only [bind, Except.bind] at h
    rcases hc : Data.ctimes o.fsamp o.ctime0 start stop with e | ct
    · rw [hc] at h; cases h
    rw [hc] at h; dsimp only at h
    have hcomp : compute site o ct start stop st = .ok st' → st'.flag = st.flag := by
      intro h
      unfold compute at h
      simp only [bind, Except.bind, pure, Except.pure] at h
      rcases h1 : azel site o ct with e | ⟨az, el⟩
      · rw [h1] at h; cases h
      rw [h1] at h; dsimp only at h
      rcases h2 : stepEl el st.el with e | ⟨el', s⟩
      · rw [h2] at h; cases h
      rw [h2] at h; dsimp only at h
      rcases h3 : storeMmap start stop (bore site az el' ct) st.mmap with e | m
      · rw [h3] at h; cases h
      rw [h3] at h
      have := (Except.ok.inj h).symm
      subst this
      rfl
    split at h
    · have := (Except.ok.inj h).symm
      subst this
      rfl
    · exact hcomp h

/-- Both patches below the limit and `cut_el_min` set: nothing is flagged. -/
example : (implementScan demoSite { demoOpts with cutElMin := true } false 0 2 demoState).map
    (fun s => (s.qBore, s.flag)) = .ok ([(17, 45, 100), (18, 45, 101)], none) := by decide +kernel

/-! ### C55 -/

private theorem fresh_reset [Add K] (cfg : ElCfg K) (hv : cfg.Valid) (e : Option (ElSteps K))
    (h : Fresh cfg e) : ∃ e'', resetEl e = .ok e'' ∧ Fresh cfg e'' := by
  obtain ⟨outs, _, _, h3⟩ := runEl_fresh cfg hv []
  obtain ⟨e', e'', g1, g2, g3⟩ := h3 e h
  rw [runEl_nil] at g1
  have := (Prod.mk.inj (Except.ok.inj g1)).2
  subst this
  exact ⟨e'', g2, g3⟩

private theorem later_compute [Field K] [LinearOrder K] [FloorRing K] (site : Site K Q) (o : Opts K)
    (hfs : o.fsamp ≠ 0) (cfg : ElCfg K) (cs : List (Int × Int))
    (as : List (List K × List K)) (outs : List (List K)) (N : Nat) (ht : Tiles 0 N cs)
    (ha : List.Forall₂ (fun c a => azel site o (times o c) = .ok a) cs as)
    (hl : outs.map List.length = (as.map Prod.snd).map List.length)
    (hrun : ∀ e, Fresh cfg e → ∃ e' e'', runEl e (as.map Prod.snd) = .ok (outs, e') ∧
      resetEl e' = .ok e'' ∧ Fresh cfg e'')
    (k : Nat) (st : State K Q) (hm : st.mmap = none)
    (he : ∃ e'', resetEl st.el = .ok e'' ∧ Fresh cfg e'') :
    ∃ os st', laterPasses site o cs k st = .ok (os, st') ∧
      os.map (fun x => x.map Prod.fst) = List.replicate k (bores site o cs as outs) := by
  induction k generalizing st with
  | zero => exact ⟨[], st, rfl, rfl⟩
  | succ k ih =>
    obtain ⟨e1, h1, h2⟩ := he
    obtain ⟨e', e'', r1, r2, r3⟩ := hrun e1 h2
    obtain ⟨out, st1, p1, p2, p3, _, p5, _⟩ := pass_compute site o hfs cs as outs
      { st with el := e1 } e' true ha r1 hl 0 N (by simpa using ht) (.inl hm)
    obtain ⟨os, st2, q1, q2⟩ := ih st1 (p5 hm) ⟨e'', by rw [p3]; exact r2, r3⟩
    refine ⟨out :: os, st2, ?_, by simp [p2, q2, List.replicate_succ]⟩
    simp only [laterPasses, h1, p1, q1, bind, Except.bind, pure, Except.pure]

private theorem later_read [Field K] [LinearOrder K] [FloorRing K] (site : Site K Q) (o : Opts K)
    (hfs : o.fsamp ≠ 0) (cfg : ElCfg K) (hv : cfg.Valid) (cs : List (Int × Int)) (m : List Q)
    (k : Nat) (st : State K Q) (hm : st.mmap = some m)
    (he : ∃ e'', resetEl st.el = .ok e'' ∧ Fresh cfg e'') :
    ∃ os st', laterPasses site o cs k st = .ok (os, st') ∧
      os.map (fun x => x.map Prod.fst)
        = List.replicate k (cs.map fun c => pySlice m c.1 c.2) := by
  induction k generalizing st with
  | zero => exact ⟨[], st, rfl, rfl⟩
  | succ k ih =>
    obtain ⟨e1, h1, h2⟩ := he
    obtain ⟨out, st1, p1, p2, p3, p4, _⟩ := pass_read site o hfs cs { st with el := e1 } m hm
    obtain ⟨os, st2, q1, q2⟩ := ih st1 p3 (by rw [p4]; exact fresh_reset cfg hv e1 h2)
    refine ⟨out :: os, st2, ?_, by simp [p2, q2, List.replicate_succ]⟩
    simp only [laterPasses, h1, p1, q1, bind, Except.bind, pure, Except.pure]

/-- **C55 (partial).** Whenever a scan without memory map succeeds, the scan with it (of `nsamp`
rows, any initial content) succeeds, and every detector pair (pass) and chunk has the same boresight
pointing; moreover all passes have the same pointing.  For every tiling of the mission in chunks,
any number of passes, any options and elevation steps.
Missing from the full statement: the pointing in the horizontal frame (see
`C55_violation_ground`). -/
theorem C55_memmap_partial [Field K] [LinearOrder K] [FloorRing K] (site : Site K Q) (o : Opts K)
    (hfs : o.fsamp ≠ 0) (cfg : ElCfg K) (hv : cfg.Valid) (st : State K Q) (hfr : Fresh cfg st.el)
    (hm : st.mmap = none) (cs : List (Int × Int)) (nsamp : Nat) (ht : Tiles 0 nsamp cs)
    (npasses : Nat) (zero : Q) (outs : List (List (List Q × Option (List Q)))) (st' : State K Q)
    (h : allPasses site o false zero nsamp cs npasses st = .ok (outs, st')) :
    ∃ outs₂ st₂, allPasses site o true zero nsamp cs npasses st = .ok (outs₂, st₂) ∧
      outs₂.map (fun pass => pass.map Prod.fst) = outs.map (fun pass => pass.map Prod.fst) ∧
      ∃ qs, outs.map (fun pass => pass.map Prod.fst) = List.replicate npasses qs := by
  cases npasses with
  | zero =>
    simp only [allPasses, Except.ok.injEq, Prod.mk.injEq] at h
    obtain ⟨rfl, _⟩ := h
    exact ⟨[], _, rfl, rfl, [], rfl⟩
  | succ k =>
    simp only [allPasses, bind, Except.bind, pure, Except.pure, Bool.false_eq_true, if_false] at h
    rcases h1 : passPointing site o false cs st with e | ⟨out, st1⟩
    · rw [h1] at h; cases h
    rw [h1] at h; dsimp only at h
    obtain ⟨as, es, ha, hrun, hm1, hout⟩ := pass_inv site o hfs false cs st st1 out hm h1
    obtain ⟨es', hl, _, hfresh⟩ := runEl_fresh cfg hv (as.map Prod.snd)
    obtain ⟨e', e'', r1, r2, r3⟩ := hfresh st.el hfr
    rw [r1] at hrun
    obtain ⟨rfl, he1⟩ := Prod.mk.inj (Except.ok.inj hrun)
    -- without memory map
    obtain ⟨os, st2, l1, l2⟩ := later_compute site o hfs cfg cs as es' nsamp ht ha hl hfresh k st1 hm1
      ⟨e'', by rw [← he1]; exact r2, r3⟩
    rw [l1] at h
    simp only [Except.ok.injEq, Prod.mk.injEq] at h
    obtain ⟨rfl, rfl⟩ := h
    -- with memory map
    obtain ⟨out', st3, p1, p2, p3, _, _, p6⟩ := pass_compute site o hfs cs as es'
      { st with mmap := some (List.replicate nsamp zero) } e' false ha r1 hl 0 nsamp
      (by simpa using ht) (.inr ⟨rfl, _, rfl, by simp⟩)
    have hmm := p6 _ rfl
    have hsl := slices_of_tiles cs (bores site o cs as es') 0 nsamp (by simpa using ht)
      (bores_length site o cs as es' ha hl) [] [] rfl
    simp only [List.take_zero, List.nil_append, List.drop_replicate, Nat.sub_self,
      List.replicate_zero, List.append_nil] at hmm hsl
    obtain ⟨os', st4, q1, q2⟩ := later_read site o hfs cfg hv cs _ k st3 hmm
      ⟨e'', by rw [p3]; exact r2, r3⟩
    refine ⟨out' :: os', st4, ?_, ?_, bores site o cs as es', ?_⟩
    · simp only [allPasses, if_true, p1, q1, bind, Except.bind, pure, Except.pure]
    · rw [List.map_cons, List.map_cons, p2, hout, q2, l2, hsl]
    · rw [List.map_cons, hout, l2, List.replicate_succ]

set_option synthInstance.maxSize 1000 in
/-- Two passes over two chunks with elevation steps, with and without memory map. -/
example : (do let s ← setElSteps 2 [0, 1]
              let st := { demoState with el := some s }
              let r ← allPasses demoSite demoOpts false (0, 0, 0) 5 [(0, 3), (3, 5)] 2 st
              let r' ← allPasses demoSite demoOpts true (0, 0, 0) 5 [(0, 3), (3, 5)] 2 st
              return (r.1.map fun p => p.map Prod.fst, r'.1.map fun p => p.map Prod.fst))
    = Except.ok (List.replicate 2 [[(17, 45, 100), (18, 45, 101), (9, 46, 102)],
        [(7, 47, 103), (8, 46, 104)]],
      List.replicate 2 [[(17, 45, 100), (18, 45, 101), (9, 46, 102)],
        [(7, 47, 103), (8, 46, 104)]]) := by
  decide +kernel

set_option synthInstance.maxSize 1000 in
/-- **C55 (violation).** With a memory map and ground pick-up, the second detector pair is scanned
with the ground pointing of the last chunk in all chunks: here the first chunk of the second pass
has other ground pointing than without memory map, and even another number of samples. -/
theorem C55_violation_ground :
    let run := fun memmap => (allPasses demoSite { demoOpts with ground := true } memmap (0, 0, 0) 5
      [(0, 3), (3, 5)] 2 demoState).map fun r => r.1.map fun p => p.map Prod.snd
    run false = .ok [[some [(17, 45, 0), (18, 45, 0), (9, 45, 0)], some [(7, 46, 0), (8, 46, 0)]],
      [some [(17, 45, 0), (18, 45, 0), (9, 45, 0)], some [(7, 46, 0), (8, 46, 0)]]] ∧
    run true = .ok [[some [(17, 45, 0), (18, 45, 0), (9, 45, 0)], some [(7, 46, 0), (8, 46, 0)]],
      [some [(7, 46, 0), (8, 46, 0)], some [(7, 46, 0), (8, 46, 0)]]] := by
  refine ⟨?_, ?_⟩ <;> decide +kernel

/-! ### C68 -/

private theorem tiles_flatten {α : Type} (l : List α) (a b : Nat) (cs : List (Int × Int))
    (ht : Tiles a b cs) (hb : b ≤ l.length) :
    (cs.map fun c => pySlice l c.1 c.2).flatten = (l.take b).drop a := by
  induction cs generalizing a with
  | nil =>
    generalize hA : (a : Int) = A at ht
    generalize hB : (b : Int) = B at ht
    cases ht
    obtain rfl : a = b := by omega
    simp
  | cons c cs ih =>
    obtain ⟨c1, c2⟩ := c
    generalize hA : (a : Int) = A at ht
    cases ht with
    | cons hlt ht =>
    obtain ⟨c2', rfl⟩ : ∃ k : Nat, c2 = k := ⟨c2.toNat, by omega⟩
    subst hA
    have hle : c2' ≤ b := by
      have : ∀ (u v : Int) (l : List (Int × Int)), Tiles u v l → u ≤ v := by
        intro u v l h
        induction h with
        | nil => exact le_rfl
        | cons h1 _ ih => omega
      have := this _ _ _ ht
      omega
    simp only [List.map_cons, List.flatten_cons]
    rw [ih c2' ht, pySlice_nat]
    have h1 : l.take b = l.take c2' ++ (l.take b).drop c2' := by
      conv_lhs => rw [← List.take_append_drop c2' (l.take b)]
      rw [List.take_take, Nat.min_eq_left hle]
    conv_rhs => rw [h1, List.drop_append]
    rw [List.length_take, Nat.min_eq_left (by omega), show a - c2' = 0 by omega, List.drop_zero]

/-- **C68 (partial).** If every chunk starts at a multiple of the check interval and of the period of
the azimuth profile, the pointing is that of the mission scanned as one chunk, sample by sample.
Missing from the full statement: any other partition, see `C68_violation_generic`. -/
theorem C68_aligned_partial [Field K] [LinearOrder K] [FloorRing K] (site : Site K Q) (o : Opts K)
    (w : Nat → K) (hw : IsProfile site o w) (hfs : o.fsamp ≠ 0) (hcl : 0 < o.checkLen)
    (hth : o.azThrow ≠ 0)
    (hd : o.dec0 ≠ []) (hr : o.ra0.length = o.dec0.length) (cfg : ElCfg K) (hv : cfg.Valid)
    (cs : List (Int × Int)) (N : Nat) (hN : 0 < N) (ht : Tiles 0 N cs)
    (halign : ∀ c ∈ cs, o.checkLen ∣ c.1) (hper : ∀ c ∈ cs, ∀ i, w (c.1.toNat + i) = w i)
    (st : State K Q) (hfr : Fresh cfg st.el) (hm : st.mmap = none) :
    ∃ out st₁ one st₂, passPointing site o false cs st = .ok (out, st₁) ∧
      passPointing site o false [(0, (N : Int))] st = .ok (one, st₂) ∧
      (out.map Prod.fst).flatten = (one.map Prod.fst).flatten := by
  obtain ⟨p, _, h2⟩ := pass_pointwise site o w hw hfs hcl hd hr cfg hv
  obtain ⟨out, st1, a1, a2, _, a3⟩ := h2 cs N false st ht (.inl hth) hfr hm
  obtain ⟨one, st2, b1, b2, _, b3⟩ := h2 [(0, (N : Int))] N false st
    (.cons (by omega) (.nil _)) (.inl hth) hfr hm
  refine ⟨out, st1, one, st2, a1, b1, ?_⟩
  obtain ⟨q1, g1, c1, c2, c3⟩ := b3 0 (0, (N : Int)) rfl
  have hone : one = [(q1, g1)] := by
    cases one with
    | nil => simp at c1
    | cons x xs =>
      simp only [List.getElem?_cons_zero, Option.some.injEq] at c1
      subst c1
      cases xs with
      | nil => rfl
      | cons _ _ => simp at b2
  subst hone
  simp only [List.map_cons, List.map_nil, List.flatten_cons, List.flatten_nil, List.append_nil]
  simp only [Int.sub_zero, Int.toNat_natCast] at c2 c3
  have hAt : ∀ t x y y', cfg.At t x y → cfg.At t x y' → y = y' := by
    intro t x y y' h h'
    match cfg, h, h' with
    | none, h, h' => rw [h, h']
    | some (n, A), ⟨u, hu, h⟩, ⟨v, hv', h'⟩ =>
      rw [hu] at hv'
      rw [h, h', Option.some.inj hv']
  have hslice : out.map Prod.fst = cs.map fun c => pySlice q1 c.1 c.2 := by
    apply List.ext_getElem?
    intro k
    rcases hk : cs[k]? with _ | c
    · rw [List.getElem?_map, List.getElem?_map, hk]
      have := List.getElem?_eq_none_iff.1 hk
      rw [List.getElem?_eq_none (by omega)]
      rfl
    · obtain ⟨q, g, d1, d2, d3⟩ := a3 k c hk
      obtain ⟨s1, s2, s3⟩ := tiles_start ht k c hk
      rw [List.getElem?_map, List.getElem?_map, hk, d1]
      simp only [Option.map_some, Option.some.injEq]
      obtain ⟨u, hu⟩ : ∃ u : Nat, c.1 = u := ⟨c.1.toNat, by omega⟩
      obtain ⟨v, hv'⟩ : ∃ v : Nat, c.2 = v := ⟨c.2.toNat, by omega⟩
      have hmem : c ∈ cs := List.mem_of_getElem? hk
      have hal := halign c hmem
      have hpe := hper c hmem
      rw [hu] at hal hpe
      simp only [Int.toNat_natCast] at hpe
      rw [hu, hv', pySlice_nat]
      simp only [hu, hv'] at d2 d3 s2 s3
      apply List.ext_getElem?
      intro i
      rcases Nat.lt_or_ge i (v - u) with hi | hi
      · obtain ⟨y, y1, y2⟩ := d3 i (by omega)
        obtain ⟨y', z1, z2⟩ := c3 (u + i) (by omega)
        rw [y2, List.getElem?_drop, List.getElem?_take_of_lt (by omega), z2]
        -- same check interval
        obtain ⟨cl, hcl'⟩ : ∃ c : Nat, o.checkLen = c := ⟨o.checkLen.toNat, by omega⟩
        simp only [hcl', Int.toNat_natCast] at y1 z1 y2 z2 hal ⊢
        have hal' : cl ∣ u := by exact_mod_cast hal
        obtain ⟨m, rfl⟩ := hal'
        have hcl0 : 0 < cl := by omega
        have hblock : (cl * m + i) / cl * cl = cl * m + i / cl * cl := by
          rw [Nat.mul_add_div hcl0, Nat.add_mul, Nat.mul_comm m cl]
        simp only [hblock, Int.toNat_zero, Nat.zero_add, Int.zero_add] at z1 ⊢
        push_cast at y1 z1 ⊢
        rw [hAt _ _ _ _ y1 z1, hpe i]
      · rw [List.getElem?_eq_none (by omega), List.getElem?_eq_none]
        rw [List.length_drop, List.length_take]
        omega
  rw [hslice, tiles_flatten q1 0 N cs (by simpa using ht) (by omega), List.drop_zero,
    List.take_of_length_le (by omega)]

/-- Sawtooth of period 6 samples, chunks starting at samples 0, 6 and 12. -/
example : (passPointing demoSite demoOpts false [(0, 6), (6, 12), (12, 13)] demoState).map
      (fun r => (r.1.map Prod.fst).flatten)
    = (passPointing demoSite demoOpts false [(0, 13)] demoState).map
      (fun r => (r.1.map Prod.fst).flatten) := by decide +kernel

/-- **C68 (violation).** The azimuth profile and the elevation checks start again with every chunk:
cutting five samples in 3 and 2 changes the pointing of the samples 3 and 4. -/
theorem C68_violation_generic :
    (passPointing demoSite demoOpts false [(0, 5)] demoState).map
      (fun r => (r.1.map Prod.fst).flatten)
        = .ok [(17, 45, 100), (18, 45, 101), (9, 45, 102), (10, 45, 103), (11, 47, 104)] ∧
    (passPointing demoSite demoOpts false [(0, 3), (3, 5)] demoState).map
      (fun r => (r.1.map Prod.fst).flatten)
        = .ok [(17, 45, 100), (18, 45, 101), (9, 45, 102), (7, 46, 103), (8, 46, 104)] := by
  decide +kernel

/-- Pointing of `strictly_az`: for every chunk, sample `i` after its start is at elevation `el0` and
at the azimuth reached in the time since the start *of the chunk*. -/
theorem C68_strictly_az [Field K] [DecidableEq K] (site : Site K Q) (fsamp ctime0 el0 az0 v : K)
    (hfs : fsamp ≠ 0) (hv : v ≠ 0) (ground : Bool) (start stop : Int) (st : State K Q) :
    ∃ st', strictlyAz site fsamp ctime0 el0 az0 v ground start stop st = .ok st' ∧
      st'.qBore.length = (stop - start).toNat ∧
      ∀ i : Nat, i < (stop - start).toNat → st'.qBore[i]? = some
        (site.azel2bore (az0 + v * (i / fsamp)) el0 (((start + i : Int) : K) / fsamp + ctime0)) := by
  unfold strictlyAz Data.ctimes
  rw [if_neg hfs]
  simp only [bind, Except.bind, pure, Except.pure]
  refine ⟨_, rfl, by simp [bore, intRange], fun i hi => ?_⟩
  simp only [bore, intRange, List.map_map, List.zip_map', if_neg hv, Function.comp_def]
  rw [List.getElem?_map, List.getElem?_range hi]
  simp only [Option.map_some]
  congr 2
  · ring
  · ring

/-- **C68 (violation).** `strictly_az` starts again at `az0` with every chunk: three samples in one
chunk, or as 2 and 1. -/
theorem C68_violation_strictly_az :
    (strictlyAz demoSite 1 0 35 0 30 false 0 3 demoState).map (·.qBore)
      = .ok [(0, 35, 0), (30, 35, 1), (60, 35, 2)] ∧
    (strictlyAz demoSite 1 0 35 0 30 false 0 2 demoState).map (·.qBore)
      = .ok [(0, 35, 0), (30, 35, 1)] ∧
    (strictlyAz demoSite 1 0 35 0 30 false 2 3 demoState).map (·.qBore) = .ok [(0, 35, 2)] := by
  decide +kernel

end Verif.Props
