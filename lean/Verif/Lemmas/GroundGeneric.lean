import Verif.Lemmas.GroundScan

/-! # Lemmas: the generic scan with a ground template -/

noncomputable section

namespace Verif.ScanInstrument.Ground

open Verif.Chunks Verif.Timeline Verif.Spinmaps Verif.MapMaking Verif.Spec Verif.Props

/-- A site whose pointing is that on the sky together with that on the ground. -/
def twin (site : Scan.Site ℝ Quat.Q) : Scan.Site ℝ (Quat.Q × Quat.Q) where
  radec2azel := site.radec2azel
  azel2bore := fun az el t => (site.azel2bore az el t, site.ground az el)
  ground := fun az el => (site.ground az el, site.ground az el)
  triangle := site.triangle

theorem twin_elLoop (site : Scan.Site ℝ Quat.Q) (o o' : Scan.Opts ℝ) (g : Bool)
    (ho : o' = { o with ground := g }) (times : List ℝ) :
    ∀ fuel n s, Scan.elLoop (twin site) o times fuel n s = Scan.elLoop site o' times fuel n s := by
  subst ho
  intro fuel
  induction fuel with
  | zero => intro n s; rfl
  | succ fuel ih =>
    intro n s
    unfold Scan.elLoop
    simp only [ih]
    rfl

theorem twin_azel (site : Scan.Site ℝ Quat.Q) (o : Scan.Opts ℝ) (g : Bool) (ctime : List ℝ) :
    Scan.azel (twin site) o ctime = Scan.azel site { o with ground := g } ctime := by
  have h : ∀ times, Scan.elCheckM (twin site) o times =
      Scan.elCheckM site { o with ground := g } times := by
    intro times
    unfold Scan.elCheckM Scan.elCheck
    simp only [twin_elLoop site o _ g rfl]
    rfl
  unfold Scan.azel
  simp only [h]
  rfl

theorem centre_length {a b n : Nat} {p c l : List ℝ} (h : Scan.centre a b n p c = .ok l) :
    l.length ≤ n := by
  unfold Scan.centre at h
  obtain ⟨x, _, h⟩ := bind_ok h
  obtain ⟨y, _, h⟩ := bind_ok h
  obtain rfl := Except.ok.inj h
  simp

theorem azel_length {site : Scan.Site ℝ Quat.Q} {o : Scan.Opts ℝ} {ctime : List ℝ}
    {r : List ℝ × List ℝ} (h : Scan.azel site o ctime = .ok r) : r.1.length ≤ ctime.length := by
  unfold Scan.azel at h
  split at h
  · cases h
  split at h
  · cases h
  obtain ⟨c, _, h⟩ := bind_ok h
  obtain ⟨prf, _, h⟩ := bind_ok h
  obtain ⟨az, h1, h⟩ := bind_ok h
  obtain ⟨el, _, h⟩ := bind_ok h
  obtain rfl := Except.ok.inj h
  exact centre_length h1

theorem bore_fst (site : Scan.Site ℝ Quat.Q) (az el ctime : List ℝ) :
    Scan.bore site az el ctime = (Scan.bore (twin site) az el ctime).map Prod.fst := by
  unfold Scan.bore
  rw [List.map_map]
  rfl

theorem bore_snd (site : Scan.Site ℝ Quat.Q) (az : List ℝ) : ∀ (el ctime : List ℝ),
    az.length ≤ ctime.length →
    List.zipWith site.ground az el = (Scan.bore (twin site) az el ctime).map Prod.snd := by
  unfold Scan.bore
  induction az with
  | nil => intro el ctime _; simp
  | cons a az ih =>
    intro el ctime h
    cases el with
    | nil => simp
    | cons b el =>
      cases ctime with
      | nil => simp at h
      | cons t ctime =>
        have := ih el ctime (by simpa using h)
        simp only [List.zipWith_cons_cons, List.zip_cons_cons, List.map_cons, this]
        rfl

theorem implement_none {Q : Type} (site : Scan.Site ℝ Q) (o : Scan.Opts ℝ) (pre : Bool) (a b : Int)
    (st : Scan.State ℝ Q) (hm : st.mmap = none) (ctime : List ℝ)
    (hc : Data.ctimes o.fsamp o.ctime0 a b = .ok ctime) :
    Scan.implementScan site o pre a b st = Scan.compute site o ctime a b st := by
  obtain ⟨c, q, qg, m, f, e⟩ := st
  obtain rfl : m = none := hm
  unfold Scan.implementScan
  rw [hc]
  cases pre <;> rfl

theorem twin_implement (site : Scan.Site ℝ Quat.Q) (o : Scan.Opts ℝ) (g pre : Bool) (a b : Int)
    (st : Scan.State ℝ Quat.Q) (st2 st2' : Scan.State ℝ (Quat.Q × Quat.Q)) (hm : st.mmap = none)
    (hm2 : st2.mmap = none) (hel : st2.el = st.el)
    (h : Scan.implementScan (twin site) o pre a b st2 = .ok st2') :
    ∃ st', Scan.implementScan site { o with ground := g } pre a b st = .ok st' ∧
      st'.qBore = st2'.qBore.map Prod.fst ∧
      (g = true → st'.qGround = some (st2'.qBore.map Prod.snd)) ∧ st'.mmap = none ∧
      st2'.mmap = none ∧ st2'.el = st'.el ∧ st'.flag = st.flag := by
  have h' := h
  unfold Scan.implementScan at h'
  obtain ⟨ctime, h1, -⟩ := bind_ok h'
  rw [implement_none (twin site) o pre a b st2 hm2 ctime h1] at h
  rw [implement_none site { o with ground := g } pre a b st hm ctime h1]
  unfold Scan.compute at h ⊢
  obtain ⟨⟨az, el⟩, h2, h⟩ := bind_ok h
  obtain ⟨⟨el', steps⟩, h3, h⟩ := bind_ok h
  obtain ⟨mm, h4, h⟩ := bind_ok h
  obtain rfl := Except.ok.inj h
  rw [twin_azel site o g] at h2
  rw [hel] at h3
  rw [h2]
  simp only [bind, Except.bind]
  rw [h3, hm]
  dsimp only
  rw [hm2] at h4
  obtain rfl := Except.ok.inj h4
  refine ⟨_, rfl, bore_fst site _ _ _, ?_, rfl, rfl, rfl, rfl⟩
  rintro rfl
  rw [if_pos rfl, bore_snd site az el' ctime (azel_length h2)]

theorem pass_after {Q : Type} (site : Scan.Site ℝ Q) (o : Scan.Opts ℝ) (w : Nat → ℝ)
    (hw : Scan.IsProfile site o w) (hfs : o.fsamp ≠ 0) (hcl : 0 < o.checkLen)
    (hd : o.dec0 ≠ []) (hr : o.ra0.length = o.dec0.length) (cfg : Scan.ElCfg ℝ) (hv : cfg.Valid)
    (cs : List (Int × Int)) (N : Nat) (pre : Bool) (st : Scan.State ℝ Q) (ht : Tiles 0 N cs)
    (hdiv : o.azThrow ≠ 0 ∨ ∀ c ∈ cs, o.checkLen.toNat ∣ (c.2 - c.1).toNat)
    (hfr : Scan.Fresh cfg st.el) (hm : st.mmap = none) :
    ∃ out st', Scan.passPointing site o pre cs st = .ok (out, st') ∧
      ∃ e'', Scan.resetEl st'.el = .ok e'' ∧ Scan.Fresh cfg e'' := by
  obtain ⟨p, hsel, hp⟩ := Scan.azel_all site o w hw hcl hd hr
  obtain ⟨as, has⟩ := hp cs hdiv
  obtain ⟨outs, o1, o2, o3⟩ := Scan.runEl_fresh cfg hv (as.map Prod.snd)
  obtain ⟨e', e'', r1, r2, r3⟩ := o3 st.el hfr
  have has' : List.Forall₂ (fun c a => Scan.azel site o (Scan.times o c) = .ok a) cs as :=
    has.imp fun _ _ h => h.1
  obtain ⟨out, st', p1, p2, p3, p4, p5, _⟩ := Scan.pass_compute site o hfs cs as outs st e' pre has' r1
    o1 0 N (by simpa using ht) (.inl hm)
  exact ⟨out, st', p1, e'', by rw [p3]; exact r2, r3⟩

theorem times_motion (o : Scan.Opts ℝ) (g : Bool) (M : Motion)
    (htime : ∀ t : Nat, M.time t = t / o.fsamp + o.ctime0) (c : Chunk) (h0 : 0 ≤ c.start) :
    Scan.times ({ o with ground := g } : Scan.Opts ℝ) (c.start, c.stop) =
      (List.range (c.stop - c.start).toNat).map fun k => M.time (c.start.toNat + k) := by
  unfold Scan.times intRange
  rw [List.map_map]
  apply List.map_congr_left
  intro i _
  rw [htime]
  simp only [Function.comp_def]
  congr 2
  have h9 : ((c.start.toNat : Nat) : Int) = c.start := by omega
  push_cast
  rw [← h9]
  push_cast
  norm_cast

/-- Both kinds of pointing of a pass, from the pass of the twin site. -/
theorem points_of_twin (w : World (Scan.State ℝ Quat.Q)) (site : Scan.Site ℝ Quat.Q)
    (o : Scan.Opts ℝ) (hfs : o.fsamp ≠ 0) (hw : w.implement = genericImplement site o) (M : Motion)
    (G : Nat → Quat.Q) (htime : ∀ t : Nat, M.time t = t / o.fsamp + o.ctime0)
    (hflag : ∀ t, M.flag t = false) (pre : Bool) (cs : List Chunk) :
    ∀ (st : Scan.State ℝ Quat.Q) (st2 : Scan.State ℝ (Quat.Q × Quat.Q)) out st2',
      Scan.passPointing (twin site) o pre (cs.map fun c => (c.start, c.stop)) st2 = .ok (out, st2') →
      st.mmap = none → st2.mmap = none → st2.el = st.el →
      st.flag = none → (∀ c ∈ cs, 0 ≤ c.start) →
      (∀ (k : Nat) c, cs[k]? = some c → ∃ q g, out[k]? = some (q, g) ∧
        q = (List.range (c.stop - c.start).toNat).map fun i =>
          (M.bore (c.start.toNat + i), G (c.start.toNat + i))) →
      (∃ st', ScanInstrument.Points w M pre st cs st' ∧ st'.mmap = none ∧ st'.flag = none ∧
        st2'.el = st'.el) ∧
      ∃ st', Points w M G pre st cs st' ∧ st'.mmap = none ∧ st'.flag = none ∧ st2'.el = st'.el := by
  induction cs with
  | nil =>
    intro st st2 out st2' h hm hm2 hel hf h0 hq
    simp only [List.map_nil, Scan.passPointing, Except.ok.injEq, Prod.mk.injEq] at h
    rw [← h.2]
    exact ⟨⟨st, rfl, hm, hf, hel⟩, st, rfl, hm, hf, hel⟩
  | cons c cs ih =>
    intro st st2 out st2' h hm hm2 hel hf h0 hq
    rw [List.map_cons] at h
    unfold Scan.passPointing at h
    obtain ⟨s2, e1, h⟩ := bind_ok h
    obtain ⟨⟨o2, s2'⟩, e2, h⟩ := bind_ok h
    cases h
    obtain ⟨q, g, g1, g2⟩ := hq 0 c rfl
    simp only [List.getElem?_cons_zero, Option.some.injEq, Prod.mk.injEq] at g1
    have hq' := fun (k : Nat) c' (hk : cs[k]? = some c') => by
      have := hq (k + 1) c' (by simpa using hk)
      simp only [List.getElem?_cons_succ] at this
      exact this
    have one : ∀ g : Bool, ∃ st1 p, w.implement st c g pre = .ok (p, st1) ∧
        ScanInstrument.PointsAt M c p ∧ (g = true → PointsAt M G c p) ∧ st1.mmap = none ∧
        s2.mmap = none ∧ s2.el = st1.el ∧ st1.flag = none := by
      intro g
      obtain ⟨st1, a1, a2, a3, a4, a5, a6, a7⟩ := twin_implement site o g pre c.start c.stop st st2 s2
        hm hm2 hel e1
      have f2 := (implement_flag site { o with ground := g } hfs pre (c.start, c.stop) st st1 a1).2
      have hsky : ScanInstrument.PointsAt M c ⟨st1.ctime, st1.qBore, st1.qGround, st1.flag⟩ := by
        refine ⟨?_, ?_, ?_⟩
        · exact f2.trans (times_motion o g M htime c (h0 c List.mem_cons_self))
        · show st1.qBore = _
          rw [a2, g1.1, g2, List.map_map]
          rfl
        · rw [a7, hf]
          exact fun k _ => hflag _
      refine ⟨st1, ⟨st1.ctime, st1.qBore, st1.qGround, st1.flag⟩, ?_, hsky, ?_, a4, a5, a6,
        a7.trans hf⟩
      · rw [hw]
        unfold genericImplement
        rw [a1]
        rfl
      · intro hg
        refine ⟨hsky, ?_⟩
        show st1.qGround = _
        rw [a3 hg, g1.1, g2, List.map_map]
        rfl
    constructor
    · obtain ⟨st1, p, b1, b2, -, b4, b5, b6, b7⟩ := one false
      obtain ⟨⟨st', c1, c2⟩, -⟩ := ih st1 s2 o2 st2' e2 b4 b5 b6 b7
        (fun c hc => h0 c (List.mem_cons_of_mem _ hc)) hq'
      exact ⟨st', ⟨p, st1, b1, b2, c1⟩, c2⟩
    · obtain ⟨st1, p, b1, -, b3, b4, b5, b6, b7⟩ := one true
      obtain ⟨-, st', c1, c2⟩ := ih st1 s2 o2 st2' e2 b4 b5 b6 b7
        (fun c hc => h0 c (List.mem_cons_of_mem _ hc)) hq'
      exact ⟨st', ⟨p, st1, b1, b3 rfl, c1⟩, c2⟩

theorem generic_steady_every (w : World (Scan.State ℝ Quat.Q)) (site : Scan.Site ℝ Quat.Q)
    (o : Scan.Opts ℝ) (prf : Nat → ℝ) (hprf : Scan.IsProfile site o prf)
    (hfs : o.fsamp ≠ 0) (hcl : 0 < o.checkLen) (hd : o.dec0 ≠ [])
    (hr : o.ra0.length = o.dec0.length) (cfg : Scan.ElCfg ℝ) (hv : cfg.Valid)
    (hw : w.implement = genericImplement site o) (hw' : w.resetEl = genericReset) (N : Nat)
    (chunks : List Chunk) (hmi : Mission N chunks)
    (hdiv : o.azThrow ≠ 0 ∨ ∀ c ∈ chunks, o.checkLen.toNat ∣ (c.stop - c.start).toNat)
    (el0 : Option (Step.ElSteps ℝ)) (hfr : Scan.Fresh cfg el0) :
    ∃ bore G : Nat → Quat.Q,
      (∀ c ∈ chunks, ∀ i : Nat, i < (c.stop - c.start).toNat → ∃ (p : ℝ × ℝ) (y : ℝ),
        Selected o.elMin (Scan.patches site o (((c.start +
            (i / o.checkLen.toNat * o.checkLen.toNat : Nat) : Int) : ℝ) / o.fsamp + o.ctime0)) p ∧
          cfg.At (c.start.toNat + i) p.2 y ∧
          bore (c.start.toNat + i) =
            site.azel2bore (prf i + p.1) y (((c.start + i : Int) : ℝ) / o.fsamp + o.ctime0) ∧
          G (c.start.toNat + i) = site.ground (prf i + p.1) y) ∧
      ∀ M : Motion, M.bore = bore → (∀ t : Nat, M.time t = t / o.fsamp + o.ctime0) →
        (∀ t, M.flag t = false) → ∀ e0 : Scan.State ℝ Quat.Q, Scan.Fresh cfg e0.el → e0.mmap = none →
          e0.flag = none → ScanInstrument.Steady w M chunks e0 ∧ Steady w M G chunks e0 := by
  have hprf' : Scan.IsProfile (twin site) o prf := hprf
  obtain ⟨p, hsel, hp⟩ := Scan.pass_pointwise (twin site) o prf hprf' hfs hcl hd hr cfg hv
  have hdiv' : o.azThrow ≠ 0 ∨ ∀ c ∈ chunks.map (fun c => (c.start, c.stop)),
      o.checkLen.toNat ∣ (c.2 - c.1).toNat := by
    rcases hdiv with h | h
    · exact .inl h
    · right
      intro c hc
      obtain ⟨c', hc', rfl⟩ := List.mem_map.1 hc
      exact h c' hc'
  have h0 : ∀ c ∈ chunks, 0 ≤ c.start ∧ c.start < c.stop := by
    intro c hc
    have := tiles_mem hmi.tiles _ (List.mem_map_of_mem (f := fun c : Chunk => (c.start, c.stop)) hc)
    exact ⟨this.1, this.2.1⟩
  -- a value for each sample of each chunk
  let At : Int → Nat → Quat.Q × Quat.Q → Prop := fun a i q => ∃ y,
    cfg.At (a.toNat + i) (p (((a + (i / o.checkLen.toNat * o.checkLen.toNat : Nat) : Int) : ℝ)
      / o.fsamp + o.ctime0)).2 y ∧
    q = (twin site).azel2bore (prf i + (p (((a + (i / o.checkLen.toNat * o.checkLen.toNat : Nat) : Int)
      : ℝ) / o.fsamp + o.ctime0)).1) y (((a + i : Int) : ℝ) / o.fsamp + o.ctime0)
  have hAt : ∀ a i q q', At a i q → At a i q' → q = q' := by
    rintro a i q q' ⟨y, h1, h2⟩ ⟨y', h1', h2'⟩
    rw [h2, h2', at_unique h1 h1']
  have hpass : ∀ (pre : Bool) (st : Scan.State ℝ (Quat.Q × Quat.Q)), Scan.Fresh cfg st.el →
      st.mmap = none →
      ∃ out st', Scan.passPointing (twin site) o pre (chunks.map fun c => (c.start, c.stop)) st =
        .ok (out, st') ∧ (∃ e'', Scan.resetEl st'.el = .ok e'' ∧ Scan.Fresh cfg e'') ∧
        ∀ (k : Nat) c, chunks[k]? = some c → ∃ q g, out[k]? = some (q, g) ∧
          q.length = (c.stop - c.start).toNat ∧ ∀ (i : Nat) x, q[i]? = some x → At c.start i x := by
    intro pre st h1 h2
    obtain ⟨out, st', a1, _, _, a4⟩ := hp _ N pre st hmi.tiles hdiv' h1 h2
    obtain ⟨out', st'', b1, b2⟩ := pass_after (twin site) o prf hprf' hfs hcl hd hr cfg hv _ N pre st
      hmi.tiles hdiv' h1 h2
    rw [a1] at b1
    simp only [Except.ok.injEq, Prod.mk.injEq] at b1
    obtain ⟨rfl, rfl⟩ := b1
    refine ⟨out, st', a1, b2, fun k c hk => ?_⟩
    obtain ⟨q, g, c1, c2, c3⟩ := a4 k (c.start, c.stop) (by rw [List.getElem?_map, hk]; rfl)
    refine ⟨q, g, c1, c2, fun i x hx => ?_⟩
    have hi := (List.getElem?_eq_some_iff.1 hx).1
    obtain ⟨y, d1, d2⟩ := c3 i (by omega)
    rw [hx] at d2
    exact ⟨y, d1, Option.some.inj d2⟩
  have hex : ∀ c ∈ chunks, ∀ i : Nat, i < (c.stop - c.start).toNat → ∃ x, At c.start i x := by
    obtain ⟨out, st', _, _, a3⟩ := hpass false ⟨[], [], none, none, none, el0⟩ hfr rfl
    intro c hc i hi
    obtain ⟨k, hk, rfl⟩ := List.getElem_of_mem hc
    obtain ⟨q, g, c1, c2, c3⟩ := a3 k _ (List.getElem?_eq_getElem hk)
    exact ⟨q[i], c3 i _ (List.getElem?_eq_getElem (by omega))⟩
  have hbore : ∀ t : Nat, ∃ x : Quat.Q × Quat.Q, ∀ c ∈ chunks, ∀ i : Nat,
      i < (c.stop - c.start).toNat → c.start.toNat + i = t → At c.start i x := by
    intro t
    by_cases h : ∃ c ∈ chunks, ∃ i : Nat, i < (c.stop - c.start).toNat ∧ c.start.toNat + i = t
    · obtain ⟨c, hc, i, hi, rfl⟩ := h
      obtain ⟨x, hx⟩ := hex c hc i hi
      refine ⟨x, fun c' hc' i' hi' e => ?_⟩
      have h1 := h0 c hc
      have h2 := h0 c' hc'
      have := tiles_unique (t := c.start + i) hmi.tiles
        (List.mem_map_of_mem (f := fun c : Chunk => (c.start, c.stop)) hc)
        (List.mem_map_of_mem (f := fun c : Chunk => (c.start, c.stop)) hc')
        (by dsimp only; omega) (by dsimp only; omega) (by dsimp only; omega) (by dsimp only; omega)
      have h3 : c.start = c'.start := congrArg Prod.fst this
      have h4 : i' = i := by omega
      rw [← h3, h4]
      exact hx
    · exact ⟨(0, 0), fun c hc i hi e => (h ⟨c, hc, i, hi, e⟩).elim⟩
  choose bore hbore using hbore
  refine ⟨fun t => (bore t).1, fun t => (bore t).2, fun c hc i hi => ?_, fun M hM htime hflag => ?_⟩
  · obtain ⟨y, d1, d2⟩ := hbore _ c hc i hi rfl
    exact ⟨_, y, hsel _, d1, congrArg Prod.fst d2, congrArg Prod.snd d2⟩
  · have both : ∀ (first : Bool) (e : Scan.State ℝ Quat.Q), Scan.Fresh cfg e.el → e.mmap = none →
        e.flag = none → ∃ e'' : Option (Step.ElSteps ℝ), Scan.Fresh cfg e'' ∧
          (∃ st', ScanInstrument.Points w M (!first) e chunks st' ∧ st'.mmap = none ∧
            st'.flag = none ∧ w.resetEl st' = .ok { st' with el := e'' }) ∧
          ∃ st', Points w M (fun t => (bore t).2) (!first) e chunks st' ∧ st'.mmap = none ∧
            st'.flag = none ∧ w.resetEl st' = .ok { st' with el := e'' } := by
      intro first e p1 p2 p3
      obtain ⟨out, st', a1, ⟨e'', a4, a5⟩, a6⟩ := hpass (!first) ⟨[], [], none, none, none, e.el⟩ p1 rfl
      obtain ⟨⟨s1, b1, b2, b3, b4⟩, s2, c1, c2, c3, c4⟩ := points_of_twin w site o hfs hw M
        (fun t => (bore t).2) htime hflag (!first) chunks e ⟨[], [], none, none, none, e.el⟩ out st' a1
        p2 rfl rfl p3 (fun c hc => (h0 c hc).1) fun k c hk => by
          obtain ⟨q, g, c1, c2, c3⟩ := a6 k c hk
          refine ⟨q, g, c1, ?_⟩
          apply List.ext_getElem (by simp [c2])
          intro i h1 h2
          have hc := List.mem_of_getElem? hk
          simp only [List.getElem_map, List.getElem_range, hM]
          exact hAt _ _ _ _ (c3 i _ (List.getElem?_eq_getElem h1)) (hbore _ c hc i (by omega) rfl)
      refine ⟨e'', a5, ⟨s1, b1, b2, b3, ?_⟩, s2, c1, c2, c3, ?_⟩
      · rw [hw']
        unfold genericReset
        rw [← b4, a4]
        rfl
      · rw [hw']
        unfold genericReset
        rw [← c4, a4]
        rfl
    intro e0 hfr hm hf
    constructor
    · refine ⟨fun _ e => Scan.Fresh cfg e.el ∧ e.mmap = none ∧ e.flag = none, ⟨hfr, hm, hf⟩, ?_⟩
      rintro first e ⟨p1, p2, p3⟩
      obtain ⟨e'', f1, ⟨s, f2, f3, f4, f5⟩, -⟩ := both first e p1 p2 p3
      exact ⟨s, f2, _, f5, f1, f3, f4⟩
    · refine ⟨fun _ e => Scan.Fresh cfg e.el ∧ e.mmap = none ∧ e.flag = none, ⟨hfr, hm, hf⟩, ?_⟩
      rintro first e ⟨p1, p2, p3⟩
      obtain ⟨e'', f1, -, s, f2, f3, f4, f5⟩ := both first e p1 p2 p3
      exact ⟨s, f2, _, f5, f1, f3, f4⟩

theorem generic_steady (w : World (Scan.State ℝ Quat.Q)) (site : Scan.Site ℝ Quat.Q)
    (o : Scan.Opts ℝ) (prf : Nat → ℝ) (hprf : Scan.IsProfile site o prf)
    (hfs : o.fsamp ≠ 0) (hcl : 0 < o.checkLen) (hd : o.dec0 ≠ [])
    (hr : o.ra0.length = o.dec0.length) (cfg : Scan.ElCfg ℝ) (hv : cfg.Valid)
    (hw : w.implement = genericImplement site o) (hw' : w.resetEl = genericReset) (N : Nat)
    (chunks : List Chunk) (hmi : Mission N chunks)
    (hdiv : o.azThrow ≠ 0 ∨ ∀ c ∈ chunks, o.checkLen.toNat ∣ (c.stop - c.start).toNat)
    (e0 : Scan.State ℝ Quat.Q) (hfr : Scan.Fresh cfg e0.el) (hm : e0.mmap = none)
    (hf : e0.flag = none) :
    ∃ bore G : Nat → Quat.Q,
      (∀ c ∈ chunks, ∀ i : Nat, i < (c.stop - c.start).toNat → ∃ (p : ℝ × ℝ) (y : ℝ),
        Selected o.elMin (Scan.patches site o (((c.start +
            (i / o.checkLen.toNat * o.checkLen.toNat : Nat) : Int) : ℝ) / o.fsamp + o.ctime0)) p ∧
          cfg.At (c.start.toNat + i) p.2 y ∧
          bore (c.start.toNat + i) =
            site.azel2bore (prf i + p.1) y (((c.start + i : Int) : ℝ) / o.fsamp + o.ctime0) ∧
          G (c.start.toNat + i) = site.ground (prf i + p.1) y) ∧
      ∀ M : Motion, M.bore = bore → (∀ t : Nat, M.time t = t / o.fsamp + o.ctime0) →
        (∀ t, M.flag t = false) → ScanInstrument.Steady w M chunks e0 ∧ Steady w M G chunks e0 := by
  obtain ⟨bore, G, h1, h2⟩ := generic_steady_every w site o prf hprf hfs hcl hd hr cfg hv hw hw' N chunks
    hmi hdiv e0.el hfr
  exact ⟨bore, G, h1, fun M a b c => h2 M a b c e0 hfr hm hf⟩

end Verif.ScanInstrument.Ground
