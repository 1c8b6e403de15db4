import Verif.Lemmas.ScanInstrument

/-! # Lemmas: the generic scan with a memory map -/

noncomputable section

namespace Verif.ScanInstrument

open Verif.Chunks Verif.Timeline Verif.Spinmaps Verif.MapMaking Verif.Spec

theorem pass_flag (site : Scan.Site ℝ Quat.Q) (o : Scan.Opts ℝ) (hfs : o.fsamp ≠ 0) (pre : Bool)
    (cs : List (Int × Int)) : ∀ (st : Scan.State ℝ Quat.Q) out st',
      Scan.passPointing site o pre cs st = .ok (out, st') → st'.flag = st.flag := by
  induction cs with
  | nil =>
    intro st out st' h
    simp only [Scan.passPointing, Except.ok.injEq, Prod.mk.injEq] at h
    rw [← h.2]
  | cons c cs ih =>
    intro st out st' h
    obtain ⟨st1, h1, h⟩ := bind_ok h
    obtain ⟨⟨o2, st2⟩, h2, h⟩ := bind_ok h
    cases h
    rw [ih _ _ _ h2, (implement_flag site o hfs pre c st st1 h1).1]

theorem pass_of_points (w : World (Scan.State ℝ Quat.Q)) (site : Scan.Site ℝ Quat.Q)
    (o : Scan.Opts ℝ) (hgr : o.ground = false)
    (hw : w.implement = genericImplement site o) (M : Motion) (pre : Bool) (cs : List Chunk) :
    ∀ (st st' : Scan.State ℝ Quat.Q), Points w M pre st cs st' →
      ∃ out, Scan.passPointing site o pre (cs.map fun c => (c.start, c.stop)) st = .ok (out, st')
        ∧ out.map Prod.fst = cs.map fun c =>
          (List.range (c.stop - c.start).toNat).map fun i => M.bore (c.start.toNat + i) := by
  have ho : ({ o with ground := false } : Scan.Opts ℝ) = o := by
    cases o
    cases hgr
    rfl
  induction cs with
  | nil =>
    intro st st' h
    exact ⟨[], by rw [h]; rfl, rfl⟩
  | cons c cs ih =>
    rintro st st' ⟨p, st1, h1, h2, h3⟩
    rw [hw] at h1
    obtain ⟨st2, h4, h5⟩ := bind_ok h1
    rw [ho] at h4
    obtain ⟨rfl, rfl⟩ := Prod.mk.inj (Except.ok.inj h5)
    obtain ⟨out, h6, h7⟩ := ih _ _ h3
    refine ⟨(st2.qBore, st2.qGround) :: out, ?_, ?_⟩
    · rw [List.map_cons]
      unfold Scan.passPointing
      rw [h4]
      simp only [bind, Except.bind]
      rw [h6]
      rfl
    · rw [List.map_cons, h7, List.map_cons]
      congr 1
      exact h2.bore

theorem generic_steady_memmap (w : World (Scan.State ℝ Quat.Q)) (site : Scan.Site ℝ Quat.Q)
    (o : Scan.Opts ℝ) (hgr : o.ground = false) (prf : Nat → ℝ) (hprf : Scan.IsProfile site o prf)
    (hfs : o.fsamp ≠ 0) (hcl : 0 < o.checkLen) (hd : o.dec0 ≠ [])
    (hr : o.ra0.length = o.dec0.length) (cfg : Scan.ElCfg ℝ) (hv : cfg.Valid)
    (hw : w.implement = genericImplement site o) (hw' : w.resetEl = genericReset) (N : Nat)
    (chunks : List Chunk) (hmi : Mission N chunks)
    (hdiv : o.azThrow ≠ 0 ∨ ∀ c ∈ chunks, o.checkLen.toNat ∣ (c.stop - c.start).toNat)
    (e0 : Scan.State ℝ Quat.Q) (hfr : Scan.Fresh cfg e0.el) (m : List Quat.Q) (hm : N ≤ m.length)
    (hf : e0.flag = none) (M : Motion) (htime : ∀ t : Nat, M.time t = t / o.fsamp + o.ctime0)
    (hflag : ∀ t, M.flag t = false)
    (hrep : Repeats w M chunks { e0 with mmap := none }) :
    Steady w M chunks { e0 with mmap := some m } := by
  have hdiv' : o.azThrow ≠ 0 ∨ ∀ c ∈ chunks.map (fun c => (c.start, c.stop)),
      o.checkLen.toNat ∣ (c.2 - c.1).toNat := by
    rcases hdiv with h | h
    · exact .inl h
    · right
      intro c hc
      obtain ⟨c', hc', rfl⟩ := List.mem_map.1 hc
      exact h c' hc'
  have h0 : ∀ c ∈ chunks, 0 ≤ c.start := by
    intro c hc
    have := tiles_mem hmi.tiles _ (List.mem_map_of_mem (f := fun c : Chunk => (c.start, c.stop)) hc)
    exact this.1
  -- the pass without memory map
  obtain ⟨P, hP, hP'⟩ := hrep
  obtain ⟨e1, hpts, _⟩ := hP' true _ hP
  obtain ⟨out0, hpass0, hout0⟩ := pass_of_points w site o hgr hw M _ chunks _ _ hpts
  -- elevations and azimuths
  obtain ⟨_, _, hp⟩ := Scan.azel_all site o prf hprf hcl hd hr
  obtain ⟨as, has⟩ := hp _ hdiv'
  obtain ⟨outs, o1, _, o3⟩ := Scan.runEl_fresh cfg hv (as.map Prod.snd)
  obtain ⟨e', e'', r1, r2, r3⟩ := o3 e0.el hfr
  have has' : List.Forall₂ (fun c a => Scan.azel site o (Scan.times o c) = .ok a)
      (chunks.map fun c => (c.start, c.stop)) as := has.imp fun _ _ h => h.1
  obtain ⟨outA, stA, a1, a2, _⟩ := Scan.pass_compute site o hfs _ as outs
    { e0 with mmap := none } e' (!true) has' r1 o1 0 N (by simpa using hmi.tiles) (.inl rfl)
  rw [hpass0] at a1
  obtain ⟨rfl, rfl⟩ := Prod.mk.inj (Except.ok.inj a1)
  rw [hout0] at a2
  -- the pass that writes
  obtain ⟨outB, stB, b1, b2, b3, b4, _, b6⟩ := Scan.pass_compute site o hfs _ as outs
    { e0 with mmap := some m } e' (!true) has' r1 o1 0 N (by simpa using hmi.tiles)
    (.inr ⟨rfl, m, rfl, hm⟩)
  rw [← a2] at b2 b6
  have hmm := b6 m rfl
  generalize hqs : (chunks.map fun c =>
    (List.range (c.stop - c.start).toNat).map fun i => M.bore (c.start.toNat + i)) = qs at *
  have hlen : List.Forall₂ (fun (c : Int × Int) (q : List Quat.Q) => q.length = (c.2 - c.1).toNat)
      (chunks.map fun c => (c.start, c.stop)) qs := by
    rw [← hqs, List.forall₂_map_left_iff, List.forall₂_map_right_iff, List.forall₂_same]
    intro c _
    simp
  have hsl := Scan.slices_of_tiles _ qs 0 N (by simpa using hmi.tiles) hlen (m.take 0) (m.drop N) rfl
  have hwrite : ∀ out : List (List Quat.Q × Option (List Quat.Q)), out.map Prod.fst = qs →
      ∀ (k : Nat) c, chunks[k]? = some c → ∃ q g, out[k]? = some (q, g) ∧
        q = (List.range (c.stop - c.start).toNat).map fun i => M.bore (c.start.toNat + i) := by
    intro out ho k c hk
    have h1 : (out.map Prod.fst)[k]? = some ((List.range (c.stop - c.start).toNat).map fun i =>
        M.bore (c.start.toNat + i)) := by
      rw [ho, ← hqs, List.getElem?_map, hk]
      rfl
    rw [List.getElem?_map] at h1
    cases hx : out[k]? with
    | none =>
      rw [hx] at h1
      cases h1
    | some x =>
      rw [hx] at h1
      exact ⟨x.1, x.2, rfl, Option.some.inj h1⟩
  refine ⟨fun first e => if first then e = { e0 with mmap := some m } else
    Scan.Fresh cfg e.el ∧ e.flag = none ∧ e.mmap = some (m.take 0 ++ qs.flatten ++ m.drop N), ?_, ?_⟩
  · rfl
  · rintro first e he
    cases first with
    | true =>
      simp only [if_true] at he
      subst he
      refine ⟨stB, points_of_pass w site o hgr hfs hw M htime hflag _ chunks _ outB stB b1 hf h0
        (hwrite outB b2), { stB with el := e'' }, ?_, ?_⟩
      · rw [hw']
        unfold genericReset
        rw [b3, r2]
        rfl
      · simp only [Bool.false_eq_true, if_false]
        exact ⟨r3, b4.trans hf, hmm⟩
    | false =>
      simp only [Bool.false_eq_true, if_false] at he
      obtain ⟨f1, f2, f3⟩ := he
      obtain ⟨outC, stC, c1, c2, c3, c4, _⟩ := Scan.pass_read site o hfs
        (chunks.map fun c => (c.start, c.stop)) e _ f3
      rw [hsl] at c2
      obtain ⟨_, _, _, d2⟩ := Scan.runEl_fresh cfg hv []
      obtain ⟨x', x'', d3, d4, d5⟩ := d2 e.el f1
      rw [Scan.runEl_nil] at d3
      simp only [Except.ok.injEq, Prod.mk.injEq] at d3
      refine ⟨stC, points_of_pass w site o hgr hfs hw M htime hflag _ chunks _ outC stC c1 f2 h0
        (hwrite outC c2), { stC with el := x'' }, ?_, ?_⟩
      · rw [hw']
        unfold genericReset
        rw [c4, d3.2, d4]
        rfl
      · simp only [Bool.false_eq_true, if_false]
        exact ⟨d5, (pass_flag site o hfs true _ _ _ _ c1).trans f2, c3⟩

end Verif.ScanInstrument
