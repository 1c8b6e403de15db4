import Verif.Spec.Tables
import Verif.Lemmas.FocalScan
import Verif.Props.InputPlane

/-!
# Lemmas: focal planes from tables
-/

noncomputable section

namespace Verif.Tables

open Verif.Beam Verif.Timeline Verif.Spinmaps Verif.MapMaking Verif.ScanInstrument Verif.Spec
open Verif.FocalPlane (PReachable NoCount tableKeys inputFocalPlane Plane)
open Verif.FocalScan (SharesBeam Lone Plain GaussianOf GridOptions parameters det arg_eq det_of degrees_width)
open Verif.ScanObjects (ObjPair ObjWorld Coefs PairOf)

variable {E : Type}

/-- The options, read as those of a grid. -/
theorem TableOptions.grid {kw : Dict ℝ} {F A err : ℝ} {L : Nat} {mm : Int} {sym : Bool} {mu : Option Nat}
    (h : TableOptions kw F A err L mm sym mu) :
    GridOptions kw (.num 0) F A 0 0 err L mm false sym mu := by
  have hno : ∀ k ∈ [Key.az, .el, .name, .polang, .dead, .pol, .idx], Dict.get? kw k = none := by
    intro k hk
    refine FocalPlane.get?_none_of kw (r := kw.map Prod.fst) (fun x hx => List.mem_map_of_mem hx) ?_
    intro hm
    obtain ⟨x, hx, e⟩ := List.mem_map.1 hm
    exact h.others x hx (by rw [e]; exact hk)
  refine ⟨h.known, h.btype, h.lmax, h.mmax, h.fwhm, h.amplitude, ?_, rfl, h.error, ?_, h.symmetric, h.plate⟩
  · rw [hno .polang (by simp)]
    rfl
  · rw [hno .dead (by simp)]
    rfl

/-- Each new detector is a main beam without ghosts and without coefficients in memory, with the limits of
the options. -/
theorem table_detectors (env : Env ℝ) (hpi : env.pi = Real.pi) (rng : Nat → ℝ) (p : Plane ℝ)
    (hr : PReachable env rng (fun _ op => NoCount op) p) (azs els polangs : List (FocalPlane.Row ℝ))
    (deads : Option (List (FocalPlane.Row ℝ))) (kw : Dict ℝ)
    (he : els.length = azs.length) (hq : polangs.length = azs.length)
    (hd : ∀ d, deads = some d → d.length = azs.length) {F A err : ℝ} {L : Nat} {mm : Int} {sym : Bool}
    {mu : Option Nat} (hkw : TableOptions kw F A err L mm sym mu)
    (hok : ((inputFocalPlane env azs els polangs deads true kw).run p).1 = .ok ()) :
    let p' := ((inputFocalPlane env azs els polangs deads true kw).run p).2
    ∀ r, p.heap.size ≤ r → r < p.heap.size + 2 * azs.length →
      r < p'.heap.size ∧ Lone (p'.heap.cell r) ∧ (p'.heap.cell r).attr .blm = none ∧
      Limits (p'.heap.cell r) L mm F := by
  have hb : FocalPlane.BInv p := hr.binv fun _ _ h => h
  unfold inputFocalPlane Exec.run at hok ⊢
  dsimp only at hok ⊢
  rw [if_pos rfl] at hok ⊢
  rcases hi : FocalPlane.startIdx p true with e | i <;> rw [hi] at hok
  · cases hok
  dsimp only at hok ⊢
  rw [show (FocalPlane.presetNdet p (2 * azs.length) true).heap = p.heap from rfl] at hok ⊢
  set ds := deads.getD (azs.map fun _ => (.bool false, .bool false)) with hds
  have hdl : ds.length = azs.length := by
    cases h : deads with
    | none => rw [hds, h]; simp
    | some d => rw [hds, h]; exact hd d h
  obtain ⟨g, hsame, hspec⟩ := FocalPlane.buildPairs_spec env (FocalPlane.inputOpts kw 0 azs els polangs ds)
    p.heap hb.wf
  rcases hbp : FocalPlane.buildPairs env (FocalPlane.inputOpts kw 0 azs els polangs ds) p.heap
    with ⟨e | qs, h'⟩ <;> rw [hbp] at hok hspec hsame <;> dsimp only at hok hspec hsame ⊢
  · cases hok
  obtain ⟨q1, q2, q3⟩ := hspec qs rfl
  rw [FocalPlane.inputOpts_length kw 0 azs els polangs ds he hq hdl] at q1 q2
  intro r h1 h2
  show r < h'.size ∧ Lone (h'.cell r) ∧ (h'.cell r).attr .blm = none ∧ Limits (h'.cell r) L mm F
  -- what `Beam` makes of the options of one detector
  have key : ∀ l : Dict ℝ, (∀ x ∈ l, x.1 ∈ tableKeys) → init env (l ++ kw) = .ok (h'.cell r) →
      Lone (h'.cell r) ∧ (h'.cell r).attr .blm = none ∧ Limits (h'.cell r) L mm F := by
    intro l hl hd
    have harg : ∀ k, k ∉ tableKeys → arg (l ++ kw) k = arg kw k := by
      intro k hk
      unfold arg
      rw [get?_append, FocalPlane.get?_none_of l hl hk]
      rfl
    obtain ⟨-, -, i3, -, i5, -, i7⟩ := init_spec env hd
    rw [harg .ghost (by simp [tableKeys]), arg_eq kw _ (.bool false) rfl, hkw.main] at i3
    refine ⟨⟨i3, (i5 i3).1, (i5 i3).2⟩, i7, ?_⟩
    have k1 := harg .lmax (by simp [tableKeys])
    have k2 := harg .mmax (by simp [tableKeys])
    have k3 := harg .fwhm (by simp [tableKeys])
    rw [arg_eq kw _ (.int 700) rfl, hkw.lmax] at k1
    rw [arg_eq kw _ .none rfl] at k2 k3
    obtain ⟨i, L', M', F', b1, b2, b3, b4, b5, -⟩ := init_limits (by rw [hpi]; exact Real.pi_pos) hd
      (by rw [k1]; exact ⟨fun _ => .inr ⟨L, rfl⟩, by simp⟩)
      (by
        rw [k2]
        refine ⟨fun _ => ?_, by simp⟩
        rcases hkw.mmax with ⟨e, -⟩ | ⟨m, e, -⟩
        · exact .inl e
        · exact .inr ⟨m, by rw [e]; rfl⟩)
      (by
        rw [k3]
        refine ⟨by simp, fun _ => ?_⟩
        rcases hkw.fwhm with ⟨e, -⟩ | ⟨x, e, -⟩
        · exact .inl e
        · exact .inr ⟨x, by rw [e]; rfl⟩)
    rw [k1] at b1
    cases b1
    have eL : L' = L := by rw [b2]; simp
    subst eL
    have eM : M' = mm := by
      rw [b3, k2]
      rcases hkw.mmax with ⟨e, e'⟩ | ⟨m, e, e'⟩
      · rw [e, e']
      · rw [e, e']
        rfl
    have eF : F' = F := by
      rw [b4, k3]
      rcases hkw.fwhm with ⟨e, e'⟩ | ⟨x, e, e'⟩
      · rw [e, e']
        dsimp only
        rw [degrees_width hpi]
        simp
      · rw [e, e']
        rfl
    rw [← eM, ← eF]
    exact b5
  -- the detectors of row `n`
  obtain ⟨n, hn, hrn⟩ : ∃ n, n < azs.length ∧ (r = p.heap.size + 2 * n ∨ r = p.heap.size + 2 * n + 1) :=
    ⟨(r - p.heap.size) / 2, by omega, by omega⟩
  obtain ⟨da, db, x, y, z⟩ := q3 n _ (FocalPlane.inputOpts_get kw azs els polangs ds 0 n _ _ _ _
    (List.getElem?_eq_getElem hn) (List.getElem?_eq_getElem (by omega))
    (List.getElem?_eq_getElem (by omega)) (List.getElem?_eq_getElem (by omega)))
  unfold FocalPlane.inputPair at x
  dsimp only at x
  split at x
  · simp at x
  simp only [Prod.mk.injEq, Except.ok.injEq] at x
  obtain ⟨x1, x2⟩ := x
  refine ⟨by omega, ?_⟩
  rcases hrn with rfl | rfl
  · rw [← x1] at y
    exact key _ (by simp [tableKeys]) y
  · rw [← x2] at z
    exact key _ (by simp [tableKeys]) z

/-- The pairs of a new focal plane from tables share a Gaussian beam. -/
theorem table_shares (s : ObjWorld E) (hpi : s.env.pi = Real.pi) (rng : Nat → ℝ) (p : Plane ℝ)
    (hr : PReachable s.env rng (fun _ op => NoCount op) p) (hnew : p.beams = []) (rows : List TableRow)
    (deads : Option (List (Val ℝ × Val ℝ))) (hdead : DeadTable rows deads) (kw : Dict ℝ) {F A err : ℝ}
    {L : Nat} {mm : Int} {sym : Bool} {mu : Option Nat} (hkw : TableOptions kw F A err L mm sym mu)
    (hL : 0 < L) (hrot : ∀ az el, IsRot (s.w.x.detOffset az el 0)) (c : Coefs) (hcL : c.L = L)
    (hload : ∀ a, GaussianOf a F A L → s.env.loadBlm a = .ok (.obj c.n, none)) (Ls : Nat)
    (h0 : 0 ≤ min mm s.maxSpin) (h1 : min mm s.maxSpin ≤ (min Ls L : Nat))
    (h2 : if sym then 2 ≤ min Ls L else 2 ≤ min mm s.maxSpin) :
    let r := (inputFocalPlane s.env (column TableRow.az rows) (column TableRow.el rows)
      (column TableRow.polang rows) deads true kw).run p
    r.1 = .ok () ∧ List.Forall₂ (SharesBeam s r.2.heap Ls c mu err) r.2.beams (tabled rows err) := by
  intro r
  have hok : r.1 = .ok () := FocalPlane.C124_succeeds s.env p hnew _ _ _ _ kw
    (FocalScan.grid_good hkw.grid hL).1 hkw.others
  refine ⟨hok, ?_⟩
  have l1 : ∀ f, (column f rows).length = rows.length := fun f => List.length_map ..
  have l2 : ∀ d, deads = some d → d.length = (column TableRow.az rows).length := by
    intro d hd
    rw [l1]
    cases hdead with
    | given => cases hd; simp
    | none => cases hd
  obtain ⟨b1, -, -, hat⟩ := FocalPlane.C124_table_partial s.env rng p hr (column TableRow.az rows)
    (column TableRow.el rows) (column TableRow.polang rows) deads true kw (by rw [l1, l1]) (by rw [l1, l1])
    l2 hok
  have hdet := table_detectors s.env hpi rng p hr (column TableRow.az rows) (column TableRow.el rows)
    (column TableRow.polang rows) deads kw (by rw [l1, l1]) (by rw [l1, l1]) l2 hkw hok
  rw [hnew, l1, List.nil_append] at b1
  rw [l1] at hdet
  rw [b1]
  refine List.forall₂_iff_get.2 ⟨by simp [tabled], fun i hi hi' => ?_⟩
  have hi0 : i < rows.length := by simpa using hi
  set row := rows[i] with hrow
  have hcol : ∀ f, (column f rows)[i]? = some (.num (f row).1, .num (f row).2) := by
    intro f
    unfold column
    rw [List.getElem?_map, List.getElem?_eq_getElem hi0]
    rfl
  obtain ⟨vd, v1, v2, hcom, t1, t2, t3, t4, t5, t6, -, -, t9, t10, -⟩ := hat i _ _ _ (hcol _) (hcol _) (hcol _)
  have hvd : vd.1.truthy = row.dead.1 ∧ vd.2.truthy = row.dead.2 := by
    cases hdead with
    | given =>
      have := v2 _ rfl
      rw [List.getElem?_map, List.getElem?_eq_getElem hi0] at this
      cases this
      exact ⟨rfl, rfl⟩
    | none h =>
      rw [v1 rfl, h row (List.getElem_mem hi0)]
      exact ⟨rfl, rfl⟩
  have hge : ((List.range rows.length).map fun n => (some (p.heap.size + 2 * n),
      some (p.heap.size + 2 * n + 1))).get ⟨i, hi⟩ =
      (some (p.heap.size + 2 * i), some (p.heap.size + 2 * i + 1)) := by
    simp
  have hgg : (tabled rows err).get ⟨i, hi'⟩ = (some (det row.dead.1 row.az.1 row.el.1 row.polang.1 err),
      some (det row.dead.2 row.az.2 row.el.2 row.polang.2 err)) := by
    simp [tabled, hrow]
  rw [hgg]
  refine (congrArg (fun q => SharesBeam s r.2.heap Ls c mu err q _) hge).mpr ?_
  obtain ⟨r1, r2, r3, r4⟩ := hdet (p.heap.size + 2 * i) (by omega) (by omega)
  obtain ⟨s1, s2, s3, s4⟩ := hdet (p.heap.size + 2 * i + 1) (by omega) (by omega)
  have hck : ∀ k (d : Val ℝ), k ∈ FocalPlane.commonKeys → Dict.get? defaults k = some d →
      (r.2.heap.cell (p.heap.size + 2 * i)).attr k = some ((Dict.get? kw k).getD d) ∧
      (r.2.heap.cell (p.heap.size + 2 * i + 1)).attr k = some ((Dict.get? kw k).getD d) := by
    intro k d hk hd
    rw [← arg_eq kw k d hd]
    exact hcom k hk
  have herr := hck .polangError (.num 0) (by simp [FocalPlane.commonKeys]) rfl
  refine .inr ⟨p.heap.size + 2 * i, mm, sym, rfl, r1, ⟨r2, r3, hload _ ⟨?_, r4.2.2, r4.1, ?_⟩, r4.2.1, ?_, ?_⟩,
    h0, by rw [hcL]; exact h1, by rw [hcL]; exact h2, ?_, ⟨?_, ?_⟩, ?_⟩
  · rw [(hck .btype _ (by simp [FocalPlane.commonKeys]) rfl).1, hkw.btype]
  · exact ⟨_, (hck .amplitude _ (by simp [FocalPlane.commonKeys]) rfl).1, hkw.amplitude⟩
  · exact ⟨_, (hck .symmetric _ (by simp [FocalPlane.commonKeys]) rfl).1, hkw.symmetric⟩
  · rw [(hck .hwpMueller _ (by simp [FocalPlane.commonKeys]) rfl).1, hkw.plate]
  · intro b hb
    cases hb
    exact ⟨s1, s2⟩
  · have := det_of r2 t9 t1 t3 t5 herr.1 rfl rfl rfl hkw.error
    rw [hvd.1] at this
    exact this
  · have := det_of s2 t10 t2 t4 t6 herr.2 rfl rfl rfl hkw.error
    rw [hvd.2] at this
    exact this
  · intro e he
    rcases he with he | he
    · cases ScanObjects.live_some he
      exact ⟨rfl, hrot _ _⟩
    · cases ScanObjects.live_some he
      exact ⟨rfl, hrot _ _⟩

end Verif.Tables
