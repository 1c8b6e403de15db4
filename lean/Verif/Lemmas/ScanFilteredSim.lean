import Verif.Model.ScanFiltered
import Verif.Lemmas.ScanInstrument
import Verif.Props.Filters

/-! # Lemmas: scans with filters and scans without -/

noncomputable section

namespace Verif.ScanFiltered

open Verif.Chunks Verif.Timeline Verif.Spinmaps Verif.MapMaking Verif.ScanInstrument Verif.Filters

variable {E : Type}

/-! ### Filters that are switched off -/

theorem filterTod_off {f : FilterOpts} (h4 : f.filter4f = false) (hh : f.highpass = false)
    (tod : List ℝ) : filterTod f tod = .ok (some tod) := by
  unfold filterTod filter4fStep highpassStep
  rw [h4, hh]
  rfl

theorem binFiltered_of (q : QExt) (mission : List Chunk) (su : Setup) (st : State) (off : Quat.Q)
    (polang : ℝ) (f : FilterOpts) (tod tod' : List ℝ) (h : filterTod f tod = .ok (some tod'))
    (s : Sub) (maps : Maps) :
    binFiltered q mission su st off polang f tod .none s maps =
      (binTod q mission su st off polang tod' .none s maps).map fun m => some (tod', m) := by
  unfold binFiltered
  rw [h]
  cases hh : st.hwpAng with
  | none =>
    unfold binTod binLocal
    rw [hh]
    rfl
  | some a =>
    cases hc : chunk2idx mission s.start s.stop s.cidx with
    | error e =>
      unfold binTod binLocal
      rw [hh, hc]
      rfl
    | ok p =>
      simp only [bind, Except.bind, pure, Except.pure]
      cases binTod q mission su st off polang tod' .none s maps <;> rfl

theorem binOne_off (w : World E) (mission : List Chunk) (o : Opts) {f : FilterOpts}
    (h4 : f.filter4f = false) (hh : f.highpass = false) (flag : Option (List Bool)) (b : BinBeam)
    (s : Sub) (st : State) (tod : List ℝ) (m : Out) :
    binOne w mission o f flag b s st tod m =
      (ScanInstrument.binOne w mission o flag b s st tod m.maps).map
        fun maps => (tod, ⟨maps, m.nan⟩) := by
  unfold binOne ScanInstrument.binOne
  cases o.binning with
  | false => rfl
  | true =>
    rw [if_pos rfl, if_pos rfl, binFiltered_of _ _ _ _ _ _ f tod tod (filterTod_off h4 hh tod)]
    cases binTod w.q mission ⟨w.varphi, w.nsideOut, flag⟩ st (qOff w.x st.rotAngle b.beam)
      b.polangBin tod .none s m.maps <;> rfl

theorem scanBinOne_off (w : World E) (mission : List Chunk) (o : Opts) {f : FilterOpts}
    (h4 : f.filter4f = false) (hh : f.highpass = false) (flag : Option (List Bool)) (s : Sub)
    (g : Bool) (b : BinBeam) (st : State) (m : Out) :
    scanBinOne w mission o f flag s g b st m =
      (ScanInstrument.scanBinOne w mission o flag s g b st m.maps).map
        fun r => (r.1, ⟨r.2, m.nan⟩) := by
  unfold scanBinOne ScanInstrument.scanBinOne
  cases scanOne w.x mission o b s g st with
  | error e => rfl
  | ok st1 =>
    simp only [bind, Except.bind]
    unfold todOfState
    rcases ht : st1.tod with _ | t
    · rfl
    · dsimp only
      rw [binOne_off w mission o h4 hh]
      cases ScanInstrument.binOne w mission o flag b s st1 t m.maps with
      | error e => rfl
      | ok r =>
        simp only [Except.map, pure, Except.pure]
        rw [← ht]

theorem scanMix_off (w : World E) (mission : List Chunk) (o : Opts) {f : FilterOpts}
    (h4 : f.filter4f = false) (hh : f.highpass = false) (flag : Option (List Bool)) (s : Sub)
    (g : Bool) (a b : BinBeam) (st : State) (m : Out) :
    scanMix w mission o f flag s g a b st m =
      (ScanInstrument.scanMix w mission o flag s g a b st m.maps).map
        fun r => (r.1, ⟨r.2, m.nan⟩) := by
  unfold scanMix ScanInstrument.scanMix
  cases scanOne w.x mission o a s g st with
  | error e => rfl
  | ok st1 =>
    simp only [bind, Except.bind]
    cases todOfState st1 with
    | error e => rfl
    | ok ta =>
      dsimp only
      cases scanOne w.x mission o b s g st1 with
      | error e => rfl
      | ok st2 =>
        dsimp only
        cases todOfState st2 with
        | error e => rfl
        | ok tb =>
          dsimp only
          cases Signal.crossTalk ta tb o.ctalk with
          | error e => rfl
          | ok ab =>
            dsimp only
            rw [binOne_off w mission o h4 hh]
            cases ScanInstrument.binOne w mission o flag a s { st2 with tod := some ab.2 } ab.1
              m.maps with
            | error e => rfl
            | ok m1 =>
              simp only [Except.map]
              rw [binOne_off w mission o h4 hh]
              cases ScanInstrument.binOne w mission o flag b s { st2 with tod := some ab.2 } ab.2
                m1 <;> rfl

theorem scanPair_off (w : World E) (mission : List Chunk) (o : Opts) {f : FilterOpts}
    (h4 : f.filter4f = false) (hh : f.highpass = false) (flag : Option (List Bool)) (p : Pair)
    (s : Sub) (g : Bool) (st : State) (m : Out) :
    scanPair w mission o f flag p s g st m =
      (ScanInstrument.scanPair w mission o flag p s g st m.maps).map
        fun r => (r.1, ⟨r.2, m.nan⟩) := by
  unfold scanPair ScanInstrument.scanPair
  rcases live p.1 with _ | a <;> rcases live p.2 with _ | b <;> dsimp only
  · rfl
  · exact scanBinOne_off w mission o h4 hh flag s g b st m
  · exact scanBinOne_off w mission o h4 hh flag s g a st m
  · split_ifs
    · exact scanMix_off w mission o h4 hh flag s g a b st m
    · rw [scanBinOne_off w mission o h4 hh]
      cases ScanInstrument.scanBinOne w mission o flag s g a st m.maps with
      | error e => rfl
      | ok r => exact scanBinOne_off w mission o h4 hh flag s g b r.1 ⟨r.2, m.nan⟩

theorem stepSub_off (w : World E) (o : Opts) {f : Wanted} (h4 : f.filter4f = false)
    (hh : f.highpass = false) (p : Pair) (g : Bool) (s : Chunk) (i : FInst E) :
    stepSub w o f p g s i =
      (ScanInstrument.stepSub w o p g s i.inst).map fun j => ⟨j, i.nan⟩ := by
  unfold stepSub ScanInstrument.stepSub
  cases rotStep i.inst.rot s with
  | error e => rfl
  | ok r =>
    simp only [bind, Except.bind]
    cases Hwp.rotateHwp Real.pi w.fsamp i.inst.hwp (s.hwpang.map fun (a : ℚ) => (a : ℝ)) s.start
      s.stop with
    | error e => rfl
    | ok a =>
      dsimp only
      cases cidxOf s with
      | error e => rfl
      | ok c =>
        dsimp only
        rw [scanPair_off w _ o (f := optsOf w f a.2) h4 hh]
        dsimp only
        generalize ScanInstrument.scanPair w _ o _ p _ g _ i.inst.maps = x
        cases x <;> rfl

theorem fold_off {α : Type} (F : FInst E → α → PyM (FInst E)) (G : Inst E → α → PyM (Inst E))
    (h : ∀ i a, F i a = (G i.inst a).map fun j => ⟨j, i.nan⟩) (l : List α) :
    ∀ i : FInst E, l.foldlM F i = (l.foldlM G i.inst).map fun j => ⟨j, i.nan⟩ := by
  induction l with
  | nil => intro i; rfl
  | cons a l ih =>
    intro i
    rw [List.foldlM_cons, List.foldlM_cons, h]
    cases G i.inst a with
    | error e => rfl
    | ok j => exact ih ⟨j, i.nan⟩

theorem stepChunk_off (w : World E) (o : Opts) {f : Wanted} (h4 : f.filter4f = false)
    (hh : f.highpass = false) (p : Pair) (first : Bool) (i : FInst E) (k : Nat) :
    stepChunk w o f p first i k =
      (ScanInstrument.stepChunk w o p first i.inst k).map fun j => ⟨j, i.nan⟩ := by
  unfold stepChunk ScanInstrument.stepChunk
  cases pyGet i.inst.chunks k with
  | error e => rfl
  | ok c =>
    simp only [bind, Except.bind]
    cases w.implement i.inst.el c.1 (c.2 || o.ground) (!first) with
    | error e => rfl
    | ok q =>
      dsimp only
      cases subpartChunk i.inst.rot c.1 with
      | error e => rfl
      | ok r =>
        dsimp only
        exact fold_off _ _ (fun i s => stepSub_off w o h4 hh p _ s i) r.1 _

theorem scanPass_off (w : World E) (o : Opts) {f : Wanted} (h4 : f.filter4f = false)
    (hh : f.highpass = false) (p : Pair) (first : Bool) (i : FInst E) :
    scanPass w o f first p i =
      (ScanInstrument.scanPass w o first p i.inst).map fun j => ⟨j, i.nan⟩ := by
  have hb : ScanInstrument.scanPass w o first p i.inst =
      (if first then .ok i.inst else resetAll w i.inst).bind fun i =>
        (initPair w o p i).bind fun i =>
          if i.chunks.all fun c => c.1.cidx.isSome then
            (List.range i.chunks.length).foldlM (ScanInstrument.stepChunk w o p first) i
          else .error .keyError := by
    unfold ScanInstrument.scanPass
    cases first <;> rfl
  have hb' : scanPass w o f first p i =
      (if first then .ok i.inst else resetAll w i.inst).bind fun j =>
        (initPair w o p j).bind fun j =>
          if j.chunks.all fun c => c.1.cidx.isSome then
            (List.range j.chunks.length).foldlM (stepChunk w o f p first) ⟨j, i.nan⟩
          else .error .keyError := by
    unfold scanPass
    cases first <;> rfl
  rw [hb, hb']
  cases (if first then .ok i.inst else resetAll w i.inst : PyM (Inst E)) with
  | error e => rfl
  | ok j =>
    simp only [Except.bind]
    cases initPair w o p j with
    | error e => rfl
    | ok j =>
      dsimp only
      split_ifs
      · exact fold_off _ _ (fun i k => stepChunk_off w o h4 hh p first i k) _ ⟨j, i.nan⟩
      · rfl

theorem scanLoop_off (w : World E) (o : Opts) {f : Wanted} (h4 : f.filter4f = false)
    (hh : f.highpass = false) (ps : List (Option Pair)) : ∀ (first : Bool) (i : FInst E),
    scanLoop w o f first ps i =
      (ScanInstrument.scanLoop w o first ps i.inst).map fun j => ⟨j, i.nan⟩ := by
  induction ps with
  | nil => intro first i; rfl
  | cons p ps ih =>
    intro first i
    unfold scanLoop ScanInstrument.scanLoop
    rw [scanPass_off w o h4 hh]
    cases ScanInstrument.scanPass w o first (p.getD (none, none)) i.inst with
    | error e => rfl
    | ok j => exact ih false ⟨j, i.nan⟩

theorem scanInstrument_off (w : World E) (o : Opts) {f : Wanted} (h4 : f.filter4f = false)
    (hh : f.highpass = false) (beams : List Pair) (scatter : Bool) (size rank : Nat) (i : Inst E) :
    scanInstrument w o f beams scatter size rank i =
      (ScanInstrument.scanInstrument w o beams scatter size rank i).map fun j => ⟨j, false⟩ := by
  unfold scanInstrument ScanInstrument.scanInstrument
  cases Mpi.scanPasses beams scatter size rank with
  | error e => rfl
  | ok ps => exact scanLoop_off w o h4 hh ps true ⟨i, false⟩

theorem scanAll_off (w : World E) (o : Opts) {f : Wanted} (h4 : f.filter4f = false)
    (hh : f.highpass = false) (beams : List Pair) (scatter : Bool) (size : Nat) (i : Inst E) :
    scanAll w o f beams scatter size i =
      (ScanInstrument.scanAll w o beams scatter size i).map fun m => ⟨m, false⟩ := by
  have key : ∀ rs : List Nat, rs.mapM (fun r => scanInstrument w o f beams scatter size r i) =
      (rs.mapM fun r => ScanInstrument.scanInstrument w o beams scatter size r i).map
        (fun is => is.map fun j => (⟨j, false⟩ : FInst E)) := by
    intro rs
    induction rs with
    | nil => rfl
    | cons r rs ih =>
      rw [List.mapM_cons, List.mapM_cons, ih, scanInstrument_off w o h4 hh]
      cases ScanInstrument.scanInstrument w o beams scatter size r i with
      | error e => rfl
      | ok j =>
        simp only [bind, Except.bind, Except.map]
        generalize (rs.mapM fun r => ScanInstrument.scanInstrument w o beams scatter size r i) = x
        cases x <;> rfl
  unfold scanAll ScanInstrument.scanAll
  rw [key]
  generalize ((List.range size).mapM fun r =>
    ScanInstrument.scanInstrument w o beams scatter size r i) = x
  cases x with
  | error e => rfl
  | ok is =>
    simp only [bind, Except.bind, Except.map, pure, Except.pure]
    congr 2
    · rw [List.map_map]; rfl
    · rw [List.any_map]
      exact List.any_eq_false.2 (by simp)

/-! ### Scanning does not depend on the timeline before -/

theorem scan_tod (x : Ext) (mission : List Chunk) (st : State) (t : Option (List ℝ)) (b : Beam)
    (s : Sub) (g interp : Bool) :
    scan x mission { st with tod := t } b s g interp false =
      scan x mission st b s g interp false := by
  have h : ∀ old tod, addTod false old tod = .ok tod := fun old tod => by cases old <;> rfl
  unfold scan
  simp only [h]

theorem ghosts_tod (x : Ext) (mission : List Chunk) (s : Sub) (g interp : Bool) (gs : List Beam)
    (st : State) (t : Option (List ℝ)) :
    (ghostScans x mission s g interp gs 0 st = .ok (0, st) ∧
      ghostScans x mission s g interp gs 0 { st with tod := t } = .ok (0, { st with tod := t })) ∨
    ghostScans x mission s g interp gs 0 { st with tod := t } =
      ghostScans x mission s g interp gs 0 st := by
  induction gs with
  | nil => exact .inl ⟨rfl, rfl⟩
  | cons a gs ih =>
    unfold ghostScans
    by_cases ha : a.dead = true
    · rw [if_pos ha, if_pos ha]
      exact ih
    · rw [if_neg ha, if_neg ha]
      right
      have : decide ((0 : Nat) ≠ 0) = false := by simp
      rw [this, scan_tod]

theorem skip_tod (s : Sub) (b : Beam) (st : State) (t : Option (List ℝ)) :
    scanSkip s b false { st with tod := t } = scanSkip s b false st := by
  unfold scanSkip
  split_ifs <;> rfl

theorem ghostSkips_tod (s : Sub) (gs : List Beam) (st : State) (t : Option (List ℝ)) :
    (ghostSkips s gs 0 st = .ok (0, st) ∧
      ghostSkips s gs 0 { st with tod := t } = .ok (0, { st with tod := t })) ∨
    ghostSkips s gs 0 { st with tod := t } = ghostSkips s gs 0 st := by
  induction gs with
  | nil => exact .inl ⟨rfl, rfl⟩
  | cons a gs ih =>
    unfold ghostSkips
    by_cases ha : a.dead = true
    · rw [if_pos ha, if_pos ha]
      exact ih
    · rw [if_neg ha, if_neg ha]
      right
      have : decide ((0 : Nat) ≠ 0) = false := by simp
      rw [this, skip_tod]

theorem scanOne_tod (x : Ext) (mission : List Chunk) (o : Opts) (b : BinBeam) (s : Sub) (g : Bool)
    (st : State) (t : Option (List ℝ)) :
    scanOne x mission o b s g { st with tod := t } = scanOne x mission o b s g st := by
  have h0 : decide ((0 : Nat) < 0) = false := by simp
  unfold scanOne
  cases o.preview with
  | true =>
    rw [if_pos rfl, if_pos rfl]
    cases g with
    | true =>
      rw [if_pos rfl, if_pos rfl]
      split_ifs
      · rfl
      · rcases ghostSkips_tod s b.ghosts st t with ⟨e1, e2⟩ | e
        · rw [e1, e2]
          simp only [bind, Except.bind]
          rw [h0, scan_tod]
        · rw [e]
    | false =>
      rw [if_neg (by simp), if_neg (by simp)]
      unfold previewDetector
      split_ifs
      · rfl
      · rcases ghostSkips_tod s b.ghosts st t with ⟨e1, e2⟩ | e
        · rw [e1, e2]
          simp only [bind, Except.bind]
          rw [h0, skip_tod]
        · rw [e]
  | false =>
    rw [if_neg (by simp), if_neg (by simp)]
    unfold scanDetector
    by_cases hb : b.beam.ghost = true
    · rw [if_pos hb, if_pos hb]
    · rw [if_neg hb, if_neg hb]
      rcases ghosts_tod x mission s g o.interp b.ghosts st t with ⟨e1, e2⟩ | e
      · rw [e1, e2]
        simp only [bind, Except.bind]
        rw [h0, scan_tod x mission st t b.beam s true, scan_tod x mission st t b.beam s false]
      · rw [e]

/-! ### Hits and matrices do not depend on the timeline -/

theorem filterTod_length {f : FilterOpts} {tod tod' : List ℝ}
    (h : filterTod f tod = .ok (some tod')) : tod'.length = tod.length := by
  unfold filterTod at h
  obtain ⟨t1, h1, h2⟩ := bind_ok h
  have e1 : t1.length = tod.length := by
    unfold filter4fStep at h1
    split_ifs at h1
    · unfold filterTodHwp at h1
      obtain ⟨fd, -, h3⟩ := bind_ok h1
      split_ifs at h3
      obtain ⟨fd', -, h4⟩ := bind_ok h3
      obtain rfl := Except.ok.inj h4
      simp [irfft]
    · obtain rfl := Except.ok.inj h1
      rfl
  have e2 : tod'.length = t1.length := by
    unfold highpassStep at h2
    split_ifs at h2
    · split at h2
      · unfold filterTodHighpass at h2
        obtain ⟨fd, -, h3⟩ := bind_ok h2
        split_ifs at h3
        have h3 := Except.ok.inj h3
        obtain ⟨fd', -, rfl⟩ := Option.map_eq_some_iff.1 h3
        simp [irfft]
      · obtain rfl := Option.some.inj (Except.ok.inj h2)
        simp [subtractMean]
    · obtain rfl := Option.some.inj (Except.ok.inj h2)
      rfl
  rw [e2, e1]

/-- Hits and matrices. -/
abbrev projs (m : Maps) : List (Fin 6 → ℝ) := m.map (·.proj)

theorem deposit_proj (m m' : Maps) (p : Int × ℝ × ℝ) (d d' : ℝ) (h : projs m = projs m') :
    projs (deposit m p d) = projs (deposit m' p d') := by
  have key : ∀ (m : Maps) (d : ℝ), projs (deposit m p d) =
      (projs m).modify p.1.toNat fun y => y + (sampleCell p.2.1 p.2.2 0).proj := by
    intro m d
    unfold projs deposit
    apply List.ext_getElem?
    intro k
    rw [List.getElem?_map, List.getElem?_modify, List.getElem?_modify, List.getElem?_map]
    cases m[k]? with
    | none => rfl
    | some c =>
      by_cases hk : p.1.toNat = k
      · simp only [hk, if_true, Option.map_some]
        rfl
      · simp [hk]
  rw [key, key, h]

theorem fromTod_proj (l : List ((Int × ℝ × ℝ) × ℝ × Bool)) :
    ∀ (l' : List ((Int × ℝ × ℝ) × ℝ × Bool)) (m m' : Maps),
      (l.map fun x => (x.1, x.2.2)) = (l'.map fun x => (x.1, x.2.2)) → projs m = projs m' →
      projs (fromTod m l) = projs (fromTod m' l') := by
  induction l with
  | nil =>
    intro l' m m' h hm
    cases l' with
    | nil => exact hm
    | cons x l' => simp at h
  | cons x l ih =>
    intro l' m m' h hm
    cases l' with
    | nil => simp at h
    | cons y l' =>
      obtain ⟨p, d, f⟩ := x
      obtain ⟨p', d', f'⟩ := y
      simp only [List.map_cons, List.cons.injEq, Prod.mk.injEq] at h
      obtain ⟨⟨rfl, rfl⟩, h⟩ := h
      unfold fromTod
      apply ih _ _ _ h
      cases f with
      | true => exact hm
      | false => exact deposit_proj m m' p d d' hm

theorem zip_values {β γ : Type} (a : List β) (c : List γ) (d d' : List ℝ)
    (h : d.length = d'.length) :
    ((List.zip a (List.zip d c)).map fun x => (x.1, x.2.2)) =
      ((List.zip a (List.zip d' c)).map fun x => (x.1, x.2.2)) := by
  apply List.ext_getElem (by simp [h])
  intro k h1 h2
  simp

theorem iadd_proj {a a' b b' r : Maps} (ha : projs a = projs a') (hb : projs b = projs b')
    (h : iadd a b = .ok r) : ∃ r', iadd a' b' = .ok r' ∧ projs r = projs r' := by
  have la : a.length = a'.length := by simpa using congrArg List.length ha
  have lb : b.length = b'.length := by simpa using congrArg List.length hb
  unfold iadd at h ⊢
  rw [← la, ← lb]
  by_cases hl : a.length = b.length
  · rw [if_pos hl] at h ⊢
    obtain rfl := Except.ok.inj h
    refine ⟨_, rfl, ?_⟩
    unfold projs
    have key : ∀ a b : Maps, (List.zipWith (· + ·) a b).map (·.proj) =
        List.zipWith (· + ·) (projs a) (projs b) := by
      intro a b
      unfold projs
      rw [List.map_zipWith, List.zipWith_map]
      rfl
    rw [key, key, ha, hb]
  · rw [if_neg hl] at h ⊢
    cases b with
    | nil => cases h
    | cons y b =>
      cases b with
      | cons z b => cases h
      | nil =>
        cases b' with
        | nil => cases lb
        | cons y' b' =>
          cases b' with
          | cons z b' => simp at lb
          | nil =>
            obtain rfl := Except.ok.inj h
            refine ⟨_, rfl, ?_⟩
            have hy : y.proj = y'.proj := by simpa [projs] using hb
            unfold projs
            have key : ∀ (a : Maps) (y : Cell), (a.map (· + y)).map (·.proj) =
                (projs a).map (· + y.proj) := by
              intro a y
              unfold projs
              rw [List.map_map, List.map_map]
              rfl
            rw [key, key, ha, hy]

theorem binLocal_proj {q : QExt} {mission : List Chunk} {su : Setup} {st : State} {off : Quat.Q}
    {polang : ℝ} {tod tod' : List ℝ} {s : Sub} {r : Maps} (ht : tod.length = tod'.length)
    (t : Option (List ℝ))
    (h : binLocal q mission su { st with tod := t } off polang tod .none s = .ok r) :
    ∃ r', binLocal q mission su st off polang tod' .none s = .ok r' ∧ projs r = projs r' := by
  unfold binLocal at h ⊢
  dsimp only at h ⊢
  cases hh : st.hwpAng with
  | none =>
    rw [hh] at h
    cases h
  | some a =>
    rw [hh] at h
    simp only [bind, Except.bind] at h ⊢
    cases hc : chunk2idx mission s.start s.stop s.cidx with
    | error e =>
      rw [hc] at h
      cases h
    | ok ij =>
      rw [hc] at h
      dsimp only at h ⊢
      cases hf : flagOf su.flag ij.1 ij.2 .none with
      | error e =>
        rw [hf] at h
        cases h
      | ok fl =>
        rw [hf] at h
        dsimp only at h ⊢
        have hs : sameSize (pySlice st.qBore ij.1 ij.2).length a tod' fl =
            sameSize (pySlice st.qBore ij.1 ij.2).length a tod fl := by
          unfold sameSize
          rw [ht]
        rw [hs]
        split_ifs at h ⊢
        · obtain rfl := Except.ok.inj h
          exact ⟨_, rfl, fromTod_proj _ _ _ _ (zip_values _ _ _ _ ht) rfl⟩

theorem binTod_proj {q : QExt} {mission : List Chunk} {su : Setup} {st : State} {off : Quat.Q}
    {polang : ℝ} {tod tod' : List ℝ} {s : Sub} {m m' r : Maps} (ht : tod.length = tod'.length)
    (t : Option (List ℝ)) (hm : projs m = projs m')
    (h : binTod q mission su { st with tod := t } off polang tod .none s m = .ok r) :
    ∃ r', binTod q mission su st off polang tod' .none s m' = .ok r' ∧ projs r = projs r' := by
  unfold binTod at h ⊢
  obtain ⟨d, h1, h2⟩ := bind_ok h
  obtain ⟨d', g1, g2⟩ := binLocal_proj ht t h1
  obtain ⟨r', k1, k2⟩ := iadd_proj hm g2 h2
  rw [g1]
  exact ⟨r', k1, k2⟩

theorem binFiltered_inv {q : QExt} {mission : List Chunk} {su : Setup} {st : State} {off : Quat.Q}
    {polang : ℝ} {f : FilterOpts} {tod : List ℝ} {s : Sub} {maps : Maps}
    {r : Option (List ℝ × Maps)}
    (h : binFiltered q mission su st off polang f tod .none s maps = .ok r) :
    ∃ v, filterTod f tod = .ok v ∧ ∀ tod' m, r = some (tod', m) → v = some tod' ∧
      binTod q mission su st off polang tod' .none s maps = .ok m := by
  unfold binFiltered at h
  cases hh : st.hwpAng with
  | none =>
    rw [hh] at h
    cases h
  | some a =>
  rw [hh] at h
  obtain ⟨_, -, h⟩ := bind_ok h
  obtain ⟨_, -, h⟩ := bind_ok h
  obtain ⟨v, hv, h⟩ := bind_ok h
  refine ⟨v, hv, ?_⟩
  rintro tod' m rfl
  cases v with
  | none => cases h
  | some t =>
    obtain ⟨m1, h1, h2⟩ := bind_ok h
    cases h2
    exact ⟨rfl, h1⟩

theorem binOne_proj {w : World E} {mission : List Chunk} {o : Opts} {f : FilterOpts}
    {flag : Option (List Bool)} {b : BinBeam} {s : Sub} {st : State} {tod : List ℝ} {m : Out}
    {m' : Maps} {r : List ℝ × Out} (tod' : List ℝ) (htl : tod.length = tod'.length)
    (t : Option (List ℝ)) (hm : projs m.maps = projs m')
    (h : binOne w mission o f flag b s { st with tod := t } tod m = .ok r) :
    ∃ r', ScanInstrument.binOne w mission o flag b s st tod' m' = .ok r' ∧
      projs r.2.maps = projs r' ∧ r.1.length = tod.length := by
  unfold binOne at h
  unfold ScanInstrument.binOne
  split_ifs at h ⊢
  · obtain ⟨v, h1, h2⟩ := bind_ok h
    cases v with
    | some p =>
      obtain ⟨t1, m1⟩ := p
      obtain ⟨v, k1, k2⟩ := binFiltered_inv h1
      obtain ⟨rfl, k3⟩ := k2 t1 m1 rfl
      obtain rfl := Except.ok.inj h2
      have hl := filterTod_length k1
      obtain ⟨r', g1, g2⟩ := binTod_proj (hl.trans htl) t hm k3
      exact ⟨r', g1, g2, hl⟩
    | none =>
      obtain ⟨m1, h3, h4⟩ := bind_ok h2
      obtain rfl := Except.ok.inj h4
      obtain ⟨r', g1, g2⟩ := binTod_proj (tod' := tod') (by simp [htl]) t hm h3
      exact ⟨r', g1, g2, by simp⟩
  · obtain rfl := Except.ok.inj h
    exact ⟨m', rfl, hm, rfl⟩

/-- The same strategy but for timeline and values in the maps. -/
structure Twin (i : FInst E) (j : Inst E) : Prop where
  rot : i.inst.rot = j.rot
  hwp : i.inst.hwp = j.hwp
  el : i.inst.el = j.el
  st : ∃ t, i.inst.st = { j.st with tod := t }
  flag : i.inst.flag = j.flag
  hasMaps : i.inst.hasMaps = j.hasMaps
  chunks : i.inst.chunks = j.chunks
  maps : projs i.inst.maps = projs j.maps

theorem scanBinOne_proj {w : World E} {mission : List Chunk} {o : Opts} {f : FilterOpts}
    {flag : Option (List Bool)} {s : Sub} {g : Bool} {b : BinBeam} {st : State} {m : Out}
    {m' : Maps} {r : State × Out} (t : Option (List ℝ)) (hm : projs m.maps = projs m')
    (h : scanBinOne w mission o f flag s g b { st with tod := t } m = .ok r) :
    ∃ st' r', ScanInstrument.scanBinOne w mission o flag s g b st m' = .ok (st', r') ∧
      (∃ t', r.1 = { st' with tod := t' }) ∧ projs r.2.maps = projs r' := by
  unfold scanBinOne at h
  rw [scanOne_tod] at h
  obtain ⟨st1, h1, h⟩ := bind_ok h
  obtain ⟨tod, h2, h⟩ := bind_ok h
  obtain ⟨p, h3, h4⟩ := bind_ok h
  obtain rfl := Except.ok.inj h4
  obtain ⟨r', k1, k2, -⟩ := binOne_proj (st := st1) tod rfl st1.tod hm h3
  refine ⟨st1, r', ?_, ⟨_, rfl⟩, k2⟩
  unfold ScanInstrument.scanBinOne
  rw [h1]
  simp only [bind, Except.bind]
  rw [h2]
  dsimp only
  rw [k1]
  rfl

theorem scanMix_proj {w : World E} {mission : List Chunk} {o : Opts} {f : FilterOpts}
    {flag : Option (List Bool)} {s : Sub} {g : Bool} {a b : BinBeam} {st : State} {m : Out}
    {m' : Maps} {r : State × Out} (t : Option (List ℝ)) (hm : projs m.maps = projs m')
    (h : scanMix w mission o f flag s g a b { st with tod := t } m = .ok r) :
    ∃ st' r', ScanInstrument.scanMix w mission o flag s g a b st m' = .ok (st', r') ∧
      (∃ t', r.1 = { st' with tod := t' }) ∧ projs r.2.maps = projs r' := by
  unfold scanMix at h
  rw [scanOne_tod] at h
  obtain ⟨st1, h1, h⟩ := bind_ok h
  obtain ⟨ta, h2, h⟩ := bind_ok h
  obtain ⟨st2, h3, h⟩ := bind_ok h
  obtain ⟨tb, h4, h⟩ := bind_ok h
  obtain ⟨ab, h5, h⟩ := bind_ok h
  obtain ⟨p1, h6, h⟩ := bind_ok h
  obtain ⟨p2, h7, h8⟩ := bind_ok h
  obtain rfl := Except.ok.inj h8
  obtain ⟨m1, k1, k2, -⟩ := binOne_proj (st := { st2 with tod := some ab.2 }) ab.1 rfl
    (some ab.2) hm h6
  obtain ⟨m2, k3, k4, -⟩ := binOne_proj (st := { st2 with tod := some ab.2 }) ab.2 rfl
    (some ab.2) k2 h7
  refine ⟨{ st2 with tod := some ab.2 }, m2, ?_, ⟨_, rfl⟩, k4⟩
  unfold ScanInstrument.scanMix
  rw [h1]
  simp only [bind, Except.bind]
  rw [h2]
  dsimp only
  rw [h3]
  dsimp only
  rw [h4]
  dsimp only
  rw [h5]
  dsimp only
  rw [k1]
  dsimp only
  rw [k3]
  rfl

theorem scanPair_proj {w : World E} {mission : List Chunk} {o : Opts} {f : FilterOpts}
    {flag : Option (List Bool)} {p : Pair} {s : Sub} {g : Bool} {st : State} {m : Out}
    {m' : Maps} {r : State × Out} (t : Option (List ℝ)) (hm : projs m.maps = projs m')
    (h : scanPair w mission o f flag p s g { st with tod := t } m = .ok r) :
    ∃ st' r', ScanInstrument.scanPair w mission o flag p s g st m' = .ok (st', r') ∧
      (∃ t', r.1 = { st' with tod := t' }) ∧ projs r.2.maps = projs r' := by
  unfold scanPair at h
  unfold ScanInstrument.scanPair
  rcases ha : live p.1 with _ | a <;> rcases hb : live p.2 with _ | b <;> rw [ha, hb] at h <;>
    dsimp only at h ⊢
  · obtain rfl := Except.ok.inj h
    exact ⟨st, m', rfl, ⟨t, rfl⟩, hm⟩
  · exact scanBinOne_proj t hm h
  · exact scanBinOne_proj t hm h
  · split_ifs at h ⊢
    · exact scanMix_proj t hm h
    · obtain ⟨r1, h1, h2⟩ := bind_ok h
      obtain ⟨st1, m1, k1, ⟨t1, k2⟩, k3⟩ := scanBinOne_proj t hm h1
      obtain ⟨s1, o1⟩ := r1
      obtain rfl : s1 = _ := k2
      rw [k1]
      exact scanBinOne_proj t1 k3 h2

theorem stepSub_proj {w : World E} {o : Opts} {f : Wanted} {p : Pair} {g : Bool} {s : Chunk}
    {i i' : FInst E} {j : Inst E} (ht : Twin i j) (h : stepSub w o f p g s i = .ok i') :
    ∃ j', ScanInstrument.stepSub w o p g s j = .ok j' ∧ Twin i' j' := by
  obtain ⟨i, nan⟩ := i
  obtain ⟨e1, e2, e3, ⟨t, e4⟩, e5, e6, e7, e8⟩ := ht
  dsimp only at e1 e2 e3 e4 e5 e6 e7 e8
  unfold stepSub at h
  dsimp only at h
  rw [e1, e2, e4, e5, e7] at h
  obtain ⟨rot, h1, h⟩ := bind_ok h
  obtain ⟨a, h2, h⟩ := bind_ok h
  obtain ⟨c, h3, h⟩ := bind_ok h
  obtain ⟨x, h4, h5⟩ := bind_ok h
  obtain rfl := Except.ok.inj h5
  obtain ⟨st', r', k1, ⟨t', k2⟩, k3⟩ := scanPair_proj
    (st := { j.st with rotAngle := rot.angle, hwpAng := newAng a.1 j.st.hwpAng }) t (m' := j.maps)
    e8 h4
  refine ⟨{ j with rot := rot, hwp := a.2, st := st', maps := r' }, ?_,
    ⟨rfl, rfl, e3, ⟨t', k2⟩, rfl, e6, rfl, k3⟩⟩
  unfold ScanInstrument.stepSub
  rw [h1]
  simp only [bind, Except.bind]
  rw [h2]
  dsimp only
  rw [h3]
  dsimp only
  rw [k1]
  rfl

theorem fold_proj {α : Type} {F : FInst E → α → PyM (FInst E)} {G : Inst E → α → PyM (Inst E)}
    (h : ∀ i i' j a, Twin i j → F i a = .ok i' → ∃ j', G j a = .ok j' ∧ Twin i' j') (l : List α) :
    ∀ (i i' : FInst E) (j : Inst E), Twin i j → l.foldlM F i = .ok i' →
      ∃ j', l.foldlM G j = .ok j' ∧ Twin i' j' := by
  induction l with
  | nil =>
    intro i i' j ht hf
    obtain rfl := Except.ok.inj hf
    exact ⟨j, rfl, ht⟩
  | cons a l ih =>
    intro i i' j ht hf
    rw [List.foldlM_cons] at hf
    obtain ⟨i1, h1, h2⟩ := bind_ok hf
    obtain ⟨j1, k1, k2⟩ := h i i1 j a ht h1
    rw [List.foldlM_cons, k1]
    exact ih i1 i' j1 k2 h2

theorem stepChunk_proj {w : World E} {o : Opts} {f : Wanted} {p : Pair} {first : Bool} {k : Nat}
    {i i' : FInst E} {j : Inst E} (ht : Twin i j) (h : stepChunk w o f p first i k = .ok i') :
    ∃ j', ScanInstrument.stepChunk w o p first j k = .ok j' ∧ Twin i' j' := by
  obtain ⟨i, nan⟩ := i
  obtain ⟨e1, e2, e3, ⟨t, e4⟩, e5, e6, e7, e8⟩ := ht
  dsimp only at e1 e2 e3 e4 e5 e6 e7 e8
  unfold stepChunk at h
  dsimp only at h
  rw [e1, e3, e4, e7] at h
  obtain ⟨c, h1, h⟩ := bind_ok h
  obtain ⟨q, h2, h⟩ := bind_ok h
  obtain ⟨r, h3, h⟩ := bind_ok h
  unfold ScanInstrument.stepChunk
  rw [h1]
  simp only [bind, Except.bind]
  rw [h2]
  dsimp only
  rw [h3]
  exact fold_proj (F := fun i s => stepSub w o f p _ s i)
    (G := fun i s => ScanInstrument.stepSub w o p _ s i)
    (fun i i' j s hij hs => stepSub_proj hij hs) r.1 _ i' _
    ⟨rfl, e2, rfl, ⟨t, rfl⟩, rfl, e6, rfl, e8⟩ h

theorem reset_proj {w : World E} {i i' : Inst E} {n : Bool} {j : Inst E} (ht : Twin ⟨i, n⟩ j)
    (h : resetAll w i = .ok i') : ∃ j', resetAll w j = .ok j' ∧ Twin ⟨i', n⟩ j' := by
  obtain ⟨e1, e2, e3, ⟨t, e4⟩, e5, e6, e7, e8⟩ := ht
  dsimp only at e1 e2 e3 e4 e5 e6 e7 e8
  unfold resetAll at h ⊢
  obtain ⟨e, h1, h2⟩ := bind_ok h
  obtain rfl := Except.ok.inj h2
  rw [← e3, h1]
  exact ⟨_, rfl, ⟨congrArg Rot.reset e1, congrArg Hwp.State.reset e2, rfl, ⟨t, e4⟩, e5, e6, e7, e8⟩⟩

theorem init_proj {w : World E} {o : Opts} {p : Pair} {i i' : Inst E} {n : Bool} {j : Inst E}
    (ht : Twin ⟨i, n⟩ j) (h : initPair w o p i = .ok i') :
    ∃ j', initPair w o p j = .ok j' ∧ Twin ⟨i', n⟩ j' := by
  obtain ⟨e1, e2, e3, ⟨t, e4⟩, e5, e6, e7, e8⟩ := ht
  dsimp only at e1 e2 e3 e4 e5 e6 e7 e8
  unfold initPair at h ⊢
  rw [← e6]
  split at h
  · obtain rfl := Except.ok.inj h
    exact ⟨_, rfl, ⟨e1, e2, e3, ⟨t, e4⟩, e5, e6, e7, e8⟩⟩
  · split_ifs at h ⊢
    · obtain rfl := Except.ok.inj h
      exact ⟨_, rfl, ⟨e1, e2, e3, ⟨t, e4⟩, e5, e6, e7, e8⟩⟩
    · obtain rfl := Except.ok.inj h
      exact ⟨_, rfl, ⟨e1, e2, e3, ⟨t, e4⟩, e5, e6, e7, e8⟩⟩
    · split at h
      · cases h
      · obtain ⟨sm, h1, h2⟩ := bind_ok h
        obtain rfl := Except.ok.inj h2
        rw [h1]
        exact ⟨_, rfl, ⟨e1, e2, e3, ⟨t, by rw [e4]⟩, e5, rfl, e7, e8⟩⟩

theorem scanPass_proj {w : World E} {o : Opts} {f : Wanted} {p : Pair} {first : Bool}
    {i i' : FInst E} {j : Inst E} (ht : Twin i j) (h : scanPass w o f first p i = .ok i') :
    ∃ j', ScanInstrument.scanPass w o first p j = .ok j' ∧ Twin i' j' := by
  have hb : ScanInstrument.scanPass w o first p j =
      (if first then .ok j else resetAll w j).bind fun i =>
        (initPair w o p i).bind fun i =>
          if i.chunks.all fun c => c.1.cidx.isSome then
            (List.range i.chunks.length).foldlM (ScanInstrument.stepChunk w o p first) i
          else .error .keyError := by
    unfold ScanInstrument.scanPass
    cases first <;> rfl
  have hb' : scanPass w o f first p i =
      (if first then .ok i.inst else resetAll w i.inst).bind fun j =>
        (initPair w o p j).bind fun j =>
          if j.chunks.all fun c => c.1.cidx.isSome then
            (List.range j.chunks.length).foldlM (stepChunk w o f p first) ⟨j, i.nan⟩
          else .error .keyError := by
    unfold scanPass
    cases first <;> rfl
  rw [hb'] at h
  obtain ⟨i1, h1, h⟩ := bind_ok h
  obtain ⟨i2, h2, h⟩ := bind_ok h
  have hone : ∃ j1, (if first then .ok j else resetAll w j : PyM (Inst E)) = .ok j1 ∧
      Twin ⟨i1, i.nan⟩ j1 := by
    cases first with
    | true =>
      obtain rfl := Except.ok.inj h1
      exact ⟨j, rfl, ht⟩
    | false => exact reset_proj ht h1
  obtain ⟨j1, k1, k2⟩ := hone
  obtain ⟨j2, k3, k4⟩ := init_proj k2 h2
  rw [hb, k1]
  simp only [Except.bind]
  rw [k3]
  dsimp only
  have hch : i2.chunks = j2.chunks := k4.chunks
  rw [← hch]
  split_ifs at h ⊢
  exact fold_proj (F := stepChunk w o f p first) (G := ScanInstrument.stepChunk w o p first)
    (fun i i' j k hij hk => stepChunk_proj hij hk) _ ⟨i2, i.nan⟩ i' j2 k4 h

theorem scanLoop_proj {w : World E} {o : Opts} {f : Wanted} (ps : List (Option Pair)) :
    ∀ {first : Bool} {i i' : FInst E} {j : Inst E}, Twin i j →
      scanLoop w o f first ps i = .ok i' →
      ∃ j', ScanInstrument.scanLoop w o first ps j = .ok j' ∧ Twin i' j' := by
  induction ps with
  | nil =>
    intro first i i' j ht h
    obtain rfl := Except.ok.inj h
    exact ⟨j, rfl, ht⟩
  | cons p ps ih =>
    intro first i i' j ht h
    unfold scanLoop at h
    obtain ⟨i1, h1, h2⟩ := bind_ok h
    obtain ⟨j1, k1, k2⟩ := scanPass_proj ht h1
    unfold ScanInstrument.scanLoop
    rw [k1]
    exact ih k2 h2

theorem scanInstrument_proj {w : World E} {o : Opts} {f : Wanted} {beams : List Pair}
    {scatter : Bool} {size rank : Nat} {i : Inst E} {i' : FInst E}
    (h : scanInstrument w o f beams scatter size rank i = .ok i') :
    ∃ j', ScanInstrument.scanInstrument w o beams scatter size rank i = .ok j' ∧ Twin i' j' := by
  unfold scanInstrument at h
  obtain ⟨ps, h1, h2⟩ := bind_ok h
  unfold ScanInstrument.scanInstrument
  rw [h1]
  exact scanLoop_proj ps ⟨rfl, rfl, rfl, ⟨_, rfl⟩, rfl, rfl, rfl, rfl⟩ h2

theorem reduce_proj (npix : Nat) (l l' : List Maps) (h : l.map projs = l'.map projs) :
    projs (reduceMaps npix l) = projs (reduceMaps npix l') := by
  unfold reduceMaps
  generalize List.replicate npix (0 : Cell) = z
  suffices H : ∀ (l l' : List Maps) (a a' : Maps), projs a = projs a' → l.map projs = l'.map projs →
      projs (l.foldl (fun acc m => List.zipWith (· + ·) acc m) a) =
        projs (l'.foldl (fun acc m => List.zipWith (· + ·) acc m) a') from H l l' z z rfl h
  have key : ∀ a b : Maps, projs (List.zipWith (· + ·) a b) =
      List.zipWith (· + ·) (projs a) (projs b) := by
    intro a b
    unfold projs
    rw [List.map_zipWith, List.zipWith_map]
    rfl
  intro l
  induction l with
  | nil =>
    intro l' a a' ha hl
    cases l' with
    | nil => exact ha
    | cons x l' => simp at hl
  | cons x l ih =>
    intro l' a a' ha hl
    cases l' with
    | nil => simp at hl
    | cons y l' =>
      simp only [List.map_cons, List.cons.injEq] at hl
      rw [List.foldl_cons, List.foldl_cons]
      exact ih l' _ _ (by rw [key, key, ha, hl.1]) hl.2

theorem scanAll_proj {w : World E} {o : Opts} {f : Wanted} {beams : List Pair} {scatter : Bool}
    {size : Nat} {i : Inst E} {out : Out} (h : scanAll w o f beams scatter size i = .ok out) :
    ∃ m, ScanInstrument.scanAll w o beams scatter size i = .ok m ∧ projs out.maps = projs m := by
  have key : ∀ (rs : List Nat) (is : List (FInst E)),
      rs.mapM (fun r => scanInstrument w o f beams scatter size r i) = .ok is →
      ∃ js, rs.mapM (fun r => ScanInstrument.scanInstrument w o beams scatter size r i) =
        Except.ok (ε := PyErr) js ∧
        (is.map fun i => i.inst.maps).map projs = (js.map (·.maps)).map projs := by
    intro rs
    induction rs with
    | nil =>
      intro is h
      cases h
      exact ⟨[], rfl, rfl⟩
    | cons r rs ih =>
      intro is h
      rw [List.mapM_cons] at h
      obtain ⟨i1, h1, h⟩ := bind_ok h
      obtain ⟨is1, h2, h3⟩ := bind_ok h
      cases h3
      obtain ⟨j1, k1, k2⟩ := scanInstrument_proj h1
      obtain ⟨js, k3, k4⟩ := ih is1 h2
      refine ⟨j1 :: js, ?_, ?_⟩
      · rw [List.mapM_cons, k1]
        simp only [bind, Except.bind]
        rw [k3]
        rfl
      · simp only [List.map_cons]
        rw [k2.maps]
        congr 1
  unfold scanAll at h
  obtain ⟨is, h1, h2⟩ := bind_ok h
  obtain rfl := Except.ok.inj h2
  obtain ⟨js, k1, k2⟩ := key _ _ h1
  unfold ScanInstrument.scanAll
  rw [k1]
  exact ⟨_, rfl, reduce_proj _ _ _ k2⟩

end Verif.ScanFiltered
