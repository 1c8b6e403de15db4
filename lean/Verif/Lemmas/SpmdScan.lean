import Verif.Lemmas.Spmd
import Verif.Lemmas.ScanInstrument
import Verif.Lemmas.ScanStored

/-! # Lemmas: the collective calls of a scan, and its loops -/

noncomputable section

namespace Verif.Spmd

open Verif.Chunks Verif.Timeline Verif.Spinmaps Verif.MapMaking
open Verif.ScanInstrument (World Inst Pair Pointing)

variable {A B : Type} {size : Nat}

/-! ### collective calls -/

theorem runsTo_barrier : RunsTo size (fun _ => barrier) fun _ => .ok () :=
  .call (fun _ => .barrier) (fun _ _ => .done (.ok ())) (fun _ => .unit) (fun _ _ => rfl)
    (if_pos fun _ _ => rfl) RunsTo.ret

theorem length_arraySplit {α : Type} (l : List α) (hs : 0 < size) : (Mpi.arraySplit l size).length = size := by
  unfold Mpi.arraySplit
  simp only [Mpi.length_go, List.length_append, List.length_replicate]
  have := Nat.mod_lt l.length hs
  omega

theorem runsTo_scatterList (hs : 0 < size) (l : List Pair) (out : Nat → List Pair)
    (h : ∀ r, r < size → Mpi.scatterList l size r = .ok (out r)) :
    RunsTo size (fun r => scatterList size r l) fun r => .ok (out r) := by
  refine .call (fun r => .scatter (if r = 0 then some (Mpi.arraySplit l size) else none)) _
    (fun r => .pairs ((Mpi.arraySplit l size)[r]?.getD [])) (fun _ _ => rfl) ?_ ?_
  · simp only [exchange, if_pos]
    exact if_pos ⟨length_arraySplit l hs, fun _ _ => ⟨_, rfl⟩⟩
  · refine RunsTo.ret.congr (fun _ _ => rfl) fun r hr => ?_
    have := h r hr
    unfold Mpi.scatterList at this
    split at this
    · rename_i e
      rw [e]
      exact this
    · cases this

theorem runsTo_broadcastArray (hs : 0 < size) (q : List Quat.Q) (arr : Nat → Option (List Quat.Q))
    (h : arr 0 = some q) : RunsTo size (fun r => broadcastArray r (arr r)) fun _ => .ok q := by
  refine .call (fun r => .bcastShape (if r = 0 then some q.length else none))
    (fun r x => if r = 0 then .call (.bcast q) Reply.toQuats else x.receive)
    (fun _ => .shape (some q.length)) ?_ ?_ ?_
  · intro r _
    unfold broadcastArray
    by_cases e : r = 0
    · subst e
      simp only [if_pos, h]
    · simp only [if_neg e]
  · simp only [exchange, if_pos]
    exact if_pos fun _ _ => ⟨_, rfl⟩
  · refine .call (fun r => .bcast (if r = 0 then q else List.replicate q.length 0))
      (fun _ => Reply.toQuats) (fun _ => .quats q) ?_ ?_ RunsTo.ret
    · intro r _
      by_cases e : r = 0
      · simp only [if_pos e]
      · simp only [if_neg e, Reply.receive]
    · simp only [exchange, if_pos]
      refine if_pos fun r _ => ⟨_, rfl, ?_⟩
      split <;> simp

theorem rows4_flat (l : List Quat.Q) : rows4 (l.flatMap flat) = l := by
  induction l with
  | nil => rfl
  | cons q l ih =>
    simp only [List.flatMap_cons, flat, List.cons_append, List.nil_append, rows4, ih]
    congr 1
    funext i
    fin_cases i <;> rfl

theorem length_rankSend {α : Type} (f : α → Quat.Q) (inputs : List α) (r : Nat) (hr : r < size) :
    (Mpi.rankSend (fun x => flat (f x)) inputs size r).length
      = 4 * ((Mpi.subSize inputs.length size)[r]?.getD 0) := by
  unfold Mpi.rankSend
  rw [Mpi.subEnd_eq _ _ _ hr]
  simp only
  rw [pySlice_nat]
  have hlen : ∀ l : List α, (l.flatMap fun x => flat (f x)).length = 4 * l.length := by
    intro l
    induction l with
    | nil => rfl
    | cons a l ih =>
      rw [List.flatMap_cons, List.length_append, ih, List.length_cons]
      simp [flat]
      omega
  rw [hlen, Mpi.length_slice _ _ _ hr]
  have h' : r < (Mpi.subSize inputs.length size).length := by rw [Mpi.length_subSize]; exact hr
  rw [List.getElem?_eq_getElem h', Mpi.getElem_subSize]
  rfl

theorem offset_eq (n r : Nat) : (((Mpi.subSize n size).map fun k => 4 * k).take r).sum
    = 4 * Mpi.subStart n size r := by
  rw [← List.map_take]
  unfold Mpi.subStart
  generalize (Mpi.subSize n size).take r = l
  induction l with
  | nil => simp
  | cons a l ih => simp [ih, Nat.mul_add]

theorem runsTo_gather {α : Type} (hs : 0 < size) (junk : Junk) (hj : ∀ r n, (junk r n).length = n)
    (n : Nat) (f : α → Quat.Q) (inputs : List α) (hn : inputs.length = n) :
    RunsTo size (fun r => gather (junk r) size r n f inputs) fun _ => .ok (inputs.map f) := by
  subst hn
  let c : Nat → Call := fun r => .allgatherv (Mpi.rankSend (fun x => flat (f x)) inputs size r)
    (junk r (inputs.length * 4)) (fun r => 4 * ((Mpi.subSize inputs.length size)[r]?.getD 0))
    (fun r => (((Mpi.subSize inputs.length size).map fun k => 4 * k).take r).sum)
  refine .call c (fun _ => Reply.toRows) (fun _ => .nums ((inputs.map f).flatMap flat)) (fun _ _ => rfl) ?_ ?_
  · unfold exchange
    simp only [c]
    rw [if_pos]
    · congr 1
      funext r
      congr 1
      have := Props.C04_parallel_pointing_eq_serial 4 (fun x => flat (f x)) (fun _ => rfl) inputs size hs
        (junk r (inputs.length * 4)) (hj _ _)
      simp only [Mpi.parallelEval, pure, Except.pure, Except.ok.injEq] at this
      rw [List.flatMap_map]
      exact this
    · intro r hr
      refine ⟨_, _, _, _, rfl, fun s hs' => ⟨length_rankSend f inputs s hs', ?_⟩⟩
      rw [hj, offset_eq]
      have h' : s < (Mpi.subSize inputs.length size).length := by rw [Mpi.length_subSize]; exact hs'
      have h1 : Mpi.subStart inputs.length size (s + 1)
          = Mpi.subStart inputs.length size s + (Mpi.subSize inputs.length size)[s] := by
        unfold Mpi.subStart
        rw [List.take_succ_eq_append_getElem h', List.sum_append]
        simp
      have h2 := Mpi.subStart_mono inputs.length size (s + 1) size (by omega)
      rw [Mpi.subStart_size _ _ hs] at h2
      rw [List.getElem?_eq_getElem h', Option.getD_some]
      omega
  · refine RunsTo.ret.congr (fun _ _ => rfl) fun r _ => ?_
    rw [rows4_flat]

/-! ### `implement_scan` -/

/-- The attributes of rank `r` when a single process has `e`. -/
def toRank (r : Nat) (e : Scan.State ℝ Quat.Q) : RState :=
  ⟨{ e with mmap := if r = 0 then e.mmap else none }, e.mmap.isSome⟩

theorem stepEl_len {el el' : List ℝ} {s s' : Option (Step.ElSteps ℝ)}
    (h : Scan.stepEl el s = .ok (el', s')) : el'.length = el.length := by
  cases s with
  | none => cases h; rfl
  | some s =>
    obtain ⟨⟨a, d, g⟩, h1, h2⟩ := bind_ok h
    cases h2
    exact ScanInstrument.stepArray_length _ _ _ _ h1

theorem runsTo_groundQuats (hs : 0 < size) (junk : Junk) (hj : ∀ r n, (junk r n).length = n) (n : Nat)
    (site : Scan.Site ℝ Quat.Q) (ground : Bool) (az el : List ℝ) (old : Option (List Quat.Q))
    (ha : az.length = n) (he : el.length = n) :
    RunsTo size (fun r => groundQuats junk size r n site ground (az.zip el) old)
      fun _ => .ok (if ground then some (List.zipWith site.ground az el) else old) := by
  unfold groundQuats
  cases ground with
  | false => exact RunsTo.ret
  | true =>
    simp only [if_true]
    refine RunsTo.andThen (runsTo_gather hs junk hj n _ _ (by simp [ha, he])) ?_
    refine RunsTo.ret.congr (fun _ _ => rfl) fun _ _ => ?_
    simp [List.zip, List.map_zipWith]

theorem runsTo_storeMmap (start stop : Int) (q : List Quat.Q) (e : Scan.State ℝ Quat.Q)
    (m : Option (List Quat.Q)) (h : Scan.storeMmap start stop q e.mmap = .ok m) :
    RunsTo size (fun r => storeMmap r start stop q (toRank r e))
      fun r => .ok (if r = 0 then m else none) := by
  unfold storeMmap toRank
  cases hm : e.mmap with
  | none =>
    rw [hm] at h
    cases h
    simp only [Option.isSome_none, ite_self]
    exact RunsTo.ret
  | some x =>
    rw [hm] at h
    simp only [Option.isSome_some, if_true]
    refine RunsTo.andThen (a := fun r => if r = 0 then m else none) (RunsTo.run' fun r _ => ?_)
      (RunsTo.andThen (runsTo_barrier) RunsTo.ret)
    by_cases e : r = 0
    · simp only [if_pos e]
      exact h
    · simp only [if_neg e]

theorem storeMmap_isSome {start stop : Int} {q : List Quat.Q} {m m' : Option (List Quat.Q)}
    (h : Scan.storeMmap start stop q m = .ok m') : m'.isSome = m.isSome := by
  cases m with
  | none => cases h; rfl
  | some x =>
    obtain ⟨y, _, h2⟩ := bind_ok h
    cases h2
    rfl

theorem runsTo_compute (hs : 0 < size) (junk : Junk) (hj : ∀ r n, (junk r n).length = n)
    (site : Scan.Site ℝ Quat.Q) (o : Scan.Opts ℝ) (ctime : List ℝ) (start stop : Int)
    (e e' : Scan.State ℝ Quat.Q) (hc : ctime.length = (stop - start).toNat)
    (h : Scan.compute site o ctime start stop e = .ok e') :
    RunsTo size (fun r => compute junk size r site o ctime start stop (toRank r e))
      fun r => .ok (leave (toRank r e')) := by
  obtain ⟨⟨az, el⟩, h1, h⟩ := bind_ok h
  obtain ⟨⟨el', steps⟩, h2, h⟩ := bind_ok h
  obtain ⟨m, h3, h⟩ := bind_ok h
  obtain rfl := Except.ok.inj h
  obtain ⟨l1, l2⟩ := Scan.azel_length _ _ _ _ _ h1
  have l3 := stepEl_len h2
  unfold compute
  refine RunsTo.andThen (RunsTo.run' fun _ _ => h1) ?_
  refine RunsTo.andThen (RunsTo.run' fun _ _ => h2) ?_
  refine RunsTo.andThen (runsTo_groundQuats hs junk hj _ site _ az el' e.qGround (by omega) (by omega)) ?_
  refine RunsTo.andThen (runsTo_gather hs junk hj _ _ _ (by simp; omega)) ?_
  refine RunsTo.andThen (runsTo_storeMmap start stop _ e m h3) ?_
  refine RunsTo.ret.congr (fun _ _ => rfl) fun r _ => ?_
  have := storeMmap_isSome h3
  simp only [leave, toRank, Scan.bore, this]

theorem runsTo_implementScan (hs : 0 < size) (junk : Junk) (hj : ∀ r n, (junk r n).length = n)
    (site : Scan.Site ℝ Quat.Q) (o : Scan.Opts ℝ) (pre : Bool) (start stop : Int)
    (e e' : Scan.State ℝ Quat.Q) (h : Scan.implementScan site o pre start stop e = .ok e') :
    RunsTo size (fun r => implementScan junk size r site o pre start stop (toRank r e))
      fun r => .ok (leave (toRank r e')) := by
  obtain ⟨ct, h1, h⟩ := bind_ok h
  have hc : ct.length = (stop - start).toNat := by
    unfold Data.ctimes at h1
    split at h1
    · cases h1
    · cases h1
      simp [intRange]
  unfold implementScan
  refine RunsTo.andThen (RunsTo.run' fun _ _ => h1) ?_
  cases hm : e.mmap with
  | none =>
    have e1 : ∀ r, (pre && (toRank r e).hasMmap) = false := fun r => by simp [toRank, hm]
    simp only [e1, Bool.false_eq_true, if_false]
    rw [hm] at h
    cases pre <;> exact runsTo_compute hs junk hj site o ct start stop e e' hc h
  | some m =>
    cases pre with
    | false =>
      simp only [Bool.false_and, Bool.false_eq_true, if_false]
      exact runsTo_compute hs junk hj site o ct start stop e e' hc h
    | true =>
      have e1 : ∀ r, (true && (toRank r e).hasMmap) = true := fun r => by simp [toRank, hm]
      simp only [e1, if_true]
      rw [hm] at h
      obtain rfl := Except.ok.inj h
      refine RunsTo.andThen (runsTo_broadcastArray hs (pySlice m start stop) _ ?_) ?_
      · simp [toRank, hm]
      · refine RunsTo.ret.congr (fun _ _ => rfl) fun r _ => ?_
        simp only [leave, toRank, hm]

end Verif.Spmd
