import Verif.Spec.Data
import Verif.Lemmas.Chunks
import Verif.Lemmas.List

/-! Lemmas about the store of time-ordered data (no claims). -/

set_option linter.unusedSimpArgs false

namespace Verif.Data

open Verif.Chunks Verif.Signal Verif.Spec

variable {A H K : Type}

theorem length_expand (n : Nat) (v : List K) (h : v.length = n ∨ ∃ x, v = [x]) :
    (expand n v).length = n := by
  unfold expand
  split
  · assumption
  · rcases h with h | ⟨x, rfl⟩
    · contradiction
    · simp

theorem pyAssign_mid (pre mid post v : List K) (n : Nat) (hm : mid.length = n)
    (hv : v.length = n ∨ ∃ x, v = [x]) :
    pyAssign (pre ++ mid ++ post) (pre.length : Int) ((pre.length : Int) + n) v
      = .ok (pre ++ expand n v ++ post) := by
  unfold pyAssign
  have e1 : pyClip (pre ++ mid ++ post).length (pre.length : Int) = pre.length := by
    rw [pyClip_ofNat]
    simp
  have e2 : pyClip (pre ++ mid ++ post).length ((pre.length : Int) + n) = pre.length + n := by
    have := pyClip_ofNat (pre ++ mid ++ post).length (pre.length + n)
    push_cast at this
    rw [this]
    simp [hm]
  have key : ∀ u : List K, u.length = n → setRange (pre ++ mid ++ post) pre.length u
      = pre ++ u ++ post := by
    intro u hu
    unfold setRange
    rw [List.append_assoc pre mid post, List.take_left', hu]
    · have : pre.length + n = (pre ++ mid).length := by simp [hm]
      rw [this, ← List.append_assoc pre mid post, List.drop_left]
    · rfl
  simp only [e1, e2]
  have hn : pre.length + n - pre.length = n := by omega
  rw [hn]
  unfold expand
  by_cases h : v.length = n
  · rw [if_pos h, if_pos h, key v h]
  · rw [if_neg h, if_neg h]
    rcases hv with hv | ⟨x, rfl⟩
    · exact absurd hv h
    · simp only
      rw [key _ (by simp)]

abbrev Write (K : Type) := Option Int × Field' × List K

/-- Value of the last write to a key. -/
def lastWrite : List (Write K) → Option Int → Field' → Option (List K)
  | [], _, _ => none
  | e :: W, w, f =>
    match lastWrite W w f with
    | some v => some v
    | none => if e.1 = w ∧ e.2.1 = f then some e.2.2 else none

theorem lastWrite_mem (W : List (Write K)) (w : Option Int) (f : Field') (v : List K)
    (h : lastWrite W w f = some v) : (w, f, v) ∈ W := by
  induction W with
  | nil => cases h
  | cons e W ih =>
    unfold lastWrite at h
    split at h
    · rename_i u hu
      cases h
      exact List.mem_cons_of_mem _ (ih hu)
    · split at h
      · rename_i hc
        cases h
        obtain ⟨rfl, rfl⟩ := hc
        exact List.mem_cons_self
      · cases h

theorem lastWrite_append (W V : List (Write K)) (w : Option Int) (f : Field') :
    lastWrite (W ++ V) w f = match lastWrite V w f with
      | some v => some v
      | none => lastWrite W w f := by
  induction W with
  | nil => cases h : lastWrite V w f <;> simp [lastWrite, h]
  | cons e W ih =>
    rw [List.cons_append, lastWrite, ih]
    cases lastWrite V w f with
    | none => rfl
    | some v => rfl

/-- The array stored under a key has the slice `[q0, q0 + n)`. -/
def Fits (a : Option (List K)) (q0 n : Nat) : Prop :=
  ∃ pre mid post : List K, a = some (pre ++ mid ++ post) ∧ pre.length = q0 ∧ mid.length = n

theorem writes_fold (c : Int) (q0 n : Nat) (W : List (Write K)) (st : Store K)
    (hW : ∀ e ∈ W, Fits (st c e.1 e.2.1) q0 n)
    (hl : ∀ e ∈ W, e.2.2.length = n ∨ ∃ x, e.2.2 = [x]) :
    ∃ st', W.foldlM (fun st e => writeSlice c e.1 e.2.1 (q0 : Int) ((q0 : Int) + n) e.2.2 st) st
        = .ok st' ∧
      (∀ c' w f, c' ≠ c → st' c' w f = st c' w f) ∧
      ∀ w f, (lastWrite W w f = none → st' c w f = st c w f) ∧
        ∀ v, lastWrite W w f = some v → ∀ pre mid post, st c w f = some (pre ++ mid ++ post) →
          pre.length = q0 → mid.length = n → st' c w f = some (pre ++ expand n v ++ post) := by
  induction W generalizing st with
  | nil =>
    refine ⟨st, rfl, fun _ _ _ _ => rfl, fun w f => ⟨fun _ => rfl, ?_⟩⟩
    intro v hv
    cases hv
  | cons e W ih =>
    obtain ⟨pre, mid, post, ha, hp, hm⟩ := hW e List.mem_cons_self
    have hle := hl e List.mem_cons_self
    have hwr : writeSlice c e.1 e.2.1 (q0 : Int) ((q0 : Int) + n) e.2.2 st
        = .ok (st.set c e.1 e.2.1 (some (pre ++ expand n e.2.2 ++ post))) := by
      unfold writeSlice
      rw [ha]
      simp only [bind, Except.bind, pure, Except.pure]
      rw [← hp, pyAssign_mid pre mid post e.2.2 n hm hle]
    set st1 := st.set c e.1 e.2.1 (some (pre ++ expand n e.2.2 ++ post)) with hst1
    have hset : ∀ w f, st1 c w f = if e.1 = w ∧ e.2.1 = f then
        some (pre ++ expand n e.2.2 ++ post) else st c w f := by
      intro w f
      rw [hst1]
      unfold Store.set
      by_cases h : e.1 = w ∧ e.2.1 = f
      · rw [if_pos h, if_pos ⟨rfl, h.1.symm, h.2.symm⟩]
      · rw [if_neg h, if_neg]
        rintro ⟨-, h1, h2⟩
        exact h ⟨h1.symm, h2.symm⟩
    obtain ⟨st', h1, h2, h3⟩ := ih st1 (by
      intro e' he'
      rw [hset]
      split
      · exact ⟨pre, expand n e.2.2, post, rfl, hp, length_expand n _ hle⟩
      · exact hW e' (List.mem_cons_of_mem _ he')) (fun e' he' => hl e' (List.mem_cons_of_mem _ he'))
    refine ⟨st', ?_, ?_, ?_⟩
    · rw [List.foldlM_cons, hwr]
      exact h1
    · intro c' w f hc
      rw [h2 c' w f hc, hst1]
      unfold Store.set
      rw [if_neg]
      rintro ⟨h, -⟩
      exact hc h
    · intro w f
      obtain ⟨h4, h5⟩ := h3 w f
      constructor
      · intro hlw
        unfold lastWrite at hlw
        split at hlw
        · cases hlw
        · rename_i hn
          split at hlw
          · cases hlw
          · rename_i hne
            rw [h4 hn, hset, if_neg hne]
      · intro v hv p m q hst hpl hml
        unfold lastWrite at hv
        split at hv
        · rename_i u hu
          cases hv
          by_cases hk : e.1 = w ∧ e.2.1 = f
          · have hs1 : st1 c w f = some (pre ++ expand n e.2.2 ++ post) := by
              rw [hset, if_pos hk]
            have := h5 v hu pre (expand n e.2.2) post hs1 hp (length_expand n _ hle)
            rw [this]
            obtain ⟨k1, k2⟩ := hk
            rw [← k1, ← k2, ha] at hst
            simp only [Option.some.injEq] at hst
            have e1 := List.append_inj hst (by simp [hp, hpl, hm, hml])
            have e2 := List.append_inj e1.1 (by rw [hp, hpl])
            rw [e2.1, e1.2]
          · exact h5 v hu p m q (by rw [hset, if_neg hk]; exact hst) hpl hml
        · rename_i hn
          split at hv
          · rename_i hk
            cases hv
            rw [h4 hn, hset, if_pos hk]
            obtain ⟨k1, k2⟩ := hk
            rw [← k1, ← k2, ha] at hst
            simp only [Option.some.injEq] at hst
            have e1 := List.append_inj hst (by simp [hp, hpl, hm, hml])
            have e2 := List.append_inj e1.1 (by rw [hp, hpl])
            rw [e2.1, e1.2]
          · cases hv

/-! ### the writes of one subchunk -/

/-- The writes made for one detector. -/
def detWrites (o : Opts K) (d : Det) (r : Ret K) (hwp : List K) : List (Write K) :=
  (if o.saveTod then [(some d.idx, .tod, r.tod)] else []) ++
    if o.savePoint then [(some d.idx, .pix, r.pix), (some d.idx, .pa, r.pa), (none, .hwpAng, hwp)]
    else []

def crossWrites [CommRing K] [DecidableEq K] (env : Env A H K) (o : Opts K)
    (pair : Option Det × Option Det) (s : Chunk) (ang : A) (h : H) : List (Write K) :=
  match live pair.1, live pair.2 with
  | some a, some b =>
    if o.ctalk ≠ 0 ∧ o.saveTod = true then
      [(some a.idx, .tod, List.zipWith (fun x y => x + o.ctalk * y) (env.ret ang h a s).tod
          (env.ret ang h b s).tod),
       (some b.idx, .tod, List.zipWith (fun x y => x + o.ctalk * y) (env.ret ang h b s).tod
          (env.ret ang h a s).tod)]
    else []
  | _, _ => []

def optWrites (o : Opts K) (env : Env A H K) (d : Option Det) (s : Chunk) (ang : A) (h : H) :
    List (Write K) :=
  match live d with
  | some d => detWrites o d (env.ret ang h d s) (env.hwp h s)
  | none => []

/-- All writes of a subchunk. -/
def subWrites [CommRing K] [DecidableEq K] (env : Env A H K) (o : Opts K)
    (pair : Option Det × Option Det) (s : Chunk) (ang : A) (h : H) : List (Write K) :=
  optWrites o env pair.1 s ang h ++ optWrites o env pair.2 s ang h ++ crossWrites env o pair s ang h

theorem crossTalk_eq' [CommRing K] (a b : List K) (c : K) (h : a.length = b.length) :
    crossTalk a b c = .ok (List.zipWith (fun x y => x + c * y) a b,
      List.zipWith (fun x y => x + c * y) b a) := by
  unfold crossTalk
  rw [if_neg (by simpa using h)]
  simp only [Except.ok.injEq, Prod.mk.injEq]
  constructor <;>
  · apply List.ext_getElem?
    intro i
    simp only [List.getElem?_zipWith, List.getElem?_map]
    rcases ha : a[i]? with _ | x <;> rcases hb : b[i]? with _ | y <;> simp
    ring

theorem storeRet_eq (chunks : List Chunk) (o : Opts K) (cidx : Int) (d : Det) (s : Chunk)
    (r : Ret K) (hwp : List K) (st : Store K) (q0 q1 : Int)
    (hq : chunk2idx chunks s.start s.stop cidx = .ok (q0, q1)) :
    storeRet chunks o.saveTod o.savePoint cidx d s r hwp st
      = (detWrites o d r hwp).foldlM (fun st e => writeSlice cidx e.1 e.2.1 q0 q1 e.2.2 st) st := by
  unfold storeRet detWrites
  rw [hq]
  cases o.saveTod <;> cases o.savePoint <;>
    simp [bind, Except.bind, pure, Except.pure, List.foldlM] <;>
    (repeat' split) <;> first | rfl | simp_all

theorem scanSub_eq [CommRing K] [DecidableEq K] (env : Env A H K) (chunks : List Chunk) (o : Opts K)
    (cidx : Int) (pair : Option Det × Option Det) (s : Chunk) (ang : A) (h : H) (st : Store K)
    (q0 q1 : Int) (hq : chunk2idx chunks s.start s.stop cidx = .ok (q0, q1))
    (hlen : ∀ d d', (env.ret ang h d s).tod.length = (env.ret ang h d' s).tod.length) :
    scanSub env chunks o cidx pair s ang h st
      = (subWrites env o pair s ang h).foldlM
          (fun st e => writeSlice cidx e.1 e.2.1 q0 q1 e.2.2 st) st := by
  unfold scanSub subWrites optWrites crossWrites
  rw [List.foldlM_append, List.foldlM_append]
  simp only [storeRet_eq chunks o cidx _ s _ _ _ q0 q1 hq]
  rcases live pair.1 with _ | a <;> rcases live pair.2 with _ | b
  · rfl
  · simp only [List.foldlM_nil]
    simp [bind, Except.bind, pure, Except.pure]
  · simp only [List.foldlM_nil]
    simp [bind, Except.bind, pure, Except.pure]
    split <;> simp_all
  · simp only
    rw [crossTalk_eq' _ _ _ (hlen a b)]
    simp only [bind, Except.bind, pure, Except.pure]
    cases (detWrites o a (env.ret ang h a s) (env.hwp h s)).foldlM
      (fun st e => writeSlice cidx e.1 e.2.1 q0 q1 e.2.2 st) st with
    | error e => rfl
    | ok st1 =>
      simp only
      cases (detWrites o b (env.ret ang h b s) (env.hwp h s)).foldlM
        (fun st e => writeSlice cidx e.1 e.2.1 q0 q1 e.2.2 st) st1 with
      | error e => rfl
      | ok st2 =>
        simp only
        by_cases hc : o.ctalk = 0
        · simp [hc, pure, Except.pure]
        · cases hs : o.saveTod
          · simp [hc, pure, Except.pure]
          · simp only [ne_eq, hc, not_false_eq_true, if_true, and_self, List.foldlM, bind,
              Except.bind, pure, Except.pure, updateTod, hq]
            cases writeSlice cidx (some a.idx) .tod q0 q1 _ st2 with
            | error e => rfl
            | ok st3 =>
              simp only
              cases writeSlice cidx (some b.idx) .tod q0 q1 _ st3 with
              | error e => rfl
              | ok st4 => rfl

end Verif.Data

namespace Verif.Data

open Verif.Chunks Verif.Signal Verif.Spec

variable {A H K : Type}

theorem lastWrite_none_iff (W : List (Write K)) (w : Option Int) (f : Field') :
    lastWrite W w f = none ↔ ∀ e ∈ W, ¬ (e.1 = w ∧ e.2.1 = f) := by
  induction W with
  | nil => simp [lastWrite]
  | cons e W ih =>
    unfold lastWrite
    constructor
    · intro h
      split at h
      · cases h
      · rename_i hn
        split at h
        · cases h
        · rename_i hne
          intro e' he'
          rcases List.mem_cons.mp he' with rfl | h2
          · exact hne
          · exact ih.mp hn e' h2
    · intro h
      have := ih.mpr fun e' he' => h e' (List.mem_cons_of_mem _ he')
      rw [this]
      simp only
      rw [if_neg (h e List.mem_cons_self)]

/-- The keys written for a detector. -/
def detKeys (o : Opts K) (d : Option Det) : List (Option Int × Field') :=
  match live d with
  | some d => (if o.saveTod then [(some d.idx, .tod)] else []) ++
      if o.savePoint then [(some d.idx, .pix), (some d.idx, .pa), (none, .hwpAng)] else []
  | none => []

/-- The keys written for a pair. -/
def pairKeys (o : Opts K) (pair : Option Det × Option Det) : List (Option Int × Field') :=
  detKeys o pair.1 ++ detKeys o pair.2

theorem optWrites_keys (env : Env A H K) (o : Opts K) (d : Option Det) (s : Chunk) (ang : A)
    (h : H) : (optWrites o env d s ang h).map (fun e => (e.1, e.2.1)) = detKeys o d := by
  unfold optWrites detKeys
  rcases live d with _ | d
  · rfl
  · simp only [detWrites]
    cases o.saveTod <;> cases o.savePoint <;> rfl

theorem subWrites_keys [CommRing K] [DecidableEq K] (env : Env A H K) (o : Opts K)
    (pair : Option Det × Option Det) (s : Chunk) (ang : A) (h : H) (k : Option Int × Field') :
    (∃ e ∈ subWrites env o pair s ang h, (e.1, e.2.1) = k) ↔ k ∈ pairKeys o pair := by
  have e1 : ∀ W : List (Write K), (∃ e ∈ W, (e.1, e.2.1) = k)
      ↔ k ∈ W.map (fun e => (e.1, e.2.1)) := by
    intro W
    simp only [List.mem_map]
  rw [e1]
  unfold subWrites
  rw [List.map_append, List.map_append, optWrites_keys, optWrites_keys]
  change k ∈ pairKeys o pair ++ _ ↔ _
  rw [List.mem_append]
  constructor
  · rintro (h1 | h1)
    · exact h1
    · unfold crossWrites at h1
      unfold pairKeys detKeys
      rcases ha : live pair.1 with _ | a <;> rcases hb : live pair.2 with _ | b
      · simp [ha] at h1
      · simp [ha, hb] at h1
      · simp [ha, hb] at h1
      · simp only [ha, hb] at h1
        split at h1
        · rename_i hc
          simp only [List.map_cons, List.map_nil, List.mem_cons, List.not_mem_nil, or_false] at h1
          rcases h1 with rfl | rfl <;> simp [hc.2]
        · cases h1
  · exact Or.inl

theorem lastWrite_key [CommRing K] [DecidableEq K] (env : Env A H K) (o : Opts K)
    (pair : Option Det × Option Det) (s : Chunk) (ang : A) (h : H) (w : Option Int) (f : Field') :
    lastWrite (subWrites env o pair s ang h) w f = none ↔ (w, f) ∉ pairKeys o pair := by
  rw [lastWrite_none_iff, ← subWrites_keys env o pair s ang h]
  constructor
  · rintro h1 ⟨e, he, hk⟩
    rw [Prod.mk.injEq] at hk
    exact h1 e he hk
  · intro h1 e he hk
    exact h1 ⟨e, he, by rw [Prod.mk.injEq]; exact hk⟩

/-- What is stored under a key for a subchunk. -/
def slice [CommRing K] [DecidableEq K] (env : Env A H K) (o : Opts K)
    (pair : Option Det × Option Det) (w : Option Int) (f : Field') (x : Obs A H) : List K :=
  match lastWrite (subWrites env o pair x.1 x.2.1 x.2.2) w f with
  | some v => expand x.size v
  | none => []

/-- All results of `scan` have the size of the subchunk. -/
def Sized (env : Env A H K) : Prop :=
  (∀ a h d s, (env.ret a h d s).tod.length = (s.stop - s.start).toNat ∧
    (env.ret a h d s).pix.length = (s.stop - s.start).toNat ∧
    (env.ret a h d s).pa.length = (s.stop - s.start).toNat) ∧
  ∀ h s, (env.hwp h s).length = (s.stop - s.start).toNat ∨ ∃ x, env.hwp h s = [x]

theorem subWrites_sized [CommRing K] [DecidableEq K] (env : Env A H K) (hs : Sized env) (o : Opts K)
    (pair : Option Det × Option Det) (s : Chunk) (ang : A) (h : H) :
    ∀ e ∈ subWrites env o pair s ang h,
      e.2.2.length = (s.stop - s.start).toNat ∨ ∃ x, e.2.2 = [x] := by
  have hd : ∀ d, ∀ e ∈ optWrites o env d s ang h,
      e.2.2.length = (s.stop - s.start).toNat ∨ ∃ x, e.2.2 = [x] := by
    intro d e he
    unfold optWrites at he
    rcases hl : live d with _ | d
    · simp [hl] at he
    · simp only [hl] at he
      obtain ⟨h1, h2, h3⟩ := hs.1 ang h d s
      have h4 := hs.2 h s
      unfold detWrites at he
      simp only [List.mem_append, List.mem_ite_nil_right, List.mem_cons, List.not_mem_nil,
        or_false] at he
      rcases he with ⟨_, rfl⟩ | ⟨_, rfl | rfl | rfl⟩
      · exact Or.inl h1
      · exact Or.inl h2
      · exact Or.inl h3
      · exact h4
  intro e he
  unfold subWrites at he
  rcases List.mem_append.mp he with h1 | h1
  · rcases List.mem_append.mp h1 with h2 | h2
    · exact hd _ e h2
    · exact hd _ e h2
  · unfold crossWrites at h1
    rcases ha : live pair.1 with _ | a <;> rcases hb : live pair.2 with _ | b
    · simp [ha] at h1
    · simp [ha, hb] at h1
    · simp [ha, hb] at h1
    · simp only [ha, hb] at h1
      split at h1
      · simp only [List.mem_cons, List.not_mem_nil, or_false] at h1
        rcases h1 with rfl | rfl <;>
        · left
          rw [List.length_zipWith, (hs.1 ang h a s).1, (hs.1 ang h b s).1]
          simp
      · cases h1

/-- State of the store while chunk `c` (key `cidx`) is scanned: `xs` are the subchunks done, `t` is
the next sample. -/
def Inv [CommRing K] [DecidableEq K] (env : Env A H K) (o : Opts K)
    (pair : Option Det × Option Det) (cidx : Int) (c : Chunk) (st0 st : Store K)
    (xs : List (Obs A H)) (t : Int) : Prop :=
  (∀ c' w f, c' ≠ cidx → st c' w f = st0 c' w f) ∧
  ∀ w f, ((w, f) ∉ pairKeys o pair → st cidx w f = st0 cidx w f) ∧
    ((w, f) ∈ pairKeys o pair →
      (∃ post : List K, st cidx w f = some (xs.flatMap (slice env o pair w f) ++ post) ∧
        post.length = (c.stop - t).toNat) ∧
      (xs.flatMap (slice env o pair w f)).length = (t - c.start).toNat)

theorem chunk_fold [CommRing K] [DecidableEq K] (env : Env A H K) (hs : Sized env)
    (chunks : List Chunk) (o : Opts K) (pair : Option Det × Option Det) (cidx : Int) (c : Chunk)
    (hc : pyGet chunks cidx = .ok c) (st0 : Store K) (subs : List Chunk) :
    ∀ (t : Int) (r : Rot A) (h : H) (st : Store K) (xs ys : List (Obs A H)) (r' : Rot A) (h' : H),
      c.start ≤ t → Tiles t c.stop (subs.map Chunk.ivl) → Inv env o pair cidx c st0 st xs t →
      subHistory env r h subs = .ok (ys, r', h') →
      ∃ st', subs.foldlM (fun x s => stepSub env chunks o cidx pair s x) (r, h, st)
          = .ok (r', h', st') ∧ Inv env o pair cidx c st0 st' (xs ++ ys) c.stop := by
  induction subs with
  | nil =>
    intro t r h st xs ys r' h' _ ht hi hh
    cases ht
    simp only [subHistory, Except.ok.injEq, Prod.mk.injEq] at hh
    obtain ⟨rfl, rfl, rfl⟩ := hh
    exact ⟨st, rfl, by simpa using hi⟩
  | cons s subs ih =>
    intro t r h st xs ys r' h' hct ht hi hh
    simp only [List.map_cons] at ht
    have htile := ht
    generalize hiv : Chunk.ivl s = iv at ht
    cases ht with
    | cons hlt ht =>
    simp only [Chunk.ivl, Prod.mk.injEq] at hiv
    obtain ⟨rfl, rfl⟩ := hiv
    have hle := tiles_le ht
    simp only [subHistory, bind, Except.bind, pure, Except.pure] at hh
    rw [List.foldlM_cons]
    unfold stepSub
    simp only [bind, Except.bind, pure, Except.pure]
    rcases hrot : rotStep r s with e | r1
    · rw [hrot] at hh
      cases hh
    rw [hrot] at hh
    simp only at hh ⊢
    rcases hhwp : env.rotateHwp h s with e | h1
    · rw [hhwp] at hh
      cases hh
    rw [hhwp] at hh
    simp only at hh ⊢
    rcases hrest : subHistory env r1 h1 subs with e | ⟨zs, r2, h2⟩
    · rw [hrest] at hh
      cases hh
    rw [hrest] at hh
    simp only [Except.ok.injEq, Prod.mk.injEq] at hh
    obtain ⟨rfl, rfl, rfl⟩ := hh
    -- the writes
    set n := (s.stop - s.start).toNat with hn
    set q0 := (s.start - c.start).toNat with hq0
    have hq : chunk2idx chunks s.start s.stop cidx = .ok ((q0 : Int), (q0 : Int) + n) := by
      unfold chunk2idx
      rw [hc]
      simp only [bind, Except.bind, pure, Except.pure, Except.ok.injEq, Prod.mk.injEq]
      omega
    rw [scanSub_eq env chunks o cidx pair s r1.angle h1 st _ _ hq
      (fun d d' => by rw [(hs.1 _ _ d s).1, (hs.1 _ _ d' s).1])]
    have hrep : ∀ post : List K, post.length = (c.stop - s.start).toNat →
        (post.take n).length = n ∧ (post.drop n).length = (c.stop - s.stop).toNat := by
      intro post hp
      rw [List.length_take, List.length_drop, hp]
      omega
    have hfit : ∀ e ∈ subWrites env o pair s r1.angle h1, Fits (st cidx e.1 e.2.1) q0 n := by
      intro e he
      have hk := (subWrites_keys env o pair s r1.angle h1 (e.1, e.2.1)).mp ⟨e, he, rfl⟩
      obtain ⟨⟨post, k1, k3⟩, k2⟩ := (hi.2 e.1 e.2.1).2 hk
      refine ⟨_, post.take n, post.drop n, ?_, k2, (hrep post k3).1⟩
      rw [k1, List.append_assoc, List.take_append_drop]
    obtain ⟨st1, f1, f2, f3⟩ := writes_fold cidx q0 n _ st hfit
      (subWrites_sized env hs o pair s r1.angle h1)
    rw [f1]
    simp only
    obtain ⟨st', g1, g2⟩ := ih s.stop r1 h1 st1 (xs ++ [(s, r1.angle, h1)]) zs r2 h2 (by omega) ht
      (by
        refine ⟨fun c' w f hcc => by rw [f2 c' w f hcc, hi.1 c' w f hcc], fun w f => ⟨?_, ?_⟩⟩
        · intro hk
          rw [(f3 w f).1 ((lastWrite_key env o pair s r1.angle h1 w f).mpr hk), (hi.2 w f).1 hk]
        · intro hk
          obtain ⟨⟨post, k1, k3⟩, k2⟩ := (hi.2 w f).2 hk
          rcases hlw : lastWrite (subWrites env o pair s r1.angle h1) w f with _ | v
          · exact absurd hk ((lastWrite_key env o pair s r1.angle h1 w f).mp hlw)
          · have hvl := subWrites_sized env hs o pair s r1.angle h1 _ (lastWrite_mem _ _ _ _ hlw)
            have hsl : slice env o pair w f (s, r1.angle, h1) = expand n v := by
              unfold slice
              simp only [hlw]
              rfl
            have := (f3 w f).2 v hlw _ (post.take n) (post.drop n)
              (by rw [k1, List.append_assoc, List.take_append_drop]) k2 (hrep post k3).1
            rw [this, List.flatMap_append, List.flatMap_singleton, hsl]
            refine ⟨⟨_, rfl, (hrep post k3).2⟩, ?_⟩
            rw [List.length_append, k2, length_expand n v hvl]
            omega)
      hrest
    refine ⟨st', g1, ?_⟩
    rw [List.append_assoc] at g2
    exact g2

/-! ### chunks -/

/-- Indices of the live detectors of a pair. -/
def liveIdx (pair : Option Det × Option Det) : List Int :=
  ((live pair.1).toList ++ (live pair.2).toList).map Det.idx

/-- Is this array stored per detector? -/
def saved (o : Opts K) : Field' → Bool
  | .tod => o.saveTod
  | .pix => o.savePoint
  | .pa => o.savePoint
  | .hwpAng => false

theorem mem_detKeys_some (o : Opts K) (d : Option Det) (j : Int) (f : Field') :
    (some j, f) ∈ detKeys o d ↔ j ∈ (live d).toList.map Det.idx ∧ saved o f = true := by
  unfold detKeys
  rcases live d with _ | d
  · simp
  · cases f <;> cases hs : o.saveTod <;> cases hp : o.savePoint <;> simp [saved, hs, hp]

theorem mem_detKeys_none (o : Opts K) (d : Option Det) (f : Field') :
    (none, f) ∈ detKeys o d ↔ f = .hwpAng ∧ o.savePoint = true ∧ (live d).toList ≠ [] := by
  unfold detKeys
  rcases live d with _ | d
  · simp
  · cases f <;> cases hs : o.saveTod <;> cases hp : o.savePoint <;> simp

theorem mem_pairKeys_some (o : Opts K) (pair : Option Det × Option Det) (j : Int) (f : Field') :
    (some j, f) ∈ pairKeys o pair ↔ j ∈ liveIdx pair ∧ saved o f = true := by
  unfold pairKeys liveIdx
  rw [List.mem_append, mem_detKeys_some, mem_detKeys_some, List.map_append, List.mem_append]
  tauto

theorem mem_pairKeys_none (o : Opts K) (pair : Option Det × Option Det) (f : Field') :
    (none, f) ∈ pairKeys o pair ↔ f = .hwpAng ∧ o.savePoint = true ∧ liveIdx pair ≠ [] := by
  unfold pairKeys liveIdx
  rw [List.mem_append, mem_detKeys_none, mem_detKeys_none]
  simp only [ne_eq, List.map_eq_nil_iff, List.append_eq_nil_iff]
  tauto

theorem allocDet_spec [Zero K] (o : Opts K) (cidx : Int) (c : Chunk) (d : Det) (st : Store K) :
    let st1 := allocDet o.saveTod o.savePoint cidx c d st
    (∀ c' w f, c' ≠ cidx → st1 c' w f = st c' w f) ∧
    (∀ w f, w ≠ some d.idx → st1 cidx w f = st cidx w f) ∧
    ∀ f, st1 cidx (some d.idx) f = if saved o f then
      some (List.replicate (c.stop - c.start).toNat 0) else none := by
  refine ⟨?_, ?_, ?_⟩
  · intro c' w f h
    unfold allocDet Store.set
    cases o.saveTod <;> cases o.savePoint <;> simp [h]
  · intro w f h
    unfold allocDet Store.set
    cases o.saveTod <;> cases o.savePoint <;> simp [h]
  · intro f
    unfold allocDet Store.set
    cases f <;> cases hs : o.saveTod <;> cases hp : o.savePoint <;> simp [saved, hs, hp]

/-- The store when the loop over subchunks of a chunk begins. -/
def allocAll [Zero K] (o : Opts K) (first : Bool) (cidx : Int) (c : Chunk)
    (pair : Option Det × Option Det) (st : Store K) : Store K :=
  allocPair o cidx c pair (if first then allocHwp o.savePoint cidx c st else st)

theorem allocPair_spec [Zero K] (o : Opts K) (cidx : Int) (c : Chunk)
    (pair : Option Det × Option Det) (st : Store K) :
    let st1 := allocPair o cidx c pair st
    (∀ c' w f, c' ≠ cidx → st1 c' w f = st c' w f) ∧
    (∀ f, st1 cidx none f = st cidx none f) ∧
    (∀ j f, j ∉ liveIdx pair → st1 cidx (some j) f = st cidx (some j) f) ∧
    ∀ j f, j ∈ liveIdx pair → st1 cidx (some j) f = if saved o f then
      some (List.replicate (c.stop - c.start).toNat 0) else none := by
  intro st1
  have key : ∀ (d : Option Det) (st : Store K),
      let st1 := match live d with
        | some a => allocDet o.saveTod o.savePoint cidx c a st
        | none => st
      (∀ c' w f, c' ≠ cidx → st1 c' w f = st c' w f) ∧
      (∀ f, st1 cidx none f = st cidx none f) ∧
      (∀ j f, j ∉ (live d).toList.map Det.idx → st1 cidx (some j) f = st cidx (some j) f) ∧
      ∀ j f, j ∈ (live d).toList.map Det.idx → st1 cidx (some j) f = if saved o f then
        some (List.replicate (c.stop - c.start).toNat 0) else none := by
    intro d st
    rcases live d with _ | d
    · simp
    · obtain ⟨h1, h2, h3⟩ := allocDet_spec o cidx c d st
      refine ⟨h1, fun f => h2 none f (by simp), fun j f hj => h2 _ f ?_, fun j f hj => ?_⟩
      · simpa using hj
      · simp only [Option.toList_some, List.map_cons, List.map_nil, List.mem_cons,
          List.not_mem_nil, or_false] at hj
        subst hj
        exact h3 f
  obtain ⟨a1, a2, a3, a4⟩ := key pair.1 st
  obtain ⟨b1, b2, b3, b4⟩ := key pair.2 (match live pair.1 with
        | some a => allocDet o.saveTod o.savePoint cidx c a st
        | none => st)
  unfold liveIdx
  refine ⟨fun c' w f h => ?_, fun f => ?_, fun j f hj => ?_, fun j f hj => ?_⟩
  · exact (b1 c' w f h).trans (a1 c' w f h)
  · exact (b2 f).trans (a2 f)
  · rw [List.map_append, List.mem_append, not_or] at hj
    exact (b3 j f hj.2).trans (a3 j f hj.1)
  · by_cases h2 : j ∈ (live pair.2).toList.map Det.idx
    · exact b4 j f h2
    · rw [List.map_append, List.mem_append] at hj
      exact (b3 j f h2).trans (a4 j f (hj.resolve_right h2))

theorem allocAll_spec [Zero K] (o : Opts K) (first : Bool) (cidx : Int) (c : Chunk)
    (pair : Option Det × Option Det) (st : Store K) :
    let st1 := allocAll o first cidx c pair st
    (∀ c' w f, c' ≠ cidx → st1 c' w f = st c' w f) ∧
    (∀ f, st1 cidx none f = if first ∧ o.savePoint ∧ f = .hwpAng then
      some (List.replicate (c.stop - c.start).toNat 0) else st cidx none f) ∧
    (∀ j f, j ∉ liveIdx pair → st1 cidx (some j) f = st cidx (some j) f) ∧
    ∀ j f, j ∈ liveIdx pair → st1 cidx (some j) f = if saved o f then
      some (List.replicate (c.stop - c.start).toNat 0) else none := by
  obtain ⟨a1, a2, a3, a4⟩ := allocPair_spec o cidx c pair
    (if first then allocHwp o.savePoint cidx c st else st)
  refine ⟨fun c' w f h => (a1 c' w f h).trans ?_, fun f => (a2 f).trans ?_,
    fun j f hj => (a3 j f hj).trans ?_, a4⟩
  · unfold allocHwp Store.set
    cases first <;> cases o.savePoint <;> simp [h]
  · unfold allocHwp Store.set
    cases first <;> cases o.savePoint <;> simp
  · unfold allocHwp Store.set
    cases first <;> cases o.savePoint <;> simp

/-- The HWP array of a chunk has been allocated. -/
def HwpAlloc (st : Store K) (cidx : Int) (c : Chunk) : Prop :=
  ∃ a, st cidx none .hwpAng = some a ∧ a.length = (c.stop - c.start).toNat

/-- What one pass leaves in the store for a chunk. -/
def ChunkDone [CommRing K] [DecidableEq K] (env : Env A H K) (o : Opts K) (first : Bool)
    (pair : Option Det × Option Det) (cidx : Int) (c : Chunk) (xs : List (Obs A H))
    (st st' : Store K) : Prop :=
  (∀ j f, j ∉ liveIdx pair → st' cidx (some j) f = st cidx (some j) f) ∧
  (∀ j f, j ∈ liveIdx pair → st' cidx (some j) f = if saved o f then
    some (xs.flatMap (slice env o pair (some j) f)) else none) ∧
  (o.savePoint = true → liveIdx pair ≠ [] → st' cidx none .hwpAng
    = some (xs.flatMap (slice env o pair none .hwpAng))) ∧
  (o.savePoint = true → liveIdx pair = [] → first = false →
    st' cidx none .hwpAng = st cidx none .hwpAng) ∧
  (o.savePoint = true → HwpAlloc st' cidx c)

theorem rot_period {r r1 : Rot A} {s : Chunk} (h : rotStep r s = .ok r1) :
    r1.period = r.period ∧ r1.rotChunkSize = r.rotChunkSize ∧ r1.remainder = r.remainder ∧
      r1.reset = r.reset := by
  unfold rotStep at h
  split at h
  · cases h
    exact ⟨rfl, rfl, rfl, rfl⟩
  · unfold Rot.rotate at h
    split at h
    · simp only [bind, Except.bind, pure, Except.pure] at h
      rcases hg : r.gen.next with e | ⟨a, g⟩
      · rw [hg] at h
        cases h
      · rw [hg] at h
        simp only [Except.ok.injEq] at h
        subst h
        exact ⟨rfl, rfl, rfl, rfl⟩
    · cases h
      exact ⟨rfl, rfl, rfl, rfl⟩

theorem subHistory_rot (env : Env A H K) (subs : List Chunk) :
    ∀ (r : Rot A) (h : H) (xs : List (Obs A H)) (r' : Rot A) (h' : H),
      subHistory env r h subs = .ok (xs, r', h') →
      r'.period = r.period ∧ r'.rotChunkSize = r.rotChunkSize ∧ r'.remainder = r.remainder ∧
        r'.reset = r.reset := by
  induction subs with
  | nil =>
    intro r h xs r' h' hh
    simp only [subHistory, Except.ok.injEq, Prod.mk.injEq] at hh
    obtain ⟨-, rfl, -⟩ := hh
    exact ⟨rfl, rfl, rfl, rfl⟩
  | cons s subs ih =>
    intro r h xs r' h' hh
    simp only [subHistory, bind, Except.bind, pure, Except.pure] at hh
    rcases hrot : rotStep r s with e | r1
    · rw [hrot] at hh
      cases hh
    rw [hrot] at hh
    simp only at hh
    rcases hhwp : env.rotateHwp h s with e | h1
    · rw [hhwp] at hh
      cases hh
    rw [hhwp] at hh
    simp only at hh
    rcases hrest : subHistory env r1 h1 subs with e | ⟨zs, r2, h2⟩
    · rw [hrest] at hh
      cases hh
    rw [hrest] at hh
    simp only [Except.ok.injEq, Prod.mk.injEq] at hh
    obtain ⟨rfl, rfl, rfl⟩ := hh
    obtain ⟨a1, a2, a3, a4⟩ := rot_period hrot
    obtain ⟨b1, b2, b3, b4⟩ := ih r1 h1 zs r2 h2 hrest
    exact ⟨b1.trans a1, b2.trans a2, b3.trans a3, b4.trans a4⟩

/-- Either the instrument is not rotated, or the remainder is the distance to the next rotation. -/
def RotOk (r : Rot A) (a : Int) : Prop := r.period = false ∨ ∃ n : Nat, 0 < n ∧ RemInv n r a

theorem subpart_tiles (r : Rot A) (c : Chunk) (hr : RotOk r c.start) (hc : c.start < c.stop) :
    ∃ subs r', subpartChunk r c = .ok (subs, r') ∧ RotOk r' c.stop ∧ r'.reset = r.reset ∧
      Tiles c.start c.stop (subs.map Chunk.ivl) := by
  rcases hr with hr | ⟨n, hn, hr⟩
  · refine ⟨[c], r, ?_, Or.inl hr, rfl, .cons hc (.nil _)⟩
    unfold subpartChunk
    rw [if_neg (by simp [hr])]
  · obtain ⟨subs, rem', h1, h2, h3, -⟩ := subpartChunk_spec n hn r c hr hc
    exact ⟨subs, _, h1, Or.inr ⟨n, hn, h2⟩, rfl, h3⟩

theorem rotOk_congr {r r' : Rot A} {a : Int} (h : r'.period = r.period ∧
    r'.rotChunkSize = r.rotChunkSize ∧ r'.remainder = r.remainder ∧ r'.reset = r.reset)
    (hr : RotOk r a) : RotOk r' a := by
  obtain ⟨h1, h2, h3, h4⟩ := h
  unfold RotOk RemInv at *
  rw [h1, h2, h3]
  exact hr

theorem stepChunk_spec [CommRing K] [DecidableEq K] (env : Env A H K) (hs : Sized env)
    (chunks : List Chunk) (o : Opts K) (first : Bool) (pair : Option Det × Option Det) (c : Chunk)
    (cidx : Int) (hcidx : c.cidx = some cidx) (hc : pyGet chunks cidx = .ok c)
    (hlt : c.start < c.stop) (r : Rot A) (hr : RotOk r c.start) (h : H) (st : Store K)
    (hal : first = false → o.savePoint = true → HwpAlloc st cidx c)
    (subs : List Chunk) (r1 : Rot A) (hsub : subpartChunk r c = .ok (subs, r1))
    (xs : List (Obs A H)) (r2 : Rot A) (h2 : H) (hh : subHistory env r1 h subs = .ok (xs, r2, h2)) :
    ∃ st', stepChunk env chunks o first pair c (r, h, st) = .ok (r2, h2, st') ∧
      RotOk r2 c.stop ∧ r2.reset = r.reset ∧
      (∀ c' w f, c' ≠ cidx → st' c' w f = st c' w f) ∧
      ChunkDone env o first pair cidx c xs st st' := by
  obtain ⟨subs', r1', e1, e2, e3, e4⟩ := subpart_tiles r c hr hlt
  rw [hsub] at e1
  simp only [Except.ok.injEq, Prod.mk.injEq] at e1
  obtain ⟨rfl, rfl⟩ := e1
  have hrot := subHistory_rot env subs r1 h xs r2 h2 hh
  obtain ⟨a1, a2, a3, a4⟩ := allocAll_spec o first cidx c pair st
  set st1 := allocAll o first cidx c pair st with hst1
  have hinit : Inv env o pair cidx c st1 st1 [] c.start := by
    refine ⟨fun _ _ _ _ => rfl, fun w f => ⟨fun _ => rfl, fun hk => ⟨?_, by simp⟩⟩⟩
    rcases w with _ | j
    · obtain ⟨rfl, hp, hl⟩ := (mem_pairKeys_none o pair f).mp hk
      rw [a2]
      by_cases hf : first = true
      · rw [if_pos ⟨hf, hp, rfl⟩]
        exact ⟨List.replicate (c.stop - c.start).toNat 0, by simp, by simp⟩
      · rw [if_neg (fun hc => hf hc.1)]
        obtain ⟨a, ha, hal⟩ := hal (by simpa using hf) hp
        exact ⟨a, by simpa using ha, hal⟩
    · obtain ⟨hj, hsv⟩ := (mem_pairKeys_some o pair j f).mp hk
      rw [a4 j f hj, if_pos hsv]
      exact ⟨List.replicate (c.stop - c.start).toNat 0, by simp, by simp⟩
  obtain ⟨st', g1, g2, g3⟩ := chunk_fold env hs chunks o pair cidx c hc st1 subs c.start r1 h st1
    [] xs r2 h2 le_rfl e4 hinit hh
  refine ⟨st', ?_, rotOk_congr hrot e2, hrot.2.2.2.trans e3, ?_, ?_⟩
  · unfold stepChunk
    simp only [hcidx, pure, Except.pure, bind, Except.bind, hsub]
    exact g1
  · intro c' w f hne
    rw [g2 c' w f hne, a1 c' w f hne]
  · have hend : ∀ w f, (w, f) ∈ pairKeys o pair →
        st' cidx w f = some (xs.flatMap (slice env o pair w f)) ∧
        (xs.flatMap (slice env o pair w f)).length = (c.stop - c.start).toNat := by
      intro w f hk
      obtain ⟨⟨post, k1, k3⟩, k2⟩ := (g3 w f).2 hk
      have : post = [] := List.length_eq_zero_iff.mp (by rw [k3]; omega)
      subst this
      rw [List.nil_append] at k1 k2
      exact ⟨by simpa using k1, k2⟩
    refine ⟨fun j f hj => ?_, fun j f hj => ?_, fun hp hl => ?_, fun hp hl hf => ?_, fun hp => ?_⟩
    · rw [(g3 (some j) f).1 (fun hk => hj ((mem_pairKeys_some o pair j f).mp hk).1), a3 j f hj]
    · by_cases hsv : saved o f = true
      · rw [if_pos hsv]
        exact (hend _ _ ((mem_pairKeys_some o pair j f).mpr ⟨hj, hsv⟩)).1
      · rw [if_neg hsv, (g3 (some j) f).1 (fun hk => hsv ((mem_pairKeys_some o pair j f).mp hk).2),
          a4 j f hj, if_neg hsv]
    · exact (hend _ _ ((mem_pairKeys_none o pair _).mpr ⟨rfl, hp, hl⟩)).1
    · rw [(g3 none _).1 (fun hk => ((mem_pairKeys_none o pair _).mp hk).2.2 hl), a2,
        if_neg (fun hc => by simp [hf] at hc)]
    · by_cases hl : liveIdx pair = []
      · have e := (g3 none .hwpAng).1 (fun hk => ((mem_pairKeys_none o pair _).mp hk).2.2 hl)
        unfold HwpAlloc
        rw [e, a2]
        by_cases hf : first = true
        · rw [if_pos ⟨hf, hp, rfl⟩]
          exact ⟨_, rfl, by simp⟩
        · rw [if_neg (fun hc => hf hc.1)]
          exact hal (by simpa using hf) hp
      · have := hend none .hwpAng ((mem_pairKeys_none o pair _).mpr ⟨rfl, hp, hl⟩)
        exact ⟨_, this.1, this.2⟩

/-! ### passes -/

/-- Chunk numbers are positions. -/
def Numbered (chunks : List Chunk) : Prop :=
  ∀ i (hi : i < chunks.length), chunks[i].cidx = some (i : Int)

theorem pyGet_pos (chunks : List Chunk) (i : Nat) (hi : i < chunks.length) :
    pyGet chunks (i : Int) = .ok chunks[i] := by
  unfold pyGet
  rw [if_neg (show ¬ (i : Int) < 0 by omega)]
  simp [hi]

theorem pass_fold [CommRing K] [DecidableEq K] (env : Env A H K) (hs : Sized env)
    (chunks : List Chunk) (hn : Numbered chunks) (o : Opts K) (first : Bool)
    (pair : Option Det × Option Det) (N : Int) (cs : List Chunk) :
    ∀ (k : Nat) (a : Int) (r : Rot A) (h : H) (st : Store K) (xss : List (List (Obs A H)))
      (r2 : Rot A) (h2 : H),
      chunks.drop k = cs → Tiles a N (cs.map Chunk.ivl) → RotOk r a →
      (first = false → o.savePoint = true → ∀ i (hi : i < chunks.length),
        HwpAlloc st i chunks[i]) →
      history env r h cs = .ok (xss, r2, h2) →
      ∃ st', cs.foldlM (fun x c => stepChunk env chunks o first pair c x) (r, h, st)
          = .ok (r2, h2, st') ∧ r2.reset = r.reset ∧ xss.length = cs.length ∧
        (∀ c' w f, (c' < k ∨ (chunks.length : Int) ≤ c') → st' c' w f = st c' w f) ∧
        ∀ i (hi : i < cs.length) (hx : i < xss.length),
          ChunkDone env o first pair ((k + i : Nat) : Int) cs[i] xss[i] st st' := by
  induction cs with
  | nil =>
    intro k a r h st xss r2 h2 hd ht hr hal hh
    simp only [history, Except.ok.injEq, Prod.mk.injEq] at hh
    obtain ⟨rfl, rfl, rfl⟩ := hh
    exact ⟨st, rfl, rfl, rfl, fun _ _ _ _ => rfl, fun i hi => absurd hi (by simp)⟩
  | cons c cs ih =>
    intro k a r h st xss r2 h2 hd ht hr hal hh
    simp only [List.map_cons] at ht
    generalize hiv : Chunk.ivl c = iv at ht
    cases ht with
    | cons hlt ht =>
    simp only [Chunk.ivl, Prod.mk.injEq] at hiv
    obtain ⟨rfl, rfl⟩ := hiv
    have hk : k < chunks.length := by
      by_contra hc
      rw [List.drop_eq_nil_of_le (by omega)] at hd
      cases hd
    have hck : chunks[k] = c ∧ chunks.drop (k + 1) = cs := by
      have := List.drop_eq_getElem_cons hk
      rw [hd] at this
      injection this with e1 e2
      exact ⟨e1.symm, e2.symm⟩
    simp only [history, bind, Except.bind, pure, Except.pure] at hh
    rcases hsub : subpartChunk r c with e | ⟨subs, r1⟩
    · rw [hsub] at hh
      cases hh
    rw [hsub] at hh
    simp only at hh
    rcases hxs : subHistory env r1 h subs with e | ⟨xs, r3, h3⟩
    · rw [hxs] at hh
      cases hh
    rw [hxs] at hh
    simp only at hh
    rcases hrest : history env r3 h3 cs with e | ⟨yss, r4, h4⟩
    · rw [hrest] at hh
      cases hh
    rw [hrest] at hh
    simp only [Except.ok.injEq, Prod.mk.injEq] at hh
    obtain ⟨rfl, rfl, rfl⟩ := hh
    obtain ⟨st1, a1, a2, a3, a4, a5⟩ := stepChunk_spec env hs chunks o first pair c k
      (hck.1 ▸ hn k hk) (hck.1 ▸ pyGet_pos chunks k hk) hlt r hr h st
      (fun hf hp => hck.1 ▸ hal hf hp k hk) subs r1 hsub xs r3 h3 hxs
    obtain ⟨st', b1, b2, b3, b4, b5⟩ := ih (k + 1) c.stop r3 h3 st1 yss r4 h4 hck.2 ht a2
      (by
        intro hf hp i hi
        by_cases hik : i = k
        · subst hik
          rw [hck.1]
          exact a5.2.2.2.2 hp
        · obtain ⟨b, hb⟩ := hal hf hp i hi
          exact ⟨b, by rw [a4 _ _ _ (by omega)]; exact hb.1, hb.2⟩) hrest
    refine ⟨st', ?_, b2.trans a3, by simp [b3], ?_, ?_⟩
    · rw [List.foldlM_cons, a1]
      exact b1
    · intro c' w f hc'
      rw [b4 c' w f (by push_cast; omega), a4 c' w f (by omega)]
    · intro i hi hx
      rcases i with _ | i
      · have e : ∀ w f, st' (k : Int) w f = st1 (k : Int) w f := fun w f => b4 _ w f
          (Or.inl (by push_cast; omega))
        obtain ⟨d1, d2, d3, d4, d5⟩ := a5
        refine ⟨?_, ?_, ?_, ?_, ?_⟩
        · intro j f hj
          simpa using (e _ _).trans (d1 j f hj)
        · intro j f hj
          simpa using (e _ _).trans (d2 j f hj)
        · intro hp hl
          simpa using (e _ _).trans (d3 hp hl)
        · intro hp hl hf
          simpa using (e _ _).trans (d4 hp hl hf)
        · intro hp
          obtain ⟨b, hb⟩ := d5 hp
          exact ⟨b, by simpa using (e _ _).trans hb.1, hb.2⟩
      · have hi' : i < cs.length := by simpa using hi
        have hx' : i < yss.length := by simpa using hx
        have e : ∀ w f, st1 ((k + (i + 1) : Nat) : Int) w f = st ((k + (i + 1) : Nat) : Int) w f :=
          fun w f => a4 _ w f (by push_cast; omega)
        have := b5 i hi' hx'
        rw [show k + 1 + i = k + (i + 1) by omega] at this
        obtain ⟨d1, d2, d3, d4, d5⟩ := this
        refine ⟨?_, ?_, ?_, ?_, ?_⟩
        · intro j f hj
          exact (d1 j f hj).trans (e _ _)
        · intro j f hj
          simpa using d2 j f hj
        · intro hp hl
          simpa using d3 hp hl
        · intro hp hl hf
          exact (d4 hp hl hf).trans (e _ _)
        · intro hp
          simpa using d5 hp

/-- State of the store after the passes over `done`. -/
theorem passes_spec [CommRing K] [DecidableEq K] (env : Env A H K) (hs : Sized env)
    (resetHwp : H → H) (chunks : List Chunk) (hn : Numbered chunks) (o : Opts K) (N : Int)
    (ht : Tiles 0 N (chunks.map Chunk.ivl)) (r0 : Rot A) (hr0 : RotOk r0 0) (hreset : r0.reset = r0)
    (h0 : H) (hh0 : resetHwp h0 = h0) (xss : List (List (Obs A H))) (r1 : Rot A) (h1 : H)
    (hh1 : resetHwp h1 = h0) (hist : history env r0 h0 chunks = .ok (xss, r1, h1))
    (pairs : List (Option Det × Option Det)) :
    ∀ (first : Bool) (r : Rot A) (h : H) (st : Store K),
      (if first then (r, h) else (r.reset, resetHwp h)) = (r0, h0) →
      (first = false → o.savePoint = true → ∀ i (hi : i < chunks.length),
        HwpAlloc st i chunks[i]) →
      (pairs.flatMap liveIdx).Nodup →
      ∃ st' r' h', scanPasses env resetHwp chunks o first pairs (r, h, st) = .ok (r', h', st') ∧
        xss.length = chunks.length ∧ r'.reset = r0 ∧ resetHwp h' = h0 ∧
        ∀ i (_ : i < chunks.length) (hx : i < xss.length),
          (∀ j f, j ∉ pairs.flatMap liveIdx → st' i (some j) f = st i (some j) f) ∧
          (∀ pair ∈ pairs, ∀ j ∈ liveIdx pair, ∀ f, st' i (some j) f =
            if saved o f then some (xss[i].flatMap (slice env o pair (some j) f)) else none) ∧
          (o.savePoint = true → ∀ (v : List K), (∀ pair ∈ pairs, liveIdx pair ≠ [] →
              xss[i].flatMap (slice env o pair none .hwpAng) = v) →
            pairs.flatMap liveIdx ≠ [] ∨ (first = false ∧ st i none .hwpAng = some v) →
            st' i none .hwpAng = some v) := by
  have hlen : xss.length = chunks.length := by
    obtain ⟨-, -, -, h4, -⟩ := pass_fold env hs chunks hn o true (none, none) N chunks 0 0 r0 h0
      (fun _ _ _ => none) xss r1 h1 rfl ht hr0 (fun hc => by cases hc) hist
    exact h4
  induction pairs with
  | nil =>
    intro first r h st hst _ _
    refine ⟨st, r, h, rfl, hlen, ?_, ?_, fun i hi hx => ⟨fun _ _ _ => rfl, by simp, ?_⟩⟩
    · cases first
      · simp only [Bool.false_eq_true, if_false, Prod.mk.injEq] at hst
        exact hst.1
      · simp only [if_true, Prod.mk.injEq] at hst
        rw [hst.1, hreset]
    · cases first
      · simp only [Bool.false_eq_true, if_false, Prod.mk.injEq] at hst
        exact hst.2
      · simp only [if_true, Prod.mk.injEq] at hst
        rw [hst.2, hh0]
    rintro _ v _ (hc | ⟨_, hc⟩)
    · simp at hc
    · exact hc
  | cons p ps ih =>
    intro first r h st hst hal hnd
    rw [List.flatMap_cons, List.nodup_append] at hnd
    obtain ⟨hnd1, hnd2, hdisj⟩ := hnd
    obtain ⟨st1, a1, a2, -, -, a5⟩ := pass_fold env hs chunks hn o first p N chunks 0 0 r0 h0 st
      xss r1 h1 rfl ht hr0 hal hist
    obtain ⟨st', r', h', b1, -, b4, b5, b3⟩ := ih false r1 h1 st1 (by simp [a2, hreset, hh1])
      (fun _ hp i hi => by
        have := (a5 i hi (by omega)).2.2.2.2 hp
        simpa using this) hnd2
    refine ⟨st', r', h', ?_, hlen, b4, b5, ?_⟩
    · unfold scanPasses
      have e : (if first = true then (r, h, st) else (r.reset, resetHwp h, st)) = (r0, h0, st) := by
        cases first
        · simp only [Bool.false_eq_true, if_false, Prod.mk.injEq] at hst ⊢
          exact ⟨hst.1, hst.2, trivial⟩
        · simp only [if_true, Prod.mk.injEq] at hst ⊢
          exact ⟨hst.1, hst.2, trivial⟩
      simp only [e, bind, Except.bind, scanPass, a1]
      exact b1
    · intro i hi hx
      have hd := a5 i hi hx
      rw [Nat.zero_add] at hd
      obtain ⟨d1, d2, d3, d4, d5⟩ := hd
      obtain ⟨c1, c2, c3⟩ := b3 i hi hx
      refine ⟨?_, ?_, ?_⟩
      · intro j f hj
        rw [List.flatMap_cons, List.mem_append, not_or] at hj
        rw [c1 j f hj.2, d1 j f hj.1]
      · intro pair hpair j hj f
        rcases List.mem_cons.mp hpair with rfl | hpair
        · rw [c1 j f (fun hc => hdisj j hj j hc rfl), d2 j f hj]
        · exact c2 pair hpair j hj f
      · intro hp v hv hor
        apply c3 hp v (fun pair hpair => hv pair (List.mem_cons_of_mem _ hpair))
        by_cases hps : ps.flatMap liveIdx = []
        · right
          refine ⟨rfl, ?_⟩
          by_cases hl : liveIdx p = []
          · rcases hor with hc | ⟨hf, hc⟩
            · rw [List.flatMap_cons, hl, hps] at hc
              exact absurd rfl hc
            · rw [d4 hp hl hf]
              exact hc
          · rw [d3 hp hl, hv p List.mem_cons_self hl]
        · exact Or.inl hps

/-! ### the slices -/

theorem expand_self (v : List K) (n : Nat) (h : v.length = n) : expand n v = v := by
  unfold expand
  rw [if_pos h]

theorem slice_hwp [CommRing K] [DecidableEq K] (env : Env A H K) (o : Opts K)
    (hp : o.savePoint = true) (pair : Option Det × Option Det) (hl : liveIdx pair ≠ [])
    (x : Obs A H) :
    slice env o pair none .hwpAng x = expand x.size (env.hwp x.2.2 x.1) := by
  unfold slice
  rcases h : lastWrite (subWrites env o pair x.1 x.2.1 x.2.2) none .hwpAng with _ | v
  · exact absurd ((mem_pairKeys_none o pair _).mpr ⟨rfl, hp, hl⟩)
      ((lastWrite_key env o pair x.1 x.2.1 x.2.2 none .hwpAng).mp h)
  · have hm := lastWrite_mem _ _ _ _ h
    have : v = env.hwp x.2.2 x.1 := by
      have ho : ∀ d, (none, Field'.hwpAng, v) ∈ optWrites o env d x.1 x.2.1 x.2.2 →
          v = env.hwp x.2.2 x.1 := by
        intro d hd
        unfold optWrites at hd
        rcases hld : live d with _ | d
        · simp [hld] at hd
        · simp only [hld, detWrites, List.mem_append, List.mem_ite_nil_right, List.mem_cons,
            Prod.mk.injEq, List.not_mem_nil, or_false] at hd
          simp only [reduceCtorEq, false_and, and_false, true_and, false_or] at hd
          exact hd.2
      unfold subWrites at hm
      rcases List.mem_append.mp hm with hm | hm
      · rcases List.mem_append.mp hm with hm | hm
        · exact ho _ hm
        · exact ho _ hm
      · unfold crossWrites at hm
        rcases ha : live pair.1 with _ | a <;> rcases hb : live pair.2 with _ | b <;>
          simp [ha, hb] at hm
    subst this
    rfl

theorem lastWrite_opt (env : Env A H K) (o : Opts K) (d : Option Det) (s : Chunk) (ang : A)
    (h : H) (j : Int) (f : Field') :
    lastWrite (optWrites o env d s ang h) (some j) f = match live d with
      | some d => if d.idx = j ∧ saved o f = true then some (match f with
          | .tod => (env.ret ang h d s).tod
          | .pix => (env.ret ang h d s).pix
          | .pa => (env.ret ang h d s).pa
          | .hwpAng => env.hwp h s) else none
      | none => none := by
  unfold optWrites
  rcases live d with _ | d
  · rfl
  · simp only [detWrites]
    cases f <;> cases hs : o.saveTod <;> cases hp : o.savePoint <;>
      simp [lastWrite, saved, hs, hp] <;> by_cases hj : d.idx = j <;> simp [hj]

theorem zipWith_zero [CommRing K] (u v : List K) (h : u.length = v.length) :
    List.zipWith (fun x y => x + 0 * y) u v = u := by
  induction u generalizing v with
  | nil => rfl
  | cons x u ih =>
    rcases v with _ | ⟨y, v⟩
    · simp at h
    · simp only [List.zipWith_cons_cons, zero_mul, add_zero]
      rw [show List.zipWith (fun x _ => x) u v = List.zipWith (fun x y => x + 0 * y) u v by simp,
        ih v (by simpa using h)]

/-- What is stored for the detectors of a pair. -/
theorem slice_det [CommRing K] [DecidableEq K] (env : Env A H K) (hs : Sized env) (o : Opts K)
    (pair : Option Det × Option Det) (hnd : (liveIdx pair).Nodup) (x : Obs A H) (d : Det)
    (partner : Option Det)
    (hd : (live pair.1 = some d ∧ partner = pair.2) ∨ (live pair.2 = some d ∧ partner = pair.1)) :
    (o.saveTod = true → slice env o pair (some d.idx) .tod x = signal env o.ctalk d partner x) ∧
    (o.savePoint = true →
      slice env o pair (some d.idx) .pix x = (env.ret x.2.1 x.2.2 d x.1).pix ∧
      slice env o pair (some d.idx) .pa x = (env.ret x.2.1 x.2.2 d x.1).pa) := by
  have hsz := fun d => hs.1 x.2.1 x.2.2 d x.1
  have hcross : ∀ j f, f ≠ .tod → lastWrite (crossWrites env o pair x.1 x.2.1 x.2.2) (some j) f
      = none := by
    intro j f hf
    rw [lastWrite_none_iff]
    intro e he hk
    unfold crossWrites at he
    rcases ha : live pair.1 with _ | a <;> rcases hb : live pair.2 with _ | b <;>
      simp [ha, hb] at he
    rcases he.2 with rfl | rfl <;> exact hf hk.2.symm
  unfold liveIdx at hnd
  unfold slice signal subWrites
  rw [lastWrite_append, lastWrite_append, lastWrite_append, lastWrite_append, lastWrite_append,
    lastWrite_append]
  simp only [lastWrite_opt, hcross _ .pix (by simp), hcross _ .pa (by simp)]
  unfold crossWrites
  rcases hd with ⟨h1, rfl⟩ | ⟨h1, rfl⟩
  · rcases h2 : live pair.2 with _ | b
    · constructor
      · intro h
        simp [h1, h2, h, saved, lastWrite]
        exact expand_self _ _ (hsz d).1
      · intro h
        simp [h1, h2, h, saved]
        exact ⟨expand_self _ _ (hsz d).2.1, expand_self _ _ (hsz d).2.2⟩
    · have hne : d.idx ≠ b.idx := by
        rw [h1, h2] at hnd
        simpa using hnd
      constructor
      · intro h
        by_cases hc : o.ctalk = 0
        · simp [h1, h2, h, hc, saved, lastWrite, hne.symm]
          refine (expand_self _ _ (hsz d).1).trans ?_
          have := zipWith_zero (env.ret x.2.1 x.2.2 d x.1).tod (env.ret x.2.1 x.2.2 b x.1).tod
            ((hsz d).1.trans (hsz b).1.symm)
          simpa using this.symm
        · simp [h1, h2, h, hc, saved, lastWrite, hne.symm]
          apply expand_self
          rw [List.length_zipWith, (hsz d).1, (hsz b).1]
          simp [Obs.size]
      · intro h
        simp [h1, h2, h, saved, hne.symm]
        exact ⟨expand_self _ _ (hsz d).2.1, expand_self _ _ (hsz d).2.2⟩
  · rcases h2 : live pair.1 with _ | b
    · constructor
      · intro h
        simp [h1, h2, h, saved, lastWrite]
        exact expand_self _ _ (hsz d).1
      · intro h
        simp [h1, h2, h, saved]
        exact ⟨expand_self _ _ (hsz d).2.1, expand_self _ _ (hsz d).2.2⟩
    · have hne : b.idx ≠ d.idx := by
        rw [h1, h2] at hnd
        simpa using hnd
      constructor
      · intro h
        by_cases hc : o.ctalk = 0
        · simp [h1, h2, h, hc, saved, lastWrite, hne.symm]
          refine (expand_self _ _ (hsz d).1).trans ?_
          have := zipWith_zero (env.ret x.2.1 x.2.2 d x.1).tod (env.ret x.2.1 x.2.2 b x.1).tod
            ((hsz d).1.trans (hsz b).1.symm)
          simpa using this.symm
        · simp [h1, h2, h, hc, saved, lastWrite, hne.symm]
          apply expand_self
          rw [List.length_zipWith, (hsz d).1, (hsz b).1]
          simp [Obs.size]
      · intro h
        simp [h1, h2, h, saved, hne.symm]
        exact ⟨expand_self _ _ (hsz d).2.1, expand_self _ _ (hsz d).2.2⟩

theorem subHistory_inv (env : Env A H K) (P : H → Prop)
    (hP : ∀ h s h', env.rotateHwp h s = .ok h' → P h → P h') (subs : List Chunk) :
    ∀ (r : Rot A) (h : H) (xs : List (Obs A H)) (r' : Rot A) (h' : H),
      subHistory env r h subs = .ok (xs, r', h') → P h →
      P h' ∧ xs.map (fun x => x.1) = subs := by
  induction subs with
  | nil =>
    intro r h xs r' h' hh hp
    simp only [subHistory, Except.ok.injEq, Prod.mk.injEq] at hh
    obtain ⟨rfl, -, rfl⟩ := hh
    exact ⟨hp, rfl⟩
  | cons s subs ih =>
    intro r h xs r' h' hh hp
    simp only [subHistory, bind, Except.bind, pure, Except.pure] at hh
    rcases hrot : rotStep r s with e | r1
    · rw [hrot] at hh
      cases hh
    rw [hrot] at hh
    simp only at hh
    rcases hhwp : env.rotateHwp h s with e | h1
    · rw [hhwp] at hh
      cases hh
    rw [hhwp] at hh
    simp only at hh
    rcases hrest : subHistory env r1 h1 subs with e | ⟨zs, r2, h2⟩
    · rw [hrest] at hh
      cases hh
    rw [hrest] at hh
    simp only [Except.ok.injEq, Prod.mk.injEq] at hh
    obtain ⟨rfl, rfl, rfl⟩ := hh
    obtain ⟨k1, k2⟩ := ih r1 h1 zs r2 h2 hrest (hP _ _ _ hhwp hp)
    exact ⟨k1, by simp [k2]⟩

theorem history_inv (env : Env A H K) (P : H → Prop)
    (hP : ∀ h s h', env.rotateHwp h s = .ok h' → P h → P h') (N : Int) (cs : List Chunk) :
    ∀ (a : Int) (r : Rot A) (h : H) (xss : List (List (Obs A H))) (r' : Rot A) (h' : H),
      Tiles a N (cs.map Chunk.ivl) → RotOk r a →
      history env r h cs = .ok (xss, r', h') → P h →
      P h' ∧ List.Forall₂ (fun (c : Chunk) xs => Tiles c.start c.stop
        (xs.map fun x => (x.1.start, x.1.stop))) cs xss := by
  induction cs with
  | nil =>
    intro a r h xs r' h' _ _ hh hp
    simp only [history, Except.ok.injEq, Prod.mk.injEq] at hh
    obtain ⟨rfl, -, rfl⟩ := hh
    exact ⟨hp, .nil⟩
  | cons c cs ih =>
    intro a r h xs r' h' ht hr hh hp
    simp only [List.map_cons] at ht
    generalize hiv : Chunk.ivl c = iv at ht
    cases ht with
    | cons hlt ht =>
    simp only [Chunk.ivl, Prod.mk.injEq] at hiv
    obtain ⟨rfl, rfl⟩ := hiv
    simp only [history, bind, Except.bind, pure, Except.pure] at hh
    obtain ⟨subs, r1, e1, e2, e3, e4⟩ := subpart_tiles r c hr hlt
    rw [e1] at hh
    simp only at hh
    rcases hxs : subHistory env r1 h subs with e | ⟨xs, r3, h3⟩
    · rw [hxs] at hh
      cases hh
    rw [hxs] at hh
    simp only at hh
    rcases hrest : history env r3 h3 cs with e | ⟨yss, r4, h4⟩
    · rw [hrest] at hh
      cases hh
    rw [hrest] at hh
    simp only [Except.ok.injEq, Prod.mk.injEq] at hh
    obtain ⟨rfl, rfl, rfl⟩ := hh
    obtain ⟨k1, k2⟩ := subHistory_inv env P hP subs r1 h xs r3 h3 hxs hp
    obtain ⟨m1, m2⟩ := ih c.stop r3 h3 yss r4 h4 ht
      (rotOk_congr (subHistory_rot env subs r1 h xs r3 h3 hxs) e2) hrest k1
    refine ⟨m1, .cons ?_ m2⟩
    rw [← k2, List.map_map] at e4
    exact e4

/-- Two live detectors of a pair with the same index: the second one's data is kept. -/
theorem slice_same [CommRing K] [DecidableEq K] (env : Env A H K) (hs : Sized env) (o : Opts K)
    (pair : Option Det × Option Det) (a b : Det) (ha : live pair.1 = some a)
    (hb : live pair.2 = some b) (ho : o.saveTod = true) (x : Obs A H) :
    slice env o pair (some b.idx) .tod x = signal env o.ctalk b pair.1 x := by
  have hsz := fun d => hs.1 x.2.1 x.2.2 d x.1
  unfold slice signal subWrites
  rw [lastWrite_append, lastWrite_append]
  simp only [lastWrite_opt]
  unfold crossWrites
  by_cases hc : o.ctalk = 0
  · simp [ha, hb, ho, hc, saved, lastWrite]
    refine (expand_self _ _ (hsz b).1).trans ?_
    have := zipWith_zero (env.ret x.2.1 x.2.2 b x.1).tod (env.ret x.2.1 x.2.2 a x.1).tod
      ((hsz b).1.trans (hsz a).1.symm)
    simpa using this.symm
  · simp [ha, hb, ho, hc, saved, lastWrite]
    apply expand_self
    rw [List.length_zipWith, (hsz a).1, (hsz b).1]
    simp [Obs.size]

/-- The instrument rotation does not fail: the generator points into its list. -/
def GenOk (r : Rot A) : Prop := r.period = true → r.gen.n < r.gen.angles.length

theorem rotStep_ok (r : Rot A) (s : Chunk) (h : GenOk r) : ∃ r1, rotStep r s = .ok r1 ∧ GenOk r1 := by
  unfold rotStep
  split
  · exact ⟨r, rfl, h⟩
  · unfold Rot.rotate
    split
    · rename_i hp
      have hlt := h hp
      unfold Gen.next
      rw [List.getElem?_eq_getElem hlt]
      refine ⟨_, rfl, fun _ => ?_⟩
      exact Nat.mod_lt _ (by omega)
    · exact ⟨r, rfl, h⟩

theorem subHistory_ok (env : Env A H K) (hw : ∀ h s, ∃ h', env.rotateHwp h s = .ok h')
    (subs : List Chunk) : ∀ (r : Rot A) (h : H), GenOk r →
      ∃ xs r' h', subHistory env r h subs = .ok (xs, r', h') ∧ GenOk r' := by
  induction subs with
  | nil => exact fun r h hg => ⟨[], r, h, rfl, hg⟩
  | cons s subs ih =>
    intro r h hg
    obtain ⟨r1, e1, g1⟩ := rotStep_ok r s hg
    obtain ⟨h1, e2⟩ := hw h s
    obtain ⟨xs, r', h', e3, g3⟩ := ih r1 h1 g1
    refine ⟨(s, r1.angle, h1) :: xs, r', h', ?_, g3⟩
    simp only [subHistory, bind, Except.bind, pure, Except.pure, e1, e2, e3]

theorem history_ok (env : Env A H K) (hw : ∀ h s, ∃ h', env.rotateHwp h s = .ok h') (N : Int)
    (cs : List Chunk) : ∀ (a : Int) (r : Rot A) (h : H), Tiles a N (cs.map Chunk.ivl) →
      RotOk r a → GenOk r → ∃ xss r' h', history env r h cs = .ok (xss, r', h') := by
  induction cs with
  | nil => exact fun a r h _ _ _ => ⟨[], r, h, rfl⟩
  | cons c cs ih =>
    intro a r h ht hr hg
    simp only [List.map_cons] at ht
    generalize hiv : Chunk.ivl c = iv at ht
    cases ht with
    | cons hlt ht =>
    simp only [Chunk.ivl, Prod.mk.injEq] at hiv
    obtain ⟨rfl, rfl⟩ := hiv
    obtain ⟨subs, r1, e1, e2, -, -⟩ := subpart_tiles r c hr hlt
    have g1 : GenOk r1 := by
      unfold subpartChunk at e1
      split at e1
      · simp only [bind, Except.bind, pure, Except.pure] at e1
        split at e1
        · cases e1
        · simp only [Except.ok.injEq, Prod.mk.injEq] at e1
          rw [← e1.2]
          exact hg
      · simp only [Except.ok.injEq, Prod.mk.injEq] at e1
        rw [← e1.2]
        exact hg
    obtain ⟨xs, r2, h2, e3, g2⟩ := subHistory_ok env hw subs r1 h g1
    obtain ⟨xss, r3, h3, e4⟩ := ih c.stop r2 h2 ht
      (rotOk_congr (subHistory_rot env subs r1 h xs r2 h2 e3) e2) g2
    refine ⟨xs :: xss, r3, h3, ?_⟩
    simp only [history, bind, Except.bind, pure, Except.pure, e1, e3, e4]

/-- Looking up a sample in a concatenation over tiles. -/
theorem getElem_flatMap_tiles {β : Type} (g : Obs A H → List β)
    (hg : ∀ x : Obs A H, (g x).length = x.size) (xs : List (Obs A H)) :
    ∀ (a b : Int), Tiles a b (xs.map fun x => (x.1.start, x.1.stop)) →
      ∀ t, a ≤ t → t < b → ∃ x ∈ xs, x.1.start ≤ t ∧ t < x.1.stop ∧
        (xs.flatMap g)[(t - a).toNat]? = (g x)[(t - x.1.start).toNat]? := by
  induction xs with
  | nil =>
    intro a b h t h1 h2
    cases h
    omega
  | cons x xs ih =>
    intro a b h t h1 h2
    simp only [List.map_cons] at h
    generalize hiv : (x.1.start, x.1.stop) = iv at h
    cases h with
    | cons hlt h =>
    simp only [Prod.mk.injEq] at hiv
    obtain ⟨rfl, rfl⟩ := hiv
    have hl := hg x
    unfold Obs.size at hl
    rw [List.flatMap_cons]
    by_cases ht : t < x.1.stop
    · refine ⟨x, List.mem_cons_self, h1, ht, ?_⟩
      rw [List.getElem?_append_left (by omega)]
    · obtain ⟨y, hy, y1, y2, y3⟩ := ih x.1.stop b h t (by omega) h2
      refine ⟨y, List.mem_cons_of_mem _ hy, y1, y2, ?_⟩
      rw [List.getElem?_append_right (by omega), ← y3]
      congr 1
      omega

end Verif.Data
