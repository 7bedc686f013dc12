import Verif.Props.Later

/-!
# C138: `RFStream.rf` and the absolute time of the records
-/

set_option linter.unusedSimpArgs false
set_option linter.unusedSectionVars false

namespace Verif.Props
open Verif.Py Verif.Model Verif.Spec

section stages
variable {K : Type} [Field K] [LinearOrder K] [IsStrictOrderedRing K] [FloorRing K]

/-- The text of the onsets is sorted in the same way `d` seconds later. -/
def SameOrder (timeStr : K → Str) (d : K) (h : Heap K) (s : List Nat) : Prop :=
  ∀ q ∈ s, ∀ r ∈ s, ∀ x y, (h q).getTime "onset" = some x → (h r).getTime "onset" = some y →
    (timeStr (x + d) ≤ timeStr (y + d) ↔ timeStr x ≤ timeStr y)

/-- Filter, cut, downsampling and rotation know times only relative to those of the data. -/
structure LaterEnv (d : K) (env : RfEnv K) : Prop where
  filter : ∀ t, env.filter (later d t) = (env.filter t).map (later d)
  trim : ∀ t a b, env.trim (later d t) (laterArg d a) (laterArg d b) = (env.trim t a b).map (later d)
  decimate : ∀ n t, env.decimate n (later d t) = (env.decimate n t).map (later d)
  rotate : ∀ m h g, env.rotate m (laterH d h) g = (laterH d (env.rotate m h g).1, (env.rotate m h g).2)
  dec : LaterDec d env.dec

theorem onsetKey_later (timeStr : K → Str) (d : K) (h : Heap K) (r : Nat) :
    errOf (onsetKey timeStr (laterH d h) r) = errOf (onsetKey timeStr h r) := by
  unfold onsetKey
  rw [show (laterH d h r).ext.get "onset" = ((h r).ext.get "onset").map (laterVal d) from later_get d _ _]
  cases (h r).ext.get "onset" with
  | none => rfl
  | some v => cases v <;> rfl

theorem iter3c_later (timeStr : K → Str) (d : K) (h : Heap K) (s : List Nat) (ho : SameOrder timeStr d h s) :
    iter3c timeStr (laterH d h) s = iter3c timeStr h s := by
  unfold iter3c iterMultipleComponents
  simp only [onsetKey_later]
  cases hf : s.findSome? (fun tr => errOf (onsetKey timeStr h tr)) with
  | some e => rfl
  | none =>
    simp only
    congr 1
    refine iterSubstreams_same _ _ _ _ fun q hq r hr => ?_
    have hok : ∀ x ∈ s, ∃ o, (h x).getTime "onset" = some o ∧ onsetKey timeStr h x = .ok (timeStr o) ∧
        onsetKey timeStr (laterH d h) x = .ok (timeStr (o + d)) := by
      intro x hx
      have he := List.findSome?_eq_none_iff.1 hf x hx
      cases hk : onsetKey timeStr h x with
      | error e => rw [hk] at he; simp [errOf] at he
      | ok z =>
        obtain ⟨o, h1, h2⟩ := (onsetKey_ok timeStr h x z).1 hk
        refine ⟨o, h1, by rw [h2], (onsetKey_ok timeStr (laterH d h) x _).2 ⟨o + d, ?_, rfl⟩⟩
        rw [show (laterH d h x).getTime "onset" = ((h x).getTime "onset").map (· + d) from later_getTime d _ _, h1]
        rfl
    obtain ⟨x, x1, x2, x3⟩ := hok q hq
    obtain ⟨y, y1, y2, y3⟩ := hok r hr
    rw [x2, x3, y2, y3]
    simp only [okD, groupKey, Prod.Lex.toLex_le_toLex, WithBot.coe_le_coe]
    rw [ho q hq r hr x y x1 y1]
    rfl

theorem sameOrder_mono (timeStr : K → Str) (d : K) (h h1 : Heap K) (s s1 : List Nat)
    (hs : ∀ r ∈ s1, r ∈ s) (hk : ∀ r, recordOf (h1 r) = recordOf (h r))
    (ho : SameOrder timeStr d h s) : SameOrder timeStr d h1 s1 := by
  intro q hq r hr x y hx hy
  have e1 := hk q
  have e2 := hk r
  simp only [recordOf, Prod.mk.injEq] at e1 e2
  rw [getTime_congr e1.2.1] at hx
  rw [getTime_congr e2.2.1] at hy
  exact ho q (hs q hq) r (hs r hr) x y hx hy

/-- The result of a stage `d` seconds later. -/
def laterS (d : K) (x : SRes K) : SRes K := ((laterH d x.1.1, x.1.2), x.2)

/-- A stage of `rf` before the deconvolution commutes with the shift of all times. -/
def StepLater (timeStr : K → Str) (d : K) (F F' : SState K → SRes K) : Prop :=
  ∀ h s, SameOrder timeStr d h s → F' (laterH d h, s) = laterS d (F (h, s)) ∧
    ∀ st1, F (h, s) = (st1, none) → (∀ r ∈ st1.2, r ∈ s) ∧ ∀ r, recordOf (st1.1 r) = recordOf (h r)

theorem laterS_andThen (d : K) (x : SRes K) (G G' : SState K → SRes K)
    (hG : ∀ st, x = (st, none) → G' (laterH d st.1, st.2) = laterS d (G st)) :
    (laterS d x).andThen G' = laterS d (x.andThen G) := by
  obtain ⟨st, oe⟩ := x
  cases oe with
  | some e => rfl
  | none => exact hG st rfl

theorem stepLater_andThen (timeStr : K → Str) (d : K) (F F' G G' : SState K → SRes K)
    (hF : StepLater timeStr d F F') (hG : StepLater timeStr d G G') :
    StepLater timeStr d (fun st => (F st).andThen G) (fun st => (F' st).andThen G') := by
  intro h s ho
  obtain ⟨f1, f2⟩ := hF h s ho
  refine ⟨?_, fun st2 hx => ?_⟩
  · simp only [f1]
    refine laterS_andThen d _ G G' fun st hst => ?_
    obtain ⟨a1, a2⟩ := f2 st hst
    exact (hG st.1 st.2 (sameOrder_mono timeStr d h st.1 s st.2 a1 a2 ho)).1
  · simp only at hx
    cases hFs : F (h, s) with
    | mk st1 oe =>
      rw [hFs] at hx
      cases oe with
      | some e => simp [SRes.andThen] at hx
      | none =>
        obtain ⟨a1, a2⟩ := f2 st1 hFs
        obtain ⟨b1, b2⟩ := (hG st1.1 st1.2 (sameOrder_mono timeStr d h st1.1 s st1.2 a1 a2 ho)).2 st2 hx
        exact ⟨fun r hr => a1 r (b1 r hr), fun r => (b2 r).trans (a2 r)⟩

theorem stepLater_id (timeStr : K → Str) (d : K) :
    StepLater (K := K) timeStr d (fun st => (st, none)) (fun st => (st, none)) := by
  intro h s _
  refine ⟨rfl, fun st1 hx => ?_⟩
  simp only [Prod.mk.injEq, and_true] at hx
  subst hx
  exact ⟨fun r hr => hr, fun r => rfl⟩

theorem stepLater_traces (timeStr : K → Str) (d : K) (f : Trace K → Res (Trace K))
    (hf : ∀ t, f (later d t) = (f t).map (later d))
    (hr : ∀ t t', f t = .ok t' → recordOf t' = recordOf t) : StepLater timeStr d (forTraces f) (forTraces f) := by
  intro h s _
  constructor
  · unfold forTraces laterS
    simp only
    rw [laterH_eq, forEachE_mapH _ f h s (fun r _ => hf)]
  · intro st1 hx
    obtain ⟨-, h2, h3⟩ := stepSim_traces timeStr (fun _ => true) f hr (h, s) (h, s) st1
      ⟨by simp, fun _ _ => rfl⟩ (fun _ _ _ _ _ => rfl) hx
    exact ⟨h2, h3⟩

/-- One trace: the window ends move with the trace if they are relative to a time of the trace. -/
theorem cutTrace_later (trim : Trace K → TArg K → TArg K → Res (Trace K)) (d : K)
    (ht : ∀ t a b, trim (later d t) (laterArg d a) (laterArg d b) = (trim t a b).map (later d)) (x y : TArg K)
    (t : Trace K) (k : String) :
    cutTrace trim (laterArg d x) (laterArg d y) (.key k) (later d t) = (cutTrace trim x y (.key k) t).map (later d) := by
  have hs : ∀ k, statsTime (later d t) k = (statsTime t k).map (laterVal d) := by
    intro k
    unfold statsTime
    rw [later_endtime, later_get]
    split
    · rfl
    · split
      · rfl
      · cases t.ext.get k <;> rfl
  have hu : ∀ z, seconds2utc (later d t) (laterArg d z) (.key k) = (seconds2utc t z (.key k)).map (laterArg d) := by
    intro z
    unfold seconds2utc
    cases z with
    | sec w =>
      simp only [laterArg, hs]
      cases statsTime t k with
      | error e => rfl
      | ok v =>
        cases v with
        | time u =>
          simp only [Except.map, laterVal, laterArg]
          rw [show u + d + w = u + w + d from by ring]
        | _ => rfl
    | _ => rfl
  unfold cutTrace
  rw [hu, hu]
  cases seconds2utc t x (.key k) with
  | error e => rfl
  | ok t1 =>
    simp only [Except.map]
    cases seconds2utc t y (.key k) with
    | error e => rfl
    | ok t2 => exact ht t t1 t2

theorem forEachE_later (d : K) (f f' : Trace K → Res (Trace K)) (h : Heap K) (s : List Nat)
    (hf : ∀ t, f' (later d t) = (f t).map (later d)) :
    Heap.forEachE f' (laterH d h) s = (laterH d (Heap.forEachE f h s).1, (Heap.forEachE f h s).2) := by
  induction s generalizing h with
  | nil => rfl
  | cons a s ih =>
    unfold Heap.forEachE
    rw [show f' (laterH d h a) = (f (h a)).map (later d) from hf _]
    cases hfa : f (h a) with
    | error er => rfl
    | ok t =>
      simp only [Except.map]
      rw [laterH_set]
      exact ih _

/-- `trim2` with a window relative to a time in the header, or an absolute window that is moved as well. -/
theorem trim2_later (trim : Trace K → TArg K → TArg K → Res (Trace K)) (d : K)
    (ht : ∀ t a b, trim (later d t) (laterArg d a) (laterArg d b) = (trim t a b).map (later d)) (x y : TArg K)
    (k : String) (h : Heap K) (s : List Nat) :
    trim2 trim (laterArg d x) (laterArg d y) (.key k) (laterH d h, s) = laterS d (trim2 trim x y (.key k) (h, s)) := by
  unfold trim2
  simp only
  rw [forEachE_later d _ _ h s (fun t => cutTrace_later trim d ht x y t k)]
  cases Heap.forEachE (cutTrace trim x y (.key k)) h s with
  | mk h1 oe => cases oe <;> rfl

/-- The arguments of `rf` with absolute times in `trim` moved as well. -/
def laterArgs (d : K) (a : RfArgs K) : RfArgs K :=
  { a with trim := a.trim.map fun w => (laterArg d w.1, laterArg d w.2) }

theorem groupBody_later (d : K) (f : Heap K → List Nat → Heap K × Option PyErr) (h : Heap K) (gs : List (List Nat))
    (hf : ∀ h g, f (laterH d h) g = (laterH d (f h g).1, (f h g).2)) :
    groupBody f (laterH d h) gs = (laterH d (groupBody f h gs).1, (groupBody f h gs).2) := by
  induction gs generalizing h with
  | nil => rfl
  | cons g gs ih =>
    unfold groupBody
    rw [hf h g]
    cases f h g with
    | mk h1 oe =>
      cases oe with
      | some e => rfl
      | none => exact ih h1

theorem forGroups_later (timeStr : K → Str) (d : K) (f : Heap K → List Nat → Heap K × Option PyErr)
    (hf : ∀ h g, f (laterH d h) g = (laterH d (f h g).1, (f h g).2)) (h : Heap K) (s : List Nat)
    (ho : SameOrder timeStr d h s) : forGroups timeStr f (laterH d h, s) = laterS d (forGroups timeStr f (h, s)) := by
  unfold forGroups
  simp only
  rw [iter3c_later timeStr d h s ho]
  cases iter3c timeStr h s with
  | error e => rfl
  | ok gs =>
    simp only
    rw [groupBody_later d f h gs hf]
    rfl

/-- The stages before the deconvolution. -/
theorem stepLater_prep (env : RfEnv K) (a : RfArgs K) (d : K) (hk : KeepsRecord env) (hl : LaterEnv d env) :
    StepLater env.timeStr d (fun st => (rfPrep env a st).andThen qStage)
      (fun st => (rfPrep env (laterArgs d a) st).andThen qStage) := by
  have h1 : StepLater env.timeStr d (filterStage env a) (filterStage env (laterArgs d a)) := by
    unfold filterStage
    rw [show (laterArgs d a).filter = a.filter from rfl]
    by_cases hf : a.filter = true
    · simp only [hf, if_true]; exact stepLater_traces _ _ _ hl.filter hk.filter
    · simp only [hf, if_false]; exact stepLater_id _ _
  have h2 : StepLater env.timeStr d (trimStage env a) (trimStage env (laterArgs d a)) := by
    unfold trimStage
    rw [show (laterArgs d a).trim = a.trim.map fun w => (laterArg d w.1, laterArg d w.2) from rfl]
    cases a.trim with
    | none => exact stepLater_id _ _
    | some w =>
      obtain ⟨x, y⟩ := w
      intro h s ho
      refine ⟨trim2_later env.trim d hl.trim x y "onset" h s, fun st1 hx => ?_⟩
      obtain ⟨-, h2, h3⟩ := stepSim_trim2 env.timeStr (fun _ => true) env.trim hk.trim x y (.key "onset")
        (h, s) (h, s) st1 ⟨by simp, fun _ _ => rfl⟩ (fun _ _ _ _ _ => rfl) hx
      exact ⟨h2, h3⟩
  have h3 : StepLater env.timeStr d (decimateStage env a) (decimateStage env (laterArgs d a)) := by
    unfold decimateStage
    rw [show (laterArgs d a).downsample = a.downsample from rfl]
    cases a.downsample with
    | none => exact stepLater_id _ _
    | some n =>
      refine stepLater_traces _ _ _ (fun t => ?_) (fun t t' ht => ?_)
      · unfold decimateTrace
        rw [show (later d t).sr = t.sr from rfl]
        split
        · exact hl.decimate _ t
        · rfl
      · unfold decimateTrace at ht
        split at ht
        · exact hk.decimate _ _ _ ht
        · simp only [Except.ok.injEq] at ht; rw [ht]
  have h4 : StepLater env.timeStr d (rotateStage env a) (rotateStage env (laterArgs d a)) := by
    unfold rotateStage
    rw [show (laterArgs d a).rotate = a.rotate from rfl]
    cases a.rotate with
    | none => exact stepLater_id _ _
    | some m =>
      intro h s ho
      refine ⟨forGroups_later env.timeStr d (env.rotate m) (hl.rotate m) h s ho, fun st1 hx => ?_⟩
      simp only at hx
      unfold forGroups at hx
      simp only at hx
      cases hi : iter3c env.timeStr h s with
      | error e => rw [hi] at hx; simp at hx
      | ok gs =>
        rw [hi] at hx
        simp only [Prod.mk.injEq] at hx
        obtain ⟨hx1, -⟩ := hx
        subst hx1
        exact ⟨fun r hr => hr, fun r => groupBody_inv recordOf (env.rotate m) (hk.rotate m) h gs r⟩
  have h5 : StepLater (K := K) env.timeStr d qStage qStage := by
    intro h s _
    refine ⟨?_, fun st1 hx => ?_⟩
    · unfold qStage laterS
      simp only
      rw [forEach_later d negQ negQ (fun t => ?_) h s]
      unfold negQ
      rw [show (later d t).cha = t.cha from rfl]
      split <;> rfl
    · unfold qStage at hx
      simp only [Prod.mk.injEq, and_true] at hx
      subst hx
      exact ⟨fun r hr => hr, fun r => Heap.forEach_inv recordOf negQ (fun t => by
        obtain ⟨n1, -, -, -, -, n6⟩ := negQ_get t
        unfold recordOf; rw [n1, n6]) h s r⟩
  have h12 := stepLater_andThen _ _ _ _ _ _ h1 h2
  have h123 := stepLater_andThen _ _ _ _ _ _ h12 h3
  have h1234 := stepLater_andThen _ _ _ _ _ _ h123 h4
  exact stepLater_andThen _ _ _ _ _ _ h1234 h5

theorem deconvolveCall_later (env : RfEnv K) (d : K) (hk : LaterDec d env.dec) (da : DeconvArgs K) (h : Heap K)
    (g : List Nat) :
    deconvolveCall env da (laterH d h) g = (laterH d (deconvolveCall env da h g).1, (deconvolveCall env da h g).2) := by
  unfold deconvolveCall
  rw [deconvolve_later d env.dec hk]
  cases deconvolve env.dec h g da with
  | mk h' res =>
    cases res with
    | error e => rfl
    | ok l =>
      simp only
      rw [laterH_eq, addInfoAll_mapH (fun _ => later d) _ (fun r t => later_addInfo d _ t)]

theorem mirrorTrace_later (d o : K) (t : Trace K) :
    mirrorTrace (o + d) (later d t) = later d (mirrorTrace o t) := by
  unfold mirrorTrace
  rw [later_endtime, add_sub_add_right_eq_sub, ← later_put]
  show Trace.put _ "onset" (.time (t.start + d + (t.endtime - o)))
    = Trace.put _ "onset" (.time (t.start + (t.endtime - o) + d))
  rw [show t.start + d + (t.endtime - o) = t.start + (t.endtime - o) + d from by ring]
  rfl

theorem mirrorLoop_later (d : K) (h : Heap K) (s : List Nat) :
    mirrorLoop (laterH d h) s = (laterH d (mirrorLoop h s).1, (mirrorLoop h s).2) := by
  induction s generalizing h with
  | nil => rfl
  | cons a s ih =>
    unfold mirrorLoop
    rw [show (laterH d h a).getTime "onset" = ((h a).getTime "onset").map (· + d) from later_getTime d _ _]
    cases (h a).getTime "onset" with
    | none =>
      simp only [Option.map_none]
      rw [← laterH_set]
      rfl
    | some o =>
      simp only [Option.map_some]
      rw [← ih, ← laterH_set, ← mirrorTrace_later]
      rfl

theorem mirrorStage_later (d : K) (m : Str) (st : SState K) :
    mirrorStage m (laterH d st.1, st.2) = laterS d (mirrorStage m st) := by
  unfold mirrorStage
  split
  · simp only [mirrorLoop_later]; rfl
  · rfl

theorem labelStage_later (d : K) (m : Str) (st : SState K) :
    labelStage m (laterH d st.1, st.2) = laterS d (labelStage m st) := by
  have hp : ∀ (k : String) (v : Str) (h : Heap K), Heap.forEach (fun t => t.put k (.str v)) (laterH d h) st.2
      = laterH d (Heap.forEach (fun t => t.put k (.str v)) h st.2) :=
    fun k v h => forEach_later d _ _ (fun t => later_put d t k (.str v)) h st.2
  have e : setType "rf".toList (laterH d st.1) st.2 = laterH d (setType "rf".toList st.1 st.2) := hp _ _ _
  unfold labelStage
  simp only
  rw [e, later_streamMethod]
  cases streamMethod (setType "rf".toList st.1 st.2) st.2 with
  | error e => rfl
  | ok m' =>
    simp only
    split
    · rw [show setMethod m (laterH d (setType "rf".toList st.1 st.2)) st.2
        = laterH d (setMethod m (setType "rf".toList st.1 st.2) st.2) from hp _ _ _]
      rfl
    · rfl

/-- C138.  The same records `d` seconds later (start times, onsets, origin times and all other times in the header
moved, absolute window ends moved as well) give the same receiver functions `d` seconds later: the same exception if
any, the same traces in the same order, the same samples, and the same header apart from the moved times.  This also
holds for custom functions. -/
theorem C138_later (env : RfEnv K) (a : RfArgs K) (d : K) (hk : KeepsRecord env) (hl : LaterEnv d env)
    (h : Heap K) (s : List Nat) (ho : SameOrder env.timeStr d h s) (h1 : Heap K) (s1 : List Nat)
    (e : Option PyErr) (hrf : rf env a (h, s) = ((h1, s1), e)) :
    rf env { a with trim := a.trim.map fun w => (laterArg d w.1, laterArg d w.2) } (laterH d h, s)
      = ((laterH d h1, s1), e) := by
  suffices hmain : rf env (laterArgs d a) (laterH d h, s) = laterS d (rf env a (h, s)) by
    rw [hrf] at hmain
    exact hmain
  unfold rf rfBody
  rw [show rfMethod (laterH d h, s).1 (laterH d h, s).2 (laterArgs d a).method = rfMethod (h, s).1 (h, s).2 a.method
    from by
      unfold rfMethod requestedMethod
      rw [show (laterArgs d a).method = a.method from rfl]
      cases a.method with
      | some m => rfl
      | none => simp only; rw [later_streamMethod]]
  cases rfMethod (h, s).1 (h, s).2 a.method with
  | error e => rfl
  | ok m =>
    simp only
    unfold rfBefore
    obtain ⟨p1, p2⟩ := stepLater_prep env a d hk hl h s ho
    simp only at p1 p2
    rw [p1, laterS_andThen d _ (deconvolveStage env a m) (deconvolveStage env (laterArgs d a) m),
      laterS_andThen d _ (mirrorStage m) _ (fun st _ => mirrorStage_later d m st),
      laterS_andThen d _ (labelStage m) _ (fun st _ => labelStage_later d m st),
      laterS_andThen d _ (fun st' => ((addInfoAll env.infoRf st'.1 st'.2, st'.2), none)) _ ?_]
    · intro st _
      simp only
      rw [laterH_eq, addInfoAll_mapH (fun _ => later d) _ (fun r t => later_addInfo d _ t)]
      rfl
    · intro st hst
      obtain ⟨a1, a2⟩ := p2 st hst
      unfold deconvolveStage
      rw [show (laterArgs d a).deconvolve = a.deconvolve from rfl]
      cases a.deconvolve with
      | none => rfl
      | some dm =>
        exact forGroups_later env.timeStr d _ (fun h g => deconvolveCall_later env d hl.dec _ h g) st.1 st.2
          (sameOrder_mono env.timeStr d h st.1 s st.2 a1 a2 ho)

end stages

section others
variable {K : Type} [Field K] [LinearOrder K] [IsStrictOrderedRing K] [FloorRing K]

theorem moveoutData_later (find : List K → K → Nat) (d : K) (t : Trace K) (o : K) (phase : Str) (t0 t1 : List K) :
    Simple.moveoutData find (later d t) (o + d) phase t0 t1 = Simple.moveoutData find t o phase t0 t1 := by
  have hi : Simple.index0 (later d t) (o + d) = Simple.index0 t o := by
    unfold Simple.index0
    rw [show (later d t).start = t.start + d from rfl, add_sub_add_right_eq_sub]
    rfl
  have h0 : (later d t).start - (o + d) = t.start - o := add_sub_add_right_eq_sub _ _ _
  unfold Simple.moveoutData Simple.moveoutS Simple.moveoutP
  simp only [hi, h0]
  rfl

theorem moveoutStep_later (sqrt : K → K) (find : List K → K → Nat) (nanCase : Trace K → Res (List K)) (d : K)
    (hn : ∀ t, nanCase (later d t) = nanCase t) (phase : Str) (ref : K) (m : Simple.SimpleModel K) (t : Trace K) :
    Simple.moveoutStep sqrt find nanCase phase ref m (later d t)
      = ((Simple.moveoutStep sqrt find nanCase phase ref m t).1,
        (Simple.moveoutStep sqrt find nanCase phase ref m t).2.map (later d)) := by
  unfold Simple.moveoutStep
  rw [later_getTime, later_endtime, show (later d t).start = t.start + d from rfl]
  cases t.getTime "onset" with
  | none => rfl
  | some o =>
    simp only [Option.map_some, add_le_add_iff_right]
    split
    · rfl
    · rw [show (later d t).getNum "slowness" = t.getNum "slowness" from by
        unfold Trace.getNum
        rw [later_get]
        cases t.ext.get "slowness" with
        | none => rfl
        | some v => cases v <;> rfl]
      cases t.getNum "slowness" with
      | none => rfl
      | some sl =>
        simp only
        cases Simple.stretch sqrt m sl phase ref with
        | mk m' res =>
          cases res with
          | error e => rfl
          | ok tt =>
            obtain ⟨t0, t1⟩ := tt
            simp only [moveoutData_later, hn]
            cases Simple.allSome t0 with
            | none =>
              simp only
              cases nanCase t <;> rfl
            | some t0 =>
              cases Simple.allSome t1 with
              | none =>
                simp only
                cases nanCase t <;> rfl
              | some t1 =>
                simp only
                cases Simple.moveoutData find t o phase t0 t1 <;> rfl

theorem moveout_later (sqrt : K → K) (find : List K → K → Nat) (nanCase : Trace K → Res (List K)) (d : K)
    (hn : ∀ t, nanCase (later d t) = nanCase t) (phase : Str) (ref : K) (m : Simple.SimpleModel K) (h : Heap K)
    (s : List Nat) :
    Simple.moveout sqrt find nanCase phase ref m (laterH d h) s
      = ((Simple.moveout sqrt find nanCase phase ref m h s).1,
        laterH d (Simple.moveout sqrt find nanCase phase ref m h s).2.1,
        (Simple.moveout sqrt find nanCase phase ref m h s).2.2) := by
  induction s generalizing m h with
  | nil => rfl
  | cons r s ih =>
    unfold Simple.moveout
    rw [show laterH d h r = later d (h r) from rfl, moveoutStep_later sqrt find nanCase d hn]
    cases Simple.moveoutStep sqrt find nanCase phase ref m (h r) with
    | mk m' res =>
      cases res with
      | error e => rfl
      | ok t =>
        simp only [Except.map]
        rw [laterH_set]
        exact ih m' _

/-- C138, move out correction.  The correction of the same traces `d` seconds later gives the same samples and the
same header apart from the moved times. -/
theorem C138_moveout (sqrt : K → K) (find : List K → K → Nat) (nanCase : Trace K → Res (List K)) (d : K)
    (hn : ∀ t, nanCase (later d t) = nanCase t) (info : Str) (phase : Option Str) (ref : K)
    (m m1 : Simple.SimpleModel K) (h h1 : Heap K) (s s1 : List Nat) (e : Option PyErr)
    (hm : streamMoveout sqrt find nanCase info phase ref m (h, s) = (m1, (h1, s1), e)) :
    streamMoveout sqrt find nanCase info phase ref m (laterH d h, s) = (m1, (laterH d h1, s1), e) := by
  have hph : moveoutPhase (laterH d h) s phase = moveoutPhase h s phase := by
    unfold moveoutPhase
    rw [later_streamMethod]
  have hlab : ∀ p t, moveoutLabel p ref (later d t) = (moveoutLabel p ref t).map (later d) := by
    intro p t
    unfold moveoutLabel
    rw [show (later d t).put "moveout" (.str p) = later d (t.put "moveout" (.str p)) from later_put d t _ (.str p),
      later_get]
    cases (t.put "moveout" (.str p)).ext.get "slowness" with
    | none => rfl
    | some v =>
      simp only [Option.map_some, Except.map]
      rw [later_put]
      exact congrArg Except.ok (later_put d _ "slowness" (.num ref))
  unfold streamMoveout at hm ⊢
  simp only [hph] at hm ⊢
  cases hp : moveoutPhase h s phase with
  | error er =>
    rw [hp] at hm
    simp only [Prod.mk.injEq] at hm ⊢
    obtain ⟨a, ⟨b, c⟩, f⟩ := hm
    exact ⟨a, ⟨by rw [b], c⟩, f⟩
  | ok p =>
    rw [hp] at hm
    simp only at hm ⊢
    rw [moveout_later sqrt find nanCase d hn]
    cases hmo : Simple.moveout sqrt find nanCase p ref m h s with
    | mk m' he =>
      obtain ⟨h', oe⟩ := he
      rw [hmo] at hm
      cases oe with
      | some er =>
        simp only [Prod.mk.injEq] at hm ⊢
        obtain ⟨a, ⟨b, c⟩, f⟩ := hm
        exact ⟨a, ⟨by rw [b], c⟩, f⟩
      | none =>
        simp only at hm ⊢
        rw [forEachE_later d _ _ h' s (hlab p)]
        cases hf : Heap.forEachE (moveoutLabel p ref) h' s with
        | mk h2 oe2 =>
          rw [hf] at hm
          cases oe2 with
          | some er =>
            simp only [Prod.mk.injEq] at hm ⊢
            obtain ⟨a, ⟨b, c⟩, f⟩ := hm
            exact ⟨a, ⟨by rw [b], c⟩, f⟩
          | none =>
            simp only [Prod.mk.injEq] at hm ⊢
            obtain ⟨a, ⟨b, c⟩, f⟩ := hm
            refine ⟨a, ⟨?_, c⟩, f⟩
            rw [← b, laterH_eq, addInfoAll_mapH (fun _ => later d) _ (fun r t => later_addInfo d _ t)]

/-- The header entries of a trace that are copied are no times. -/
def NoTimes (keys : List String) (t : Trace K) : Prop := ∀ k ∈ keys, ∀ x, t.ext.get k ≠ some (.time x)

theorem copied_later (d : K) (keys : List String) (t : Trace K) (hn : NoTimes keys t) :
    keys.filterMap (fun k => ((later d t).ext.get k).map fun v => (k, v))
      = keys.filterMap (fun k => (t.ext.get k).map fun v => (k, v)) := by
  refine List.filterMap_congr fun k hk => ?_
  rw [later_get]
  have := hn k hk
  cases hg : t.ext.get k with
  | none => rfl
  | some v =>
    cases v with
    | time x => exact absurd hg (this x)
    | _ => rfl

/-- The onset of the new trace, relative to the start. -/
theorem onset_later (d : K) (t t2 : Trace K) :
    (match (later d t).ext.get "onset" with
      | some (.time o) => .ok (t2.put "onset" (.time (0 + (o - (later d t).start))))
      | some _ => .error .typeError
      | none => .ok t2 : Res (Trace K))
    = (match t.ext.get "onset" with
      | some (.time o) => .ok (t2.put "onset" (.time (0 + (o - t.start))))
      | some _ => .error .typeError
      | none => .ok t2 : Res (Trace K)) := by
  rw [later_get, show (later d t).start = t.start + d from rfl]
  cases t.ext.get "onset" with
  | none => rfl
  | some v =>
    cases v with
    | time o =>
      simp only [Option.map_some, laterVal]
      rw [add_sub_add_right_eq_sub]
    | _ => rfl

/-- C138, stack.  A stack has no absolute time, so that the stack is the same `d` seconds later. -/
theorem C138_stack (order : List Str → List Str) (d : K) (h : Heap K) (s : List Nat)
    (hn : ∀ r ∈ s, NoTimes stackEntries (h r)) : stack order (laterH d h) s = stack order h s := by
  unfold stack
  cases s with
  | nil => rfl
  | cons r0 s =>
    simp only
    have : stackOne (laterH d h) (r0 :: s) (laterH d h r0) = stackOne h (r0 :: s) (h r0) := by
      funext ident
      have hc : stackEntries.filterMap (fun k => ((laterH d h r0).ext.get k).map fun v => (k, v))
          = stackEntries.filterMap (fun k => ((h r0).ext.get k).map fun v => (k, v)) :=
        copied_later d stackEntries (h r0) (hn r0 List.mem_cons_self)
      unfold stackOne
      simp only [hc]
      split
      · show (match npMean (((r0 :: s).filter (fun r => decide ((h r).id = ident))).map (fun r => (h r).data)) with
          | .error e => _
          | .ok data => _) = _
        cases npMean (((r0 :: s).filter (fun r => decide ((h r).id = ident))).map (fun r => (h r).data)) with
        | error e => rfl
        | ok data => exact onset_later d (h r0) _
      · rfl
    rw [this]
    rfl

end others

section examples

/-- The example environment; the text of a time is the character with its number. -/
def lEnv : RfEnv ℚ := { iEnv with timeStr := fun x => [Char.ofNat ⌊x⌋.toNat] }

theorem lEnv_later (d : ℚ) : LaterEnv d lEnv where
  filter _ := rfl
  trim _ _ _ := rfl
  decimate _ _ := rfl
  rotate _ _ _ := rfl
  dec := by
    refine ⟨fun t a b => ?_, fun _ _ => rfl, fun _ _ _ _ => rfl, fun _ _ _ _ _ => rfl⟩
    show ({ later d t with data := _, start := max (a + d) (t.start + d) } : Trace ℚ) = _
    have e : ∀ p : ℚ × ℕ, (a + d ≤ (later d t).start + p.2 / (later d t).sr ∧
        (later d t).start + p.2 / (later d t).sr ≤ b + d)
        ↔ (a ≤ t.start + p.2 / t.sr ∧ t.start + p.2 / t.sr ≤ b) := by
      intro p
      rw [show (later d t).start + p.2 / (later d t).sr = t.start + p.2 / t.sr + d from by
        show t.start + d + p.2 / t.sr = _; ring, add_le_add_iff_right, add_le_add_iff_right]
    simp only [e, max_add_add_right]
    rfl

/-- Records of two stations, the second one 30 s after the first one. -/
def apart : Heap ℚ := fun r => if r < 3 then twoRecords r else later 30 (twoRecords r)

/-- C138 is not vacuous: two records, 50 s later; the call succeeds, the times of the result are 50 s later and the
samples are the same. -/
example : KeepsRecord lEnv ∧ LaterEnv 50 lEnv ∧ SameOrder lEnv.timeStr 50 apart [0, 3, 1, 4, 2, 5] ∧
    (rf lEnv { method := some "S".toList, srcComps := some "LZ".toList } (apart, [0, 3, 1, 4, 2, 5])).2 = none ∧
    ((rf lEnv { method := some "S".toList, srcComps := some "LZ".toList } (apart, [0, 3, 1, 4, 2, 5])).1.1 4)
      ≠ apart 4 ∧
    (laterH 50 apart 3).getTime "onset" = some (1808 / 10) ∧
    ((rf lEnv { method := some "S".toList, srcComps := some "LZ".toList }
      (laterH 50 apart, [0, 3, 1, 4, 2, 5])).1.1 4).getTime "onset" = some 181 := by
  refine ⟨⟨iEnv_keeps.filter, iEnv_keeps.trim, iEnv_keeps.decimate, iEnv_keeps.rotate⟩, lEnv_later 50, ?_,
    by decide +kernel, by decide +kernel, by decide +kernel, by decide +kernel⟩
  have : ∀ q ∈ [0, 3, 1, 4, 2, 5], ∀ r ∈ [0, 3, 1, 4, 2, 5], ∀ x ∈ (apart q).getTime "onset",
      ∀ y ∈ (apart r).getTime "onset",
      (lEnv.timeStr (x + 50) ≤ lEnv.timeStr (y + 50) ↔ lEnv.timeStr x ≤ lEnv.timeStr y) := by decide +kernel
  exact fun q hq r hr x y hx hy => this q hq r hr x hx y hy

/-- The stack of the two records has no times. -/
example : (∀ r ∈ [0, 3, 1, 4, 2, 5], NoTimes stackEntries (apart r)) ∧
    (stack (fun l => l.dedup) apart [0, 3, 1, 4, 2, 5]).map (·.map fun t => (t.start, t.getTime "onset"))
      = .ok [(0, some (4/5)), (0, some (4/5)), (0, some (4/5)), (0, some (4/5)), (0, some (4/5)), (0, some (4/5))] := by
  refine ⟨?_, by decide +kernel⟩
  have : ∀ r ∈ [0, 3, 1, 4, 2, 5], ∀ k ∈ stackEntries, (apart r).getTime k = none := by decide +kernel
  intro r hr k hk x hx
  have := this r hr k hk
  unfold Trace.getTime at this
  rw [hx] at this
  cases this

end examples

end Verif.Props
