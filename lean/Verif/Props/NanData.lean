import Verif.Model.NanData
import Verif.Model.Kernels
import Verif.Props.RecordRf
import Verif.Props.ReturnsRf
import Verif.Props.IndependentRf
import Verif.Props.StreamOps

/-!
# A record whose deconvolution divides by zero does not spoil the others (C163)
-/

set_option linter.unusedSimpArgs false
set_option linter.unusedSectionVars false

namespace Verif.Props
open Verif.Py Verif.Model Verif.Spec

section nan
variable {K : Type} [Field K] [LinearOrder K] [IsStrictOrderedRing K] [FloorRing K]

theorem onDivision_ok {α : Type} (x y : α) (r : Res α) (h : r = .ok y) : onDivision x r = .ok y := by
  subst h
  rfl

theorem onDivision_cases {α : Type} (x : α) (r : Res α) :
    (r = .error .other ∧ onDivision x r = .ok x) ∨ (r ≠ .error .other ∧ onDivision x r = r) := by
  cases r with
  | ok y => exact Or.inr ⟨by simp, rfl⟩
  | error e => cases e <;> first | exact Or.inl ⟨rfl, rfl⟩ | exact Or.inr ⟨by simp, rfl⟩

/-- Enough results: writing them back does not fail. -/
theorem writeBack_enough (rsp : List Nat) (fs : List (Trace K → Trace K)) (hl : rsp.length ≤ fs.length) (h : Heap K) :
    (writeBack h rsp fs).2 = none := by
  induction rsp generalizing h fs with
  | nil => simp [writeBack]
  | cons r rs ih =>
    cases fs with
    | nil => simp at hl
    | cons f fs =>
      unfold writeBack
      exact ih fs (by simpa using hl) _

theorem writeBack_error (rsp : List Nat) (fs : List (Trace K → Trace K)) (h : Heap K) (e : PyErr)
    (he : (writeBack h rsp fs).2 = some e) : e = .indexError := by
  induction rsp generalizing h fs with
  | nil => simp [writeBack] at he
  | cons r rs ih =>
    cases fs with
    | nil => simp [writeBack] at he; exact he.symm
    | cons f fs =>
      unfold writeBack at he
      exact ih fs _ he

theorem finish_other (h : Heap K) (rsp : List Nat) (res : Res (List (Trace K → Trace K)))
    (he : (finish h rsp res).2 = .error .other) : res = .error .other := by
  unfold finish at he
  cases res with
  | error e => simpa using he
  | ok fs =>
    simp only at he
    have := writeBack_error rsp fs h
    cases hw : writeBack h rsp fs with
    | mk h' o =>
      rw [hw] at he this
      cases o with
      | none => simp at he
      | some e =>
        simp only [Except.error.injEq] at he
        rw [he] at this
        exact absurd (this _ rfl) (by decide)

theorem finish_enough (h : Heap K) (rsp : List Nat) (fs : List (Trace K → Trace K)) (hl : rsp.length ≤ fs.length) :
    (finish h rsp (.ok fs)).2 = .ok rsp := by
  unfold finish
  have := writeBack_enough rsp fs hl h
  cases hw : writeBack h rsp fs with
  | mk h' o =>
    rw [hw] at this
    simp only at this
    subst this
    simp only [hw]

theorem map_other {α β : Type} (f : α → β) (r : Res α) : r.map f = .error .other ↔ r = .error .other := by
  cases r <;> simp [Except.map]

/-- The methods whose kernels go on after a division by zero. -/
def GoesOn (m : DMethod) : Prop := m = .waterlevel ∨ m = .iterative ∨ m = .multitaper

theorem finish_division {α : Type} (h : Heap K) (rsp : List Nat) (x : List α) (g : α → Trace K → Trace K) (r : Res (List α))
    (hx : x.length = rsp.length) :
    ((finish h rsp (r.map (·.map g))).2 = .error .other →
      (finish h rsp ((onDivision x r).map (·.map g))).2 = .ok rsp) ∧
    ((finish h rsp (r.map (·.map g))).2 ≠ .error .other →
      finish h rsp ((onDivision x r).map (·.map g)) = finish h rsp (r.map (·.map g))) := by
  rcases onDivision_cases x r with ⟨h1, h2⟩ | ⟨h1, h2⟩
  · rw [h2, h1]
    refine ⟨fun _ => finish_enough h rsp _ (by simp [hx]), fun hc => ?_⟩
    exact absurd rfl hc
  · rw [h2]
    exact ⟨fun hc => absurd ((map_other _ _).1 (finish_other h rsp _ hc)) h1, fun _ => rfl⟩

theorem finish_division' {α β : Type} (h : Heap K) (rsp : List Nat) (x : List α) (k : α → β) (g : β → Trace K → Trace K)
    (r : Res (List β)) (hx : x.length = rsp.length) :
    ((finish h rsp (r.map (·.map g))).2 = .error .other →
      (finish h rsp ((onDivision (x.map k) r).map (·.map g))).2 = .ok rsp) ∧
    ((finish h rsp (r.map (·.map g))).2 ≠ .error .other →
      finish h rsp ((onDivision (x.map k) r).map (·.map g)) = finish h rsp (r.map (·.map g))) :=
  finish_division h rsp (x.map k) g r (by simpa using hx)

/-- Cutting out the noise does not divide (`.other` stands for the division by zero of a kernel, no exception). -/
def NoiseDividesNot (dec : DeconvEnv K) : Prop := ∀ h s rsp rc, dec.noise h s rsp rc ≠ .error .other

theorem runKernel_nan (fill : NanFill K) (hf : fill.Sized) (dec : DeconvEnv K) (m : DMethod) (h : Heap K)
    (s rsp : List Nat) (rc : Option Str) (srcT : Trace K) (sr ts : K) (nrm : Option Norm) :
    (GoesOn m → NoiseDividesNot dec → (runKernel dec m h s rsp rc srcT sr ts nrm).2 = .error .other →
      (runKernel (nanEnv fill dec) m h s rsp rc srcT sr ts nrm).2 = .ok rsp) ∧
    ((runKernel dec m h s rsp rc srcT sr ts nrm).2 ≠ .error .other →
      runKernel (nanEnv fill dec) m h s rsp rc srcT sr ts nrm = runKernel dec m h s rsp rc srcT sr ts nrm) := by
  have hlen : (fill.arrays (rsp.map fun r => (h r).data) srcT.data).length = rsp.length := by
    rw [hf]
    simp
  cases m with
  | time => exact ⟨fun hg => by simp [GoesOn] at hg, fun _ => rfl⟩
  | func => exact ⟨fun hg => by simp [GoesOn] at hg, fun _ => rfl⟩
  | waterlevel =>
    obtain ⟨a, b⟩ := finish_division' h rsp (fill.arrays (rsp.map fun r => (h r).data) srcT.data) Prod.fst setData
      (dec.water (rsp.map fun r => (h r).data) srcT.data sr ts nrm) hlen
    exact ⟨fun _ _ hc => a hc, b⟩
  | iterative =>
    obtain ⟨a, b⟩ := finish_division h rsp (fill.arrays (rsp.map fun r => (h r).data) srcT.data)
      (fun (d : List K × Nat) t => (setData d.1 t).put "iterations" (.num ((d.2 : Nat) : K)))
      (dec.iter (rsp.map fun r => (h r).data) srcT.data sr ts nrm) hlen
    exact ⟨fun _ _ hc => a hc, b⟩
  | multitaper =>
    cases hno : dec.noise h s rsp rc with
    | error e =>
      have h1 : ∀ dec' : DeconvEnv K, dec'.noise = dec.noise →
          runKernel dec' .multitaper h s rsp rc srcT sr ts nrm = (h, .error e) := by
        intro dec' hd
        unfold runKernel
        simp only [hd, hno]
        rfl
      rw [h1 dec rfl, h1 (nanEnv fill dec) rfl]
      refine ⟨fun _ hd hc => ?_, fun _ => rfl⟩
      have hd := hd h s rsp rc
      rw [hno] at hd
      cases hc
      exact absurd rfl hd
    | ok nse =>
      obtain ⟨a, b⟩ := finish_division' h rsp (fill.arrays (rsp.map fun r => (h r).data) srcT.data) Prod.fst setData
        (dec.mt (rsp.map fun r => (h r).data) srcT.data nse sr (-ts) nrm) hlen
      have h1 : ∀ dec' : DeconvEnv K, dec'.noise = dec.noise →
          runKernel dec' .multitaper h s rsp rc srcT sr ts nrm =
            finish h rsp ((dec'.mt (rsp.map fun r => (h r).data) srcT.data nse sr (-ts) nrm).map (·.map setData)) := by
        intro dec' hd
        unfold runKernel
        simp only [hd, hno]
        rfl
      rw [h1 dec rfl, h1 (nanEnv fill dec) rfl]
      exact ⟨fun _ _ hc => a hc, b⟩

theorem getItem_other {α : Type} (l : List α) (i : Int) : getItem l i ≠ .error .other := by
  unfold getItem
  generalize (if i < 0 then i + l.length else i) = j
  simp only
  split
  · cases l[j.toNat]? <;> simp
  · simp

theorem findNearest_other (a : List K) (v : K) : findNearest a v ≠ .error .other := by
  unfold findNearest
  simp only [bind, Except.bind, pure, Except.pure]
  have h1 := getItem_other a ((searchsortedLeft a v : Int) - 1)
  have h2 := getItem_other a (searchsortedLeft a v : Int)
  cases hx : getItem a ((searchsortedLeft a v : Int) - 1) with
  | error e => rw [hx] at h1; simpa using h1
  | ok l =>
    cases hy : getItem a (searchsortedLeft a v : Int) with
    | error e => rw [hy] at h2; simpa using h2
    | ok r => simp only; split <;> simp

theorem selectComps_other (h : Heap K) (c : Str) (s : List Nat) : selectComps h c s ≠ .error .other := by
  induction s with
  | nil => simp [selectComps]
  | cons r s ih =>
    unfold selectComps
    cases (h r).comp with
    | none => simp
    | some x =>
      simp only
      cases hs : selectComps h c s with
      | error e => rw [hs] at ih; simpa using ih
      | ok l => simp

theorem deconvSelect_other (h : Heap K) (s : List Nat) (a : DeconvArgs K) : deconvSelect h s a ≠ .error .other := by
  unfold deconvSelect
  cases deconvMethod a.method with
  | none => simp
  | some m =>
    simp only
    have h1 := selectComps_other h a.srcComps s
    have h2 : selectRsp h a.rspComps s ≠ .error .other := by
      unfold selectRsp
      split
      · simp
      · exact selectComps_other h _ s
    split
    · rename_i e he
      rw [he] at h1
      simpa using h1
    · split
      · rename_i e he
        rw [he] at h2
        simpa using h2
      · split <;> simp
    · simp

theorem deconvSelect_method (h : Heap K) (s : List Nat) (a : DeconvArgs K) (m : DMethod) (x : Nat × List Nat × Option Norm)
    (he : deconvSelect h s a = .ok (m, x)) : deconvMethod a.method = some m := by
  unfold deconvSelect at he
  cases hm : deconvMethod a.method with
  | none => rw [hm] at he; simp at he
  | some m' =>
    rw [hm] at he
    simp only at he
    split at he
    · simp at he
    · split at he
      · simp at he
      · split at he
        · simp only [Except.ok.injEq, Prod.mk.injEq] at he
          rw [he.1]
        · simp at he
    · simp at he

theorem sourceWindow_other (m : DMethod) (w : Win K) (x y : K) : sourceWindow m w x y ≠ .error .other := by
  unfold sourceWindow
  cases w with
  | tuple a b t => simp
  | letter l =>
    simp only
    split
    · cases m <;> simp
    · split
      · cases m <;> simp
      · split <;> simp

/-- `deconvolve` after a division by zero, and without. -/
theorem deconvolve_nan (fill : NanFill K) (hf : fill.Sized) (dec : DeconvEnv K) (h : Heap K) (s : List Nat)
    (a : DeconvArgs K) :
    ((∃ m, deconvMethod a.method = some m ∧ GoesOn m) → NoiseDividesNot dec → (deconvolve dec h s a).2 = .error .other →
      ∃ h2 rsp, deconvolve (nanEnv fill dec) h s a = (h2, .ok rsp)) ∧
    ((deconvolve dec h s a).2 ≠ .error .other → deconvolve (nanEnv fill dec) h s a = deconvolve dec h s a) := by
  unfold deconvolve
  cases hsel : deconvSelect h s a with
  | error e =>
    refine ⟨fun _ _ hc => ?_, fun _ => rfl⟩
    have := deconvSelect_other h s a
    rw [hsel] at this
    simp only at hc
    exact absurd hc (by simpa using this)
  | ok x =>
    obtain ⟨m, src, rsp, nrm⟩ := x
    simp only
    cases (h src).getTime "onset" with
    | none => exact ⟨fun _ _ hc => by simp at hc, fun _ => rfl⟩
    | some o =>
      simp only
      cases hn : findNearest (times (h src)) (o - (h src).start) with
      | error e =>
        refine ⟨fun _ _ hc => ?_, fun _ => rfl⟩
        have := findNearest_other (times (h src)) (o - (h src).start)
        rw [hn] at this
        simp only at hc
        exact absurd hc (by simpa using this)
      | ok idx =>
        simp only
        generalize hW : sourceWindow m a.winsrc _ _ = W
        have hW' : W ≠ .error .other := by
          rw [← hW]
          exact sourceWindow_other _ _ _ _
        cases W with
        | error e =>
          refine ⟨fun _ _ hc => ?_, fun _ => rfl⟩
          simp only at hc
          exact absurd hc (by simpa using hW')
        | ok w =>
          obtain ⟨w0, w1, w2⟩ := w
          simp only
          have hr := runKernel_nan fill hf dec m
          refine ⟨?_, fun hc => (hr _ _ _ _ _ _ _ _).2 hc⟩
          rintro ⟨m', hm', hg⟩ hdn hc
          have hmm := deconvSelect_method h s a m _ hsel
          rw [hm'] at hmm
          simp only [Option.some.injEq] at hmm
          subst hmm
          exact ⟨_, _, Prod.ext rfl ((hr _ _ _ _ _ _ _ _).1 hg hdn hc)⟩

/-- **C163**: a live record.  If some records give a division by zero, `rf` with water level, iterative or multitaper
deconvolution goes on; the traces of every record whose own deconvolution does not divide by zero get exactly the
receiver functions of this record, whatever the arrays of the other records hold. -/
theorem C163_live_record (fill : NanFill K) (hf : fill.Sized) (env : RfEnv K) (a : RfArgs K) (d : Str)
    (hd : a.deconvolve = some d) (hfunc : d ≠ "func".toList) (hnoise : NoiseLocal env.dec) (h h' : Heap K)
    (s s' : List Nat) (hn : s.Nodup) (hok : rf (nanRfEnv fill env) a (h, s) = ((h', s'), none)) :
    ∃ m h1, rfMethod h s a.method = .ok m ∧ ((rfPrep env a (h, s)).andThen qStage) = ((h1, s'), none) ∧
      ∀ r ∈ s', ∀ p : Nat → Bool, (∀ q ∈ s', p q = true ↔ SameRecord env.timeStr h1 q r) →
        ((s'.filter p).length = 2 ∨ (s'.filter p).length = 3 → ∀ h2 rsp,
          deconvolve env.dec h1 (s'.filter p) (rfDeconvArgs a m d) = (h2, .ok rsp) → Finished m (h2 r) (h' r)) ∧
        (¬ ((s'.filter p).length = 2 ∨ (s'.filter p).length = 3) → Finished m (h1 r) (h' r)) := by
  obtain ⟨m, h1, e1, e2, e3⟩ := C145_record (nanRfEnv fill env) a d hd hfunc hnoise h h' s s' hn hok
  refine ⟨m, h1, e1, e2, fun r hr p hp => ⟨fun hl h2 rsp hdec => ?_, (e3 r hr p hp).2⟩⟩
  obtain ⟨h3, rsp3, g1, g2⟩ := (e3 r hr p hp).1 hl
  have := (deconvolve_nan fill hf env.dec h1 (s'.filter p) (rfDeconvArgs a m d)).2 (by rw [hdec]; simp)
  rw [show (nanRfEnv fill env).dec = nanEnv fill env.dec from rfl, this, hdec] at g1
  simp only [Prod.mk.injEq] at g1
  rw [g1.1]
  exact g2

/-- **C163**: when `rf` returns.  A division by zero is no reason to fail. -/
theorem C163_returns_iff (fill : NanFill K) (hf : fill.Sized) (env : RfEnv K) (a : RfArgs K) (d : Str)
    (hd : a.deconvolve = some d) (x : DMethod) (hx : deconvMethod d = some x) (hgo : GoesOn x)
    (hnoise : NoiseLocal env.dec) (hdn : NoiseDividesNot env.dec) (hkeep : KeepsExt env.dec) (h : Heap K) (s : List Nat)
    (hn : s.Nodup) :
    (rf (nanRfEnv fill env) a (h, s)).2 = none ↔ ∃ m h1 s1, rfMethod h s a.method = .ok m ∧
      (rfPrep env a (h, s)).andThen qStage = ((h1, s1), none) ∧
      (∀ r ∈ s1, ∃ o, (h1 r).getTime "onset" = some o) ∧
      (∀ r ∈ s1, ∀ p : Nat → Bool, (∀ q ∈ s1, p q = true ↔ SameRecord env.timeStr h1 q r) →
        ((s1.filter p).length = 2 ∨ (s1.filter p).length = 3) →
        (∃ h2 rsp, deconvolve env.dec h1 (s1.filter p) (rfDeconvArgs a m d) = (h2, .ok rsp)) ∨
          (deconvolve env.dec h1 (s1.filter p) (rfDeconvArgs a m d)).2 = .error .other) ∧
      PhaseReadable h1 s1 := by
  have hfunc : d ≠ "func".toList := by
    rintro rfl
    rw [show deconvMethod "func".toList = some .func from by decide] at hx
    simp only [Option.some.injEq] at hx
    subst hx
    simp [GoesOn] at hgo
  rw [C147_returns_iff (nanRfEnv fill env) a d hd hfunc hnoise hkeep h s hn]
  have hdec : ∀ (h1 : Heap K) (g : List Nat) (m : Str),
      (∃ h2 rsp, deconvolve (nanRfEnv fill env).dec h1 g (rfDeconvArgs a m d) = (h2, .ok rsp)) ↔
      ((∃ h2 rsp, deconvolve env.dec h1 g (rfDeconvArgs a m d) = (h2, .ok rsp)) ∨
          (deconvolve env.dec h1 g (rfDeconvArgs a m d)).2 = .error .other) := by
    intro h1 g m
    obtain ⟨n1, n2⟩ := deconvolve_nan fill hf env.dec h1 g (rfDeconvArgs a m d)
    show (∃ h2 rsp, deconvolve (nanEnv fill env.dec) h1 g (rfDeconvArgs a m d) = (h2, .ok rsp)) ↔ _
    by_cases hc : (deconvolve env.dec h1 g (rfDeconvArgs a m d)).2 = .error .other
    · exact ⟨fun _ => Or.inr hc, fun _ => n1 ⟨x, hx, hgo⟩ hdn hc⟩
    · rw [n2 hc]
      exact ⟨Or.inl, fun o => o.resolve_right hc⟩
  constructor
  · rintro ⟨m, h1, s1, e1, e2, e3, e4, e5⟩
    exact ⟨m, h1, s1, e1, e2, e3, fun r hr p hp hl => (hdec _ _ _).1 (e4 r hr p hp hl), e5⟩
  · rintro ⟨m, h1, s1, e1, e2, e3, e4, e5⟩
    exact ⟨m, h1, s1, e1, e2, e3, fun r hr p hp hl => (hdec _ _ _).2 (e4 r hr p hp hl), e5⟩

/-- Without division by zero nothing changes. -/
theorem C163_same (fill : NanFill K) (hf : fill.Sized) (env : RfEnv K) (a : RfArgs K) (st st' : SState K)
    (hok : rf env a st = (st', none)) : rf (nanRfEnv fill env) a st = (st', none) := by
  obtain ⟨m, st2, st3, hm, hb, hl, he⟩ := rf_stages env a _ _ hok
  obtain ⟨st1, hb1, hb2⟩ := andThen_ok hb
  unfold rfBefore at hb1
  obtain ⟨st0, hq, hdec⟩ := andThen_ok hb1
  have hdec' : deconvolveStage (nanRfEnv fill env) a m st0 = (st1, none) := by
    unfold deconvolveStage at hdec ⊢
    cases hdd : a.deconvolve with
    | none => rw [hdd] at hdec; exact hdec
    | some d =>
      rw [hdd] at hdec
      simp only at hdec ⊢
      unfold forGroups at hdec ⊢
      rw [show (nanRfEnv fill env).timeStr = env.timeStr from rfl]
      cases hi : iter3c env.timeStr st0.1 st0.2 with
      | error e => rw [hi] at hdec; simp at hdec
      | ok gs =>
        rw [hi] at hdec
        simp only at hdec ⊢
        have key : ∀ (gs : List (List Nat)) (h : Heap K),
            (groupBody (deconvolveCall env (rfDeconvArgs a m d)) h gs).2 = none →
            groupBody (deconvolveCall (nanRfEnv fill env) (rfDeconvArgs a m d)) h gs =
              groupBody (deconvolveCall env (rfDeconvArgs a m d)) h gs := by
          intro gs
          induction gs with
          | nil => intro h _; rfl
          | cons g gs ih =>
            intro h hnone
            unfold groupBody at hnone ⊢
            have hcall : (deconvolveCall env (rfDeconvArgs a m d) h g).2 = none →
                deconvolveCall (nanRfEnv fill env) (rfDeconvArgs a m d) h g =
                  deconvolveCall env (rfDeconvArgs a m d) h g := by
              intro hc
              unfold deconvolveCall at hc ⊢
              rw [show (nanRfEnv fill env).dec = nanEnv fill env.dec from rfl,
                show (nanRfEnv fill env).infoDec = env.infoDec from rfl]
              rw [(deconvolve_nan fill hf env.dec h g (rfDeconvArgs a m d)).2 (by
                intro hcc
                cases hx : deconvolve env.dec h g (rfDeconvArgs a m d) with
                | mk h2 r2 =>
                  rw [hx] at hc hcc
                  simp only at hcc
                  subst hcc
                  simp at hc)]
            cases hcl : deconvolveCall env (rfDeconvArgs a m d) h g with
            | mk h2 o =>
              rw [hcl] at hnone hcall
              cases o with
              | some e => simp at hnone
              | none =>
                rw [hcall rfl]
                exact ih h2 hnone
        have hnone : (groupBody (deconvolveCall env (rfDeconvArgs a m d)) st0.1 gs).2 = none :=
          congrArg Prod.snd hdec
        rw [key gs st0.1 hnone]
        exact hdec
  have hb' : (rfBefore (nanRfEnv fill env) a m st).andThen (mirrorStage m) = (st2, none) := by
    unfold rfBefore
    rw [show (rfPrep (nanRfEnv fill env) a st).andThen qStage = (st0, none) from hq]
    simp only [SRes.andThen]
    rw [hdec']
    exact hb2
  rw [rf_of_stages (nanRfEnv fill env) a m st st2 st3 hm hb' hl, he]
  rfl

/-- **C163**: the other records.  If the records of `p` alone give no division by zero, they get in the run with all
records the same traces as in the run without the others. -/
theorem C163_others (fill : NanFill K) (hf : fill.Sized) (env : RfEnv K) (a : RfArgs K) (hk : KeepsRecord env)
    (hfunc : a.deconvolve ≠ some "func".toList) (hrot : ∀ x, GroupLocal (env.rotate x)) (hnoise : NoiseLocal env.dec)
    (hext : KeepsExt env.dec) (h h1 h2 : Heap K) (s s1 s2 : List Nat) (x : Str) (hx : x ≠ [])
    (hph : ∀ r ∈ s, (h r).ext.get "phase" = some (.str x)) (p : Nat → Bool)
    (hW : WholeRecords env.timeStr p h s) (hp : ∃ r ∈ s, p r = true)
    (hall : rf (nanRfEnv fill env) a (h, s) = ((h1, s1), none))
    (hpart : rf env a (h, s.filter p) = ((h2, s2), none)) :
    s2 = s1.filter p ∧ ∀ r ∈ s1, p r = true → EqBut ["processing"] (h1 r) (h2 r) := by
  obtain ⟨h3, e1, e2⟩ := C130_one_phase (nanRfEnv fill env) a hfunc
    ⟨hk.filter, hk.trim, hk.decimate, hk.rotate⟩ hrot hnoise hext h h1 s s1 x hx hph p hW hp hall
  rw [C163_same fill hf env a _ _ hpart] at e1
  simp only [Prod.mk.injEq, and_true] at e1
  obtain ⟨e3, e4⟩ := e1
  rw [e3]
  exact ⟨e4, e2⟩

/-- C164, the part which holds.  Samples of a trace count for the stack of its own id only: if two heaps differ in the
samples of the traces of `bad` only (whose numbers may stand for NaN), the stacks of all ids without a bad trace are the
same. -/
theorem C164_other_ids_partial (order : List Str → List Str) (h h' : Heap K) (s : List Nat) (bad : Nat → Prop)
    (hid : ∀ r, (h' r).id = (h r).id) (hgood : ∀ r, ¬ bad r → (h' r).data = (h r).data)
    (out out' : List (Trace K)) (hok : stack order h s = .ok out) (hok' : stack order h' s = .ok out')
    (t t' : Trace K) (ht : t ∈ out) (ht' : t' ∈ out') (hi : t'.id = t.id)
    (hfree : ∀ r ∈ s, (h r).id = t.id → ¬ bad r) : t'.data = t.data := by
  obtain ⟨⟨r, hr, e⟩, l1, m1, -⟩ := C47_mean order h s out hok t ht
  obtain ⟨-, l2, m2, -⟩ := C47_mean order h' s out' hok' t' ht'
  have hdat : ∀ q ∈ s, (h q).id = t.id → (h' q).data = (h q).data := fun q hq hqi => hgood q (hfree q hq hqi)
  have hlen : t'.data.length = t.data.length := by
    rw [← l1 r hr e, ← l2 r hr (by rw [hid, e, hi]), hdat r hr e]
  have hrows : ((s.filter fun r => (h' r).id = t'.id).map fun r => (h' r).data) =
      (s.filter fun r => (h r).id = t.id).map fun r => (h r).data := by
    rw [hi]
    simp only [hid]
    exact List.map_congr_left fun q hq => hdat q (List.mem_filter.1 hq).1 (by simpa using (List.mem_filter.1 hq).2)
  apply List.ext_getElem hlen
  intro i h1 h2
  have a1 := m1 i h2
  have a2 := m2 i h1
  rw [hrows, ← a1] at a2
  rw [List.getD_eq_getElem?_getD, List.getD_eq_getElem?_getD, List.getElem?_eq_getElem h1, List.getElem?_eq_getElem h2] at a2
  exact a2

/-- **C164 is false**: no trace is left out.  If the samples of one trace are undetermined (the numbers which stand for
NaN change), so is every sample of the stack of its id. -/
theorem C164_poisoned [CharZero K] (order : List Str → List Str) (h h' : Heap K) (s : List Nat) (hn : s.Nodup) (b : Nat)
    (hb : b ∈ s) (hid : ∀ r, (h' r).id = (h r).id) (hgood : ∀ r, r ≠ b → (h' r).data = (h r).data)
    (out out' : List (Trace K)) (hok : stack order h s = .ok out) (hok' : stack order h' s = .ok out')
    (t t' : Trace K) (ht : t ∈ out) (ht' : t' ∈ out') (hi : t.id = (h b).id) (hi' : t'.id = (h b).id) (i : Nat)
    (hlt : i < t.data.length) (hlt' : i < t'.data.length) (hdiff : (h' b).data.getD i 0 ≠ (h b).data.getD i 0) :
    t'.data.getD i 0 ≠ t.data.getD i 0 := by
  obtain ⟨-, -, m1, -⟩ := C47_mean order h s out hok t ht
  obtain ⟨-, -, m2, -⟩ := C47_mean order h' s out' hok' t' ht'
  rw [m1 i hlt, m2 i hlt']
  unfold meanAt
  rw [hi, hi']
  simp only [hid, List.map_map, List.length_map]
  have hl : b ∈ s.filter fun r => (h r).id = (h b).id := List.mem_filter.2 ⟨hb, by simp⟩
  have hnl : (s.filter fun r => (h r).id = (h b).id).Nodup := hn.filter _
  generalize (s.filter fun r => (h r).id = (h b).id) = l at hl hnl
  have hpos : ((l.length : Nat) : K) ≠ 0 := by
    rw [Nat.cast_ne_zero]
    intro hc
    rw [List.length_eq_zero_iff] at hc
    rw [hc] at hl
    simp at hl
  intro hc
  rw [div_left_inj' hpos] at hc
  apply hdiff
  obtain ⟨l1, l2, rfl⟩ := List.append_of_mem hl
  have h1 : ∀ q ∈ l1 ++ l2, (h' q).data.getD i 0 = (h q).data.getD i 0 := by
    intro q hq
    rw [hgood q]
    rintro rfl
    rw [List.nodup_append] at hnl
    rcases List.mem_append.1 hq with hq | hq
    · exact hnl.2.2 q hq q List.mem_cons_self rfl
    · exact (List.nodup_cons.1 hnl.2.1).1 hq
  have e1 : l1.map ((fun r : List K => r.getD i 0) ∘ fun r => (h' r).data) =
      l1.map ((fun r : List K => r.getD i 0) ∘ fun r => (h r).data) :=
    List.map_congr_left fun q hq => h1 q (List.mem_append_left _ hq)
  have e2 : l2.map ((fun r : List K => r.getD i 0) ∘ fun r => (h' r).data) =
      l2.map ((fun r : List K => r.getD i 0) ∘ fun r => (h r).data) :=
    List.map_congr_left fun q hq => h1 q (List.mem_append_right _ hq)
  simp only [List.map_append, List.map_cons, List.sum_append, List.sum_cons, e1, e2] at hc
  have h3 := add_left_cancel hc
  have h4 := add_right_cancel h3
  exact h4

end nan

/-- **C163**: the case occurs.  The water level kernel divides by zero if the source is zero. -/
theorem C163_zero_source (ka : KernelArgs) (rd : List (List ℝ)) (src : List ℝ) (hsrc : ∀ v ∈ src, v = 0) (sr tshift : ℝ)
    (hsr : sr ≠ 0) (n : Option Norm) (hl : ∃ r rs, rd = r :: rs ∧ ka.nfft.getD (ka.fastLen (ka.lengthW.getD r.length)) ≠ 0) :
    waterKernel ka rd src sr tshift n = .error .other := by
  obtain ⟨r, rs, rfl, hnf⟩ := hl
  have hS : ∀ N, ∀ z ∈ fft (toC src) N, z = 0 := by
    intro N z hz
    unfold fft at hz
    obtain ⟨k, -, rfl⟩ := List.mem_map.1 hz
    apply Finset.sum_eq_zero
    intro j _
    have : (toC src).getD j 0 = 0 := by
      unfold toC
      rw [List.getD_eq_getElem?_getD, List.getElem?_map]
      cases hj : src[j]? with
      | none => rfl
      | some v =>
        have := hsrc v (List.mem_of_getElem? hj)
        simp [this]
    rw [this]
    simp
  have hW : ∀ N, N ≠ 0 → ∀ wl, 0 ∈ waterPower (fft (toC src) N) wl := by
    intro N hN wl
    unfold waterPower
    simp only [List.mem_map]
    have hall : (fft (toC src) N).map (fun z => ‖z * (starRingEnd ℂ) z‖) =
        (fft (toC src) N).map (fun _ => (0 : ℝ)) := List.map_congr_left fun z hz => by simp [hS N z hz]
    have hmax : ∀ l : List ℂ, maxR (l.map fun _ => (0 : ℝ)) = 0 := by
      intro l
      cases l with
      | nil => rfl
      | cons z l =>
        simp only [List.map_cons, maxR]
        induction l with
        | nil => rfl
        | cons y l ih => simpa using ih
    have hlen : (fft (toC src) N).length = N := by simp [fft]
    cases hf : fft (toC src) N with
    | nil => rw [hf] at hlen; simp at hlen; exact absurd hlen.symm hN
    | cons z l =>
      rw [← hf]
      refine ⟨0, ⟨z, by rw [hf]; simp, by simp [hS N z (by rw [hf]; simp)]⟩, ?_⟩
      rw [hall, hmax]
      simp
  unfold waterKernel deconvWaterlevel
  have hmain : ∀ N : ℕ, N = ka.lengthW.getD r.length →
      ka.nfft.getD (ka.fastLen N) ≠ 0 := by
    rintro N rfl
    exact hnf
  cases hlw : ka.lengthW with
  | none =>
    rw [hlw] at hmain
    have h0 := hmain r.length rfl
    simp only [bind, Except.bind]
    rw [if_neg h0, if_neg hsr, if_pos (hW _ h0 _)]
    rfl
  | some N =>
    rw [hlw] at hmain
    have h0 := hmain N rfl
    simp only [bind, Except.bind]
    rw [if_neg h0, if_neg hsr, if_pos (hW _ h0 _)]
    rfl

/-! ### Concrete cases -/

/-- Two events at one station; the vertical component of the second one is zero. -/
def deadHeap : Heap ℚ := fun r =>
  if r < 3 then (dHeap r).put "phase" (.str "P".toList)
  else { dHeap (r - 3) with start := 500, data := if r = 3 then [0, 0, 0, 0, 0] else [3, 1, 4, 1, 5],
                            ext := [("onset", .time (5008/10)), ("phase", .str "P".toList)] }

/-- A kernel which divides by the largest sample of the source. -/
def deadEnv : RfEnv ℚ := { iEnv with
  timeStr := fun x => if x < 300 then "1".toList else "2".toList
  dec := { dEnv with water := fun r src _ _ _ =>
    if ∀ x ∈ src, x = 0 then .error .other else .ok (r.map (·.map (· / src.foldl max 0))) } }

/-- `z` in the place of NaN. -/
def deadFill (z : ℚ) : NanFill ℚ := ⟨fun rd _ => rd.map fun d => (d.map fun _ => z, 0)⟩

theorem deadFill_sized (z : ℚ) : (deadFill z).Sized := fun rd src => by simp [deadFill]

def deadArgs : RfArgs ℚ := { method := some "P".toList, deconvolve := some "waterlevel".toList }

/-- `rf` with the two events in the given order. -/
def deadRun (z : ℚ) : SRes ℚ := rf (nanRfEnv (deadFill z) deadEnv) deadArgs (deadHeap, [3, 4, 5, 0, 1, 2])

/-- C163 is not vacuous: the run returns, the record without source holds what stands for NaN, the other one has its
receiver function. -/
example : (deadRun 7).2 = none ∧ (rf deadEnv deadArgs (deadHeap, [3, 4, 5, 0, 1, 2])).2 = some .other ∧
    ((deadRun 7).1.1 4).data = [7, 7, 7, 7, 7] ∧ ((deadRun 7).1.1 1).data = [1/5, 2/5, 3/5, 4/5, 1] ∧
    (rf deadEnv deadArgs (deadHeap, [0, 1, 2])).2 = none ∧
    ((rf deadEnv deadArgs (deadHeap, [0, 1, 2])).1.1 1).data = [1/5, 2/5, 3/5, 4/5, 1] := by
  decide +kernel

example : ∃ h1 s1 h2 s2, rf (nanRfEnv (deadFill 7) deadEnv) deadArgs (deadHeap, [3, 4, 5, 0, 1, 2]) = ((h1, s1), none) ∧
    rf deadEnv deadArgs (deadHeap, [3, 4, 5, 0, 1, 2].filter fun r => decide (r < 3)) = ((h2, s2), none) ∧
    s2 = s1.filter (fun r => decide (r < 3)) ∧ ∀ r ∈ s1, decide (r < 3) = true → EqBut ["processing"] (h1 r) (h2 r) := by
  have e1 : (rf (nanRfEnv (deadFill 7) deadEnv) deadArgs (deadHeap, [3, 4, 5, 0, 1, 2])).2 = none := by decide +kernel
  have e2 : (rf deadEnv deadArgs (deadHeap, [3, 4, 5, 0, 1, 2].filter fun r => decide (r < 3))).2 = none := by
    decide +kernel
  refine ⟨_, _, _, _, Prod.ext rfl e1, Prod.ext rfl e2, C163_others (deadFill 7) (deadFill_sized 7) deadEnv deadArgs
    ⟨iEnv_keeps.filter, iEnv_keeps.trim, iEnv_keeps.decimate, iEnv_keeps.rotate⟩ (by decide) iEnv_rotate iEnv_noise
    ⟨fun _ _ _ => rfl, fun _ _ => rfl⟩ deadHeap _ _ [3, 4, 5, 0, 1, 2] _ _ "P".toList (by decide) (by decide +kernel)
    (fun r => decide (r < 3)) ?_ ⟨0, by decide, by decide⟩ (Prod.ext rfl e1) (Prod.ext rfl e2)⟩
  rintro q hq r hr ⟨-, x, y, hx, hy, hxy⟩
  have hcase : ∀ q ∈ [3, 4, 5, 0, 1, 2], (deadHeap q).getTime "onset" =
      some (if q < 3 then 1008/10 else 5008/10) := by decide +kernel
  rw [hcase q hq] at hx
  rw [hcase r hr] at hy
  simp only [Option.some.injEq] at hx hy
  rw [← hx, ← hy] at hxy
  have hne : deadEnv.timeStr (1008/10) ≠ deadEnv.timeStr (5008/10) := by decide +kernel
  by_cases h1 : q < 3 <;> by_cases h2 : r < 3 <;> simp only [h1, h2, if_true, if_false] at hxy ⊢
  · exact absurd hxy hne
  · exact absurd hxy.symm hne

/-- **C164 is false**: the stack of the two events of a station is undetermined in every sample, although one of the
receiver functions is finite. -/
theorem C164_counterexample : (deadRun 7).2 = none ∧ (deadRun 8).2 = none ∧
    ((deadRun 7).1.1 1).data = ((deadRun 8).1.1 1).data ∧
    (stack List.dedup (deadRun 7).1.1 [1, 4]).toOption.map (fun l => l.map (·.data)) =
      some [[18/5, 37/10, 19/5, 39/10, 4]] ∧
    (stack List.dedup (deadRun 8).1.1 [1, 4]).toOption.map (fun l => l.map (·.data)) =
      some [[41/10, 21/5, 43/10, 22/5, 9/2]] := by
  decide +kernel

/-- The stack of an id without the dead record is the same for all numbers which stand for NaN. -/
example : (stack List.dedup (deadRun 7).1.1 [1, 4, 2]).toOption.map (fun l => l.map (·.data)) =
      some [[18/5, 37/10, 19/5, 39/10, 4], [1/5, 2/5, 3/5, 4/5, 1]] ∧
    (stack List.dedup (deadRun 8).1.1 [1, 4, 2]).toOption.map (fun l => l.map (·.data)) =
      some [[41/10, 21/5, 43/10, 22/5, 9/2], [1/5, 2/5, 3/5, 4/5, 1]] := by
  decide +kernel

end Verif.Props
