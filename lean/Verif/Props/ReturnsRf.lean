import Verif.Props.RecoverRf
import Verif.Props.Join

/-!
# When rf returns (C147)
-/

set_option linter.unusedSimpArgs false
set_option linter.unusedSectionVars false

namespace Verif.Props
open Verif.Py Verif.Model Verif.Spec

section returns
variable {K : Type} [Field K] [LinearOrder K] [IsStrictOrderedRing K] [FloorRing K]

theorem deconvolve_onset (env : DeconvEnv K) (hk : KeepsExt env) (a : DeconvArgs K) (hm : a.method ≠ "func".toList)
    (h : Heap K) (s : List Nat) (r : Nat) (ho : ∃ o, (h r).getTime "onset" = some o) :
    ∃ o, ((deconvolve env h s a).1 r).getTime "onset" = some o := by
  cases hd : deconvolve env h s a with
  | mk h' res =>
    rcases deconvolve_cases env h h' s a _ hd with ⟨rfl, _⟩ | ⟨m, src, rsp, nrm, o, idx, onset, hsel, ho', hf, hon, hc⟩
    · exact ho
    have hsn : ∃ o, (snapped h src rsp onset r).getTime "onset" = some o := by
      by_cases hr : r = src ∨ r ∈ rsp
      · exact ⟨onset, snapped_onset h src rsp onset r hr⟩
      · rw [not_or] at hr
        unfold snapped
        rw [Heap.forEach_not_mem _ _ _ _ hr.2, Heap.set_ne _ _ hr.1]
        exact ho
    rcases hc with ⟨rfl, _⟩ | ⟨w0, w1, w2, srcT, h2, hw, hT, h2e, hk2⟩
    · exact hsn
    have hmf := deconvSelect_builtin h s a hm m src rsp nrm hsel
    have hg := runKernel_inv (fun t : Trace K => t.getTime "onset") (fun d t => rfl)
      (fun x t => by simp [Trace.getTime, Trace.put, Dict.get_set_ne]) env m h2 s rsp a.rspComps srcT
      (h src).sr (-w0) nrm hmf r
    rw [hk2] at hg
    simp only at hg ⊢
    rw [hg, h2e]
    split
    · exact hsn
    · by_cases hr : r = src
      · subst hr
        rw [Heap.set_self, hT]
        unfold Trace.getTime
        rw [hk.2, hk.1]
        exact hsn
      · rw [Heap.set_ne _ _ hr]
        exact hsn

theorem deconvolveCall_onset (env : RfEnv K) (hk : KeepsExt env.dec) (a : DeconvArgs K) (hm : a.method ≠ "func".toList)
    (h : Heap K) (s : List Nat) (r : Nat) (ho : ∃ o, (h r).getTime "onset" = some o) :
    ∃ o, ((deconvolveCall env a h s).1 r).getTime "onset" = some o := by
  have := deconvolve_onset env.dec hk a hm h s r ho
  unfold deconvolveCall
  cases hd : deconvolve env.dec h s a with
  | mk h' res =>
    rw [hd] at this
    cases res with
    | error e => exact this
    | ok l =>
      simp only
      unfold Trace.getTime
      rw [addInfoAll_get _ _ _ _ _ (by decide)]
      exact this

theorem groupBody_onset (f : Heap K → List Nat → Heap K × Option PyErr)
    (hf : ∀ h g r, (∃ o, (h r).getTime "onset" = some o) → ∃ o, ((f h g).1 r).getTime "onset" = some o)
    (h : Heap K) (gs : List (List Nat)) (r : Nat) (ho : ∃ o, (h r).getTime "onset" = some o) :
    ∃ o, ((groupBody f h gs).1 r).getTime "onset" = some o := by
  induction gs generalizing h with
  | nil => exact ho
  | cons g gs ih =>
    unfold groupBody
    have := hf h g r ho
    cases hfg : f h g with
    | mk h1 e =>
      rw [hfg] at this
      cases e with
      | some e => exact this
      | none => exact ih h1 this

/-- A loop over disjoint groups with a local body succeeds if the body succeeds for each group alone. -/
theorem groupBody_succeeds (f : Heap K → List Nat → Heap K × Option PyErr) (hf : GroupLocal f) (h : Heap K)
    (gs : List (List Nat)) (hdis : gs.Pairwise List.Disjoint) (hok : ∀ g ∈ gs, (f h g).2 = none) :
    (groupBody f h gs).2 = none := by
  induction gs generalizing h with
  | nil => rfl
  | cons g gs ih =>
    rw [List.pairwise_cons] at hdis
    unfold groupBody
    have h1 := hok g List.mem_cons_self
    cases hfg : f h g with
    | mk h1' e =>
      rw [hfg] at h1
      simp only at h1
      subst h1
      refine ih h1' hdis.2 fun g' hg' => ?_
      have hag : AgreeOn g' h1' h := fun r hr => by
        have := (hf h h g (fun _ _ => rfl)).2.2 r (fun hrg => hdis.1 g' hg' hrg hr)
        rw [hfg] at this
        exact this
      rw [(hf h1' h g' hag).1]
      exact hok g' (List.mem_cons_of_mem _ hg')

/-- `iter3c` returns iff all traces have an onset. -/
theorem iter3c_returns (timeStr : K → Str) (h : Heap K) (s : List Nat) :
    (∃ gs, iter3c timeStr h s = .ok gs) ↔ ∀ r ∈ s, ∃ o, (h r).getTime "onset" = some o := by
  have h1 := C03_fails_iff (fun r => (h r).id) (onsetKey timeStr h) (.tuple [2, 3]) s
  constructor
  · rintro ⟨gs, hgs⟩ r hr
    cases hk : onsetKey timeStr h r with
    | ok y => exact ((onsetKey_ok timeStr h r y).1 hk).imp fun _ e => e.1
    | error e =>
      obtain ⟨e, he⟩ := h1.2 ⟨r, hr, e, hk⟩
      unfold iter3c at hgs
      rw [hgs] at he
      cases he
  · intro ho
    cases hi : iter3c timeStr h s with
    | ok gs => exact ⟨gs, rfl⟩
    | error e =>
      obtain ⟨r, hr, e', he⟩ := h1.1 ⟨e, hi⟩
      obtain ⟨o, ho⟩ := ho r hr
      rw [(onsetKey_ok timeStr h r (timeStr o)).2 ⟨o, ho, rfl⟩] at he
      cases he

theorem streamMethod_returns (h : Heap K) (s : List Nat) :
    (∃ m, streamMethod h s = .ok m) ↔ PhaseReadable h s := by
  unfold PhaseReadable streamMethod
  simp only [← uniqueHeader_eq_some]
  cases hu : uniqueHeader h s "phase" with
  | none =>
    constructor
    · intro _ v hv
      cases hv
    · intro _
      exact ⟨none, rfl⟩
  | some v =>
    constructor
    · rintro ⟨m, hm⟩ w hw
      obtain rfl := Option.some.inj hw
      cases v with
      | str p =>
        refine ⟨p, ?_, rfl⟩
        rintro rfl
        simp at hm
      | _ => simp at hm
    · intro hv
      obtain ⟨x, hx, rfl⟩ := hv v rfl
      simp only
      rw [List.getLast?_eq_getLast_of_ne_nil hx]
      exact ⟨_, rfl⟩

theorem pairwise_mem_ne {gs : List (List Nat)} (hp : gs.Pairwise List.Disjoint) {g g' : List Nat} (hg : g ∈ gs)
    (hg' : g' ∈ gs) (hne : g ≠ g') : List.Disjoint g g' :=
  by
  induction hp with
  | nil => simp at hg
  | cons h1 h2 ih =>
    rcases List.mem_cons.1 hg with e | hg2 <;> rcases List.mem_cons.1 hg' with e' | hg2'
    · exact absurd (e.trans e'.symm) hne
    · exact e ▸ h1 _ hg2'
    · exact e' ▸ (h1 _ hg2).symm
    · exact ih hg2 hg2'

theorem prep_sublist (env : RfEnv K) (a : RfArgs K) (st : SState K) :
    ((rfPrep env a st).andThen qStage).1.2.Sublist st.2 := by
  have := rfBefore_sublist env a [] st
  unfold rfBefore at this
  rwa [andThen_traces _ _ (deconvolveStage_traces env a [])] at this

theorem mirrorStage_phase (m : Str) (st : SState K) (r : Nat) :
    ((mirrorStage m st).1.1 r).ext.get "phase" = (st.1 r).ext.get "phase" := by
  unfold mirrorStage
  split
  · exact mirrorLoop_phase st.1 st.2 r
  · rfl

theorem labelStage_returns (m : Str) (st : SState K) :
    (labelStage m st).2 = none ↔ ∃ m', streamMethod st.1 st.2 = .ok m' := by
  have he : streamMethod (setType "rf".toList st.1 st.2) st.2 = streamMethod st.1 st.2 :=
    streamMethod_congr _ _ _ (fun r => Heap.forEach_inv (fun t => t.ext.get "phase") _
      (fun t => by rw [put_get, if_neg (by decide)]) _ _ r)
  unfold labelStage
  simp only [he]
  cases streamMethod st.1 st.2 with
  | error e => simp
  | ok x => simp

/-- **C147**.  `rf` with one of the deconvolution methods of the package returns iff the method is known, the
preparation (filter, trim, decimation, rotation) returns, all prepared traces have an onset, `deconvolve` returns for
each record of two or three traces taken by itself, and the phase can be read.  In particular an exception never
arises from the interplay of records. -/
theorem C147_returns_iff (env : RfEnv K) (a : RfArgs K) (d : Str) (hd : a.deconvolve = some d)
    (hfunc : d ≠ "func".toList) (hnoise : NoiseLocal env.dec) (hkeep : KeepsExt env.dec) (h : Heap K) (s : List Nat)
    (hn : s.Nodup) :
    (rf env a (h, s)).2 = none ↔ ∃ m h1 s1, rfMethod h s a.method = .ok m ∧
      (rfPrep env a (h, s)).andThen qStage = ((h1, s1), none) ∧
      (∀ r ∈ s1, ∃ o, (h1 r).getTime "onset" = some o) ∧
      (∀ r ∈ s1, ∀ p : Nat → Bool, (∀ q ∈ s1, p q = true ↔ SameRecord env.timeStr h1 q r) →
        ((s1.filter p).length = 2 ∨ (s1.filter p).length = 3) →
        ∃ h2 rsp, deconvolve env.dec h1 (s1.filter p) (rfDeconvArgs a m d) = (h2, .ok rsp)) ∧
      PhaseReadable h1 s1 := by
  classical
  have hloc : ∀ m, GroupLocal (deconvolveCall env (rfDeconvArgs a m d)) := fun m =>
    deconvolveCall_local env hnoise (rfDeconvArgs a m d) hfunc
  have hphase : ∀ m (h1 : Heap K) gs r, ((groupBody (deconvolveCall env (rfDeconvArgs a m d)) h1 gs).1 r).ext.get "phase" =
      (h1 r).ext.get "phase" := fun m h1 gs r =>
    groupBody_inv (fun t => t.ext.get "phase") _ (fun h g r => deconvolveCall_phase env hkeep _ hfunc h g r) h1 gs r
  constructor
  · intro hnone
    have hok : rf env a (h, s) = ((rf env a (h, s)).1, none) := Prod.ext rfl hnone
    obtain ⟨m, st2, st3, hm, hb, hl, he⟩ := rf_stages env a _ _ hok
    obtain ⟨⟨h4, s4⟩, hb1, hb2⟩ := andThen_ok hb
    have hb1' := hb1
    unfold rfBefore at hb1'
    obtain ⟨⟨h5, s5⟩, hq, hdec⟩ := andThen_ok hb1'
    unfold deconvolveStage at hdec
    rw [hd] at hdec
    simp only at hdec
    unfold forGroups at hdec
    cases hi : iter3c env.timeStr h5 s5 with
    | error e => simp only [hi] at hdec; simp at hdec
    | ok gs =>
      simp only [hi, Prod.mk.injEq] at hdec
      obtain ⟨⟨e1, e1'⟩, e2⟩ := hdec
      subst e1'
      have hns : s5.Nodup := by
        have := prep_sublist env a (h, s)
        rw [hq] at this
        exact this.nodup hn
      refine ⟨m, h5, s5, hm, hq, (iter3c_returns _ _ _).1 ⟨gs, hi⟩, ?_, ?_⟩
      · intro r hr p hp hlen
        obtain ⟨x1, -⟩ := iter3c_exact env.timeStr h5 s5 gs hi r hr p hp
        have hgb : groupBody (deconvolveCall env (rfDeconvArgs a m d)) h5 gs = (h4, none) := Prod.ext e1 e2
        have hc := ((groupBody_each _ (hloc m) h5 h4 gs (iter3c_groups _ _ _ hns _ hi).1 hgb).1 _ (x1 hlen)).1
        unfold deconvolveCall at hc
        cases hdd : deconvolve env.dec h5 (s5.filter p) (rfDeconvArgs a m d) with
        | mk h2 res =>
          rw [hdd] at hc
          cases res with
          | error e => simp at hc
          | ok rsp => exact ⟨h2, rsp, rfl⟩
      · rw [← streamMethod_returns]
        obtain ⟨x, hx⟩ := (labelStage_returns m st2).1 (by rw [hl])
        refine ⟨x, ?_⟩
        have hs2 : st2.2 = s5 := by
          have := mirrorStage_traces m (h4, s5)
          rw [hb2] at this
          exact this
        rw [← hx, hs2]
        refine streamMethod_congr _ _ _ fun r => ?_
        have h1 := mirrorStage_phase m (h4, s5) r
        rw [hb2] at h1
        have h2 := hphase m h5 gs r
        rw [e1] at h2
        exact (h1.trans h2).symm
  · rintro ⟨m, h1, s1, hm, hq, ho, hdec, hph⟩
    obtain ⟨gs, hi⟩ := (iter3c_returns env.timeStr h1 s1).2 ho
    have hns : s1.Nodup := by
      have := prep_sublist env a (h, s)
      rw [hq] at this
      exact this.nodup hn
    obtain ⟨g1, g2, -⟩ := iter3c_groups _ _ _ hns _ hi
    have hgb : (groupBody (deconvolveCall env (rfDeconvArgs a m d)) h1 gs).2 = none := by
      refine groupBody_succeeds _ (hloc m) h1 gs g1 fun g hg => ?_
      obtain ⟨r, hr⟩ := List.exists_mem_of_ne_nil g (iter3c_ne_nil _ _ _ _ hi g hg)
      have hrs := g2 g hg r hr
      let p : Nat → Bool := fun q => decide (SameRecord env.timeStr h1 q r)
      have hp : ∀ q ∈ s1, p q = true ↔ SameRecord env.timeStr h1 q r := fun q _ => by simp [p]
      obtain ⟨x1, x2⟩ := iter3c_exact env.timeStr h1 s1 gs hi r hrs p hp
      by_cases hlen : (s1.filter p).length = 2 ∨ (s1.filter p).length = 3
      · have hgp : g = s1.filter p := by
          by_contra hne
          have hsame := (iter3c_same _ _ _ hns _ hi g hg).2 r hr r hr
          have hrp : r ∈ s1.filter p := List.mem_filter.2 ⟨hrs, (hp r hrs).2 hsame⟩
          exact (pairwise_mem_ne g1 hg (x1 hlen) hne) hr hrp
        obtain ⟨h2, rsp, e⟩ := hdec r hrs p hp hlen
        rw [hgp]
        unfold deconvolveCall
        rw [e]
      · exact absurd hr (x2 hlen g hg)
    have hb : rfBefore env a m (h, s) = (((groupBody (deconvolveCall env (rfDeconvArgs a m d)) h1 gs).1, s1), none) := by
      unfold rfBefore
      rw [hq]
      simp only [SRes.andThen]
      unfold deconvolveStage
      rw [hd]
      simp only
      unfold forGroups
      simp only [hi, hgb]
    have ho4 : ∀ r ∈ s1, ∃ o, ((groupBody (deconvolveCall env (rfDeconvArgs a m d)) h1 gs).1 r).getTime "onset" = some o :=
      fun r hr => groupBody_onset _ (fun h g r => deconvolveCall_onset env hkeep _ hfunc h g r) h1 gs r (ho r hr)
    have hph4 : ∀ r, ((groupBody (deconvolveCall env (rfDeconvArgs a m d)) h1 gs).1 r).ext.get "phase" =
        (h1 r).ext.get "phase" := fun r => hphase m h1 gs r
    generalize (groupBody (deconvolveCall env (rfDeconvArgs a m d)) h1 gs).1 = h4 at hb ho4 hph4
    have hmir : (mirrorStage m (h4, s1)).2 = none := by
      unfold mirrorStage
      split
      · obtain ⟨h5, e, -⟩ := mirrorLoop_ok h4 s1 hns ho4
        simp only [e]
      · rfl
    have hlab : (labelStage m (mirrorStage m (h4, s1)).1).2 = none := by
      rw [labelStage_returns]
      obtain ⟨x, hx⟩ := (streamMethod_returns h1 s1).2 hph
      refine ⟨x, ?_⟩
      rw [← hx, mirrorStage_traces m (h4, s1)]
      exact streamMethod_congr _ _ _ fun r => (mirrorStage_phase m (h4, s1) r).trans (hph4 r)
    rw [rf_of_stages env a m (h, s) (mirrorStage m (h4, s1)).1 (labelStage m (mirrorStage m (h4, s1)).1).1 hm (by
      rw [hb]
      exact Prod.ext rfl hmir) (Prod.ext rfl hlab)]

end returns

/-- **C147**, water level method.  With a positive water level, a source window given by numbers and no normalisation,
`rf` returns if every prepared trace has an onset and a channel code, and every record of two or three traces has one
source trace with a positive sampling rate, an onset not after its last sample, and a cut source that is not zero. -/
theorem C147_waterlevel (env : RfEnv ℝ) (ka : KernelArgs) (dec : DeconvEnv ℝ) (henv : env.dec = withKernels ka dec)
    (a : RfArgs ℝ) (d : Str) (hd : a.deconvolve = some d) (hm : d = "waterlevel".toList ∨ d = "freq".toList)
    (hrsp : a.rspComps = none) (w0 w1 w2 : ℝ) (hwin : a.winsrc = some (.tuple w0 w1 w2))
    (hnorm : a.normalize = some .none) (hl : ka.lengthW = none) (hwl : 0 < ka.waterlevel)
    (hnoise : NoiseLocal env.dec) (hkeep : KeepsExt env.dec) (h : Heap ℝ) (s : List ℕ) (hn : s.Nodup)
    (m : Str) (h1 : Heap ℝ) (s1 : List ℕ) (hmeth : rfMethod h s a.method = .ok m)
    (hprep : (rfPrep env a (h, s)).andThen qStage = ((h1, s1), none))
    (hcha : ∀ r ∈ s1, (h1 r).cha ≠ []) (hph : PhaseReadable h1 s1)
    (hon : ∀ r ∈ s1, ∃ o, (h1 r).getTime "onset" = some o)
    (hsrc : ∀ r ∈ s1, ∀ p : ℕ → Bool, (∀ q ∈ s1, p q = true ↔ SameRecord env.timeStr h1 q r) →
      ((s1.filter p).length = 2 ∨ (s1.filter p).length = 3) →
      ∃ src o, onComps h1 (s1.filter p) (some (rfSource a m)) = [src] ∧ 0 < (h1 src).sr ∧
        (h1 src).getTime "onset" = some o ∧
        (∃ j : ℕ, j < (h1 src).data.length ∧ o ≤ (h1 src).start + (j : ℝ) / (h1 src).sr) ∧
        ∀ onset (T : Trace ℝ), T.data = (h1 src).data → T.start = (h1 src).start → T.sr = (h1 src).sr →
          ∀ q ∈ s1.filter p, ∃ j < ka.nfft.getD (ka.fastLen (h1 q).data.length),
            (dec.taper (dec.trimPad T (onset + w0) (onset + w1)) w2).data.getD j 0 ≠ 0) :
    (rf env a (h, s)).2 = none := by
  have hfunc : d ≠ "func".toList := by
    rintro he
    rcases hm with hm | hm <;> rw [hm] at he <;> exact absurd he (by decide)
  refine (C147_returns_iff env a d hd hfunc hnoise hkeep h s hn).2
    ⟨m, h1, s1, hmeth, hprep, hon, fun r hr p hp hlen => ?_, hph⟩
  obtain ⟨src, o, c1, c2, c3, c4, c5⟩ := hsrc r hr p hp hlen
  have hcomps : onComps h1 (s1.filter p) (rfDeconvArgs a m d).rspComps = s1.filter p := by
    show onComps h1 (s1.filter p) a.rspComps = _
    rw [hrsp]
    rfl
  obtain ⟨h', e⟩ := deconvolve_water_ok ka dec h1 (s1.filter p) (rfDeconvArgs a m d) src o
    (fun q hq => hcha q (List.mem_filter.1 hq).1) hm hnorm hl hwl c1 (by rw [hcomps]; omega) (by rw [hcomps]; omega)
    c2 c3 c4 w0 w1 w2 (by unfold rfDeconvArgs; simp only [hwin])
    (fun onset T t1 t2 t3 q hq => c5 onset T t1 t2 t3 q (by rwa [hcomps] at hq))
  rw [henv]
  exact ⟨h', _, e⟩

/-- C147 is not vacuous: the stream of two records is processed; without the source trace of the first record
`deconvolve` fails for it, and so does `rf`. -/
example : (rf iEnv { method := some "P".toList } (twoRecords, [0, 3, 1, 4, 2, 5])).2 = none ∧
    (rf iEnv { method := some "P".toList } (twoRecords, [3, 1, 4, 2, 5])).2 = some .valueError ∧
    (deconvolve iEnv.dec twoRecords [1, 2] (rfDeconvArgs { method := some "P".toList } "P".toList "time".toList)).2 =
      .error .valueError := by decide +kernel

end Verif.Props
