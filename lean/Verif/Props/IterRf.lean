import Verif.Props.RecoverRf
import Verif.Props.IterConverge
import Verif.Spec.PulseTrain

/-!
# Conversions in receiver functions of the iterative method: C174
-/

set_option linter.unusedSimpArgs false
set_option linter.unusedSectionVars false

namespace Verif.Props
open Verif.Py Verif.Spec Verif.Model Finset

/-- A successful call of `deconvolve` with the iterative method and without normalisation stores the results of
`deconv_iterative` for the cut source. -/
theorem iter_called (ka : KernelArgs) (dec : DeconvEnv ℝ) (h h' : Heap ℝ) (st : List ℕ) (a : DeconvArgs ℝ)
    (l : List ℕ) (w0 w1 w2 : ℝ) (hwin : a.winsrc = .tuple w0 w1 w2) (hn : st.Nodup)
    (hm : a.method = "iterative".toList) (hnorm : a.normalize = some .none)
    (hd : deconvolve (withKernels ka dec) h st a = (h', .ok l)) :
    ∃ src ∈ st, OfComp a.srcComps (h src) ∧ ∃ (onset : ℝ) (T c : Trace ℝ),
      T.data = (h src).data ∧ T.start = (h src).start ∧ T.sr = (h src).sr ∧ T.getTime "onset" = some onset ∧
      c = dec.taper (dec.trimPad T (onset + w0) (onset + w1)) w2 ∧
      ((0 < (h src).sr → SnappedOnset (h src) onset) ∧
        ∀ r ∈ l, (h' r).getTime "onset" = some onset ∧ (h' r).start = (h r).start ∧ (h' r).sr = (h r).sr) ∧
      ∃ rf its rmss, deconvIterative ka.fastLen (l.map fun r => (h r).data) c.data (h src).sr (-w0) ka.gaussI ka.itmax
        ka.minderr ka.muteShift none = .ok (rf, its, rmss) ∧ Results h' l rf := by
  obtain ⟨src, hs, ho, onset, T, c, nrm, t1, t2, t3, t4, t5, t6, t7, -, -, hw, -⟩ :=
    C86_kernel_call (withKernels ka dec) h h' st a l w0 w1 w2 hwin hn (by
      rintro he
      rw [hm] at he
      exact absurd he (by decide)) hd
  refine ⟨src, hs, ho, onset, T, c, t1, t2, t3, t4, t5, t7, ?_⟩
  obtain ⟨rf, hrf, hres, -⟩ := hw hm
  have hnrm := t6 _ hnorm
  subst hnrm
  replace hrf : iterKernel ka (l.map fun r => (h r).data) c.data (h src).sr (-w0) (some .none) = .ok rf := hrf
  unfold iterKernel at hrf
  simp only [normIdx] at hrf
  cases hdw : deconvIterative ka.fastLen (l.map fun r => (h r).data) c.data (h src).sr (-w0) ka.gaussI ka.itmax
      ka.minderr ka.muteShift none with
  | error e => rw [hdw] at hrf; cases hrf
  | ok out =>
    obtain ⟨rfl1, its, rmss⟩ := out
    rw [hdw] at hrf
    simp only [Except.map, Except.ok.injEq] at hrf
    subst hrf
    refine ⟨rfl1, its, rmss, rfl, fun i r hr => ?_⟩
    have h1 := hres i r hr
    obtain ⟨-, s, -, g2, -, x, g3, -⟩ := iterative_comp _ _ _ _ _ _ _ _ _ _ rfl1 its rmss hdw i (h r).data (by
      rw [List.getElem?_map, hr]; rfl)
    have hz : (rfl1.zip its)[i]? = some (x, s.it) := List.getElem?_zip_eq_some.2 ⟨g3, g2⟩
    rw [List.getElem?_map, hz] at h1
    rw [g3]
    simpa using h1

/-- **C174, one conversion.** After a successful call of `rf` with the iterative method, a source window given by numbers
and no normalisation: whenever the prepared trace `r` of a record of two or three traces is the factor `b` times the
cut source delayed by `k` samples, and no other delay explains it, the receiver function `r` is one Gaussian pulse of
amplitude `b` times the sampling rate, at the time of the delayed onset after the onset (before it for S). -/
theorem C174_pulse (env : RfEnv ℝ) (ka : KernelArgs) (dec : DeconvEnv ℝ) (henv : env.dec = withKernels ka dec)
    (a : RfArgs ℝ) (hd : a.deconvolve = some "iterative".toList)
    (hrsp : a.rspComps = none) (w0 w1 w2 : ℝ) (hwin : a.winsrc = some (.tuple w0 w1 w2))
    (hnorm : a.normalize = some .none) (hit : 0 < ka.itmax) (h0 : 0 ≤ ka.minderr) (h100 : ka.minderr < 100)
    (hnoise : NoiseLocal env.dec) (h h' : Heap ℝ) (s s' : List ℕ) (hn : s.Nodup)
    (hok : rf env a (h, s) = ((h', s'), none)) :
    ∃ m h1, rfMethod h s a.method = .ok m ∧ ((rfPrep env a (h, s)).andThen qStage) = ((h1, s'), none) ∧
      ∀ p : ℕ → Bool, ∀ r ∈ s', (∀ q ∈ s', p q = true ↔ SameRecord env.timeStr h1 q r) →
        ((s'.filter p).length = 2 ∨ (s'.filter p).length = 3) →
        ∃ src ∈ s'.filter p, OfComp (rfSource a m) (h1 src) ∧ ∃ (onset : ℝ) (T c : Trace ℝ),
          T.data = (h1 src).data ∧ T.start = (h1 src).start ∧ T.sr = (h1 src).sr ∧
          T.getTime "onset" = some onset ∧ c = dec.taper (dec.trimPad T (onset + w0) (onset + w1)) w2 ∧
          (0 < (h1 src).sr → SnappedOnset (h1 src) onset) ∧
          ∀ n, n = ka.fastLen (2 * (h1 r).data.length) → (h1 r).data.length ≤ n → (h1 r).sr = (h1 src).sr →
            samplesIn (-w0) (h1 r).sr ≤ n →
            ∀ k < n, Admissible n (h1 r).data.length ka.muteShift (samplesIn (-w0) (h1 r).sr) k → ∀ b : ℝ,
              DelayedCopy n c.data (h1 r).data k b → (∃ j < n, (h1 r).data.getD j 0 ≠ 0) →
              (∀ i < n, ∀ b', DelayedCopy n c.data (h1 r).data i b' → i = k) →
              ∃ y, ShowsAt m (h1 r) onset y (h' r) ∧ y.length = (h1 r).data.length ∧ ∀ j < y.length,
                y.getD j 0 = b * (h1 r).sr * gaussPulse n (1 / (h1 r).sr) ka.gaussI
                  ((h1 r).start + (j : ℝ) / (h1 r).sr - onset - copyTime (h1 r) onset w0 k) := by
  have hfunc : "iterative".toList ≠ "func".toList := by decide
  obtain ⟨m, h1, hm1, hq, hrec⟩ := C145_record env a _ hd hfunc hnoise h h' s s' hn hok
  refine ⟨m, h1, hm1, hq, fun p r hr hp hlen => ?_⟩
  obtain ⟨h2, rsp, hdec, hF⟩ := (hrec r hr p hp).1 hlen
  have hrl : rsp = s'.filter p := deconvolve_all env.dec h1 h2 _ (rfDeconvArgs a m _) rsp hfunc hrsp hdec
  subst hrl
  have hsub := (C46_membership env a (h, s)).1
  rw [hok] at hsub
  have hns' : (s'.filter p).Nodup := (hsub.nodup hn).filter _
  have hrp : r ∈ s'.filter p := mem_record env.timeStr h1 s' p r hr hp (by omega)
  rw [henv] at hdec
  obtain ⟨src, i1, i2, onset, T, c, t1, t2, t3, t4, t5, ⟨t6, t7⟩, rf, its, rmss, hx, hres⟩ :=
    iter_called ka dec h1 h2 (s'.filter p) (rfDeconvArgs a m _) (s'.filter p) w0 w1 w2
      (by unfold rfDeconvArgs; simp only [hwin]) hns' rfl hnorm hdec
  refine ⟨src, i1, i2, onset, T, c, t1, t2, t3, t4, t5, t6, ?_⟩
  rintro n rfl hle hsr hq k hk had b hcopy hne huniq
  obtain ⟨i, hi, hir⟩ := List.mem_iff_getElem.1 hrp
  have hir' : (s'.filter p)[i]? = some r := by rw [List.getElem?_eq_getElem hi, hir]
  obtain ⟨y, y1, y2, y3⟩ := C136_pulse ka.fastLen c.data (h1 src).sr (-w0) ka.gaussI ka.itmax ka.minderr ka.muteShift
    _ hit h0 h100 rf its rmss hx i (h1 r).data (by rw [List.getElem?_map, hir']; rfl) k hk (by rw [← hsr]; exact had)
    (by rw [← hsr]; exact hq) b hcopy hne huniq
  rw [min_eq_left hle] at y2
  have hy := hres i r hir'
  rw [y1] at hy
  obtain ⟨u1, u2, u3⟩ := t7 r hrp
  refine ⟨y, finished_shows m (h1 r) (h2 r) (h' r) onset y hF u1 u2 u3 (Option.some.inj hy).symm, y2, fun j hj => ?_⟩
  rw [y3 j hj, ← hsr]
  congr 2
  unfold copyTime
  ring

/-- **C174, several conversions.** Under the same conditions, if the prepared trace `r` is the convolution of the cut source
with spikes `g` at admissible delays and the spectrum of the source is bounded from below, the receiver function `r`
is the train of Gaussian pulses at the times of the delayed onsets after the onset (before it for S), up to an error
that decreases geometrically with the number of iterations. -/
theorem C174_train (env : RfEnv ℝ) (ka : KernelArgs) (dec : DeconvEnv ℝ) (henv : env.dec = withKernels ka dec)
    (a : RfArgs ℝ) (hd : a.deconvolve = some "iterative".toList)
    (hrsp : a.rspComps = none) (w0 w1 w2 : ℝ) (hwin : a.winsrc = some (.tuple w0 w1 w2))
    (hnorm : a.normalize = some .none)
    (hnoise : NoiseLocal env.dec) (h h' : Heap ℝ) (s s' : List ℕ) (hn : s.Nodup)
    (hok : rf env a (h, s) = ((h', s'), none)) :
    ∃ m h1, rfMethod h s a.method = .ok m ∧ ((rfPrep env a (h, s)).andThen qStage) = ((h1, s'), none) ∧
      ∀ p : ℕ → Bool, ∀ r ∈ s', (∀ q ∈ s', p q = true ↔ SameRecord env.timeStr h1 q r) →
        ((s'.filter p).length = 2 ∨ (s'.filter p).length = 3) →
        ∃ src ∈ s'.filter p, OfComp (rfSource a m) (h1 src) ∧ ∃ (onset : ℝ) (T c : Trace ℝ),
          T.data = (h1 src).data ∧ T.start = (h1 src).start ∧ T.sr = (h1 src).sr ∧
          T.getTime "onset" = some onset ∧ c = dec.taper (dec.trimPad T (onset + w0) (onset + w1)) w2 ∧
          (0 < (h1 src).sr → SnappedOnset (h1 src) onset) ∧
          ∀ n, n = ka.fastLen (2 * (h1 r).data.length) → (h1 r).data.length ≤ n → (h1 r).sr = (h1 src).sr →
            ∀ (g : List ℝ) (σ ρ : ℝ), Explained ka.fastLen c.data (h1 r).sr (-w0) ka.gaussI ka.muteShift (h1 r).data g σ →
              ρ = σ ^ 2 / ∑ k ∈ range n, lowPassed n (1 / (h1 r).sr) ka.gaussI c.data k ^ 2 →
              0 < ρ ∧ ρ ≤ 1 ∧
              ∃ y, ShowsAt m (h1 r) onset y (h' r) ∧ y.length = (h1 r).data.length ∧ ∀ j < y.length,
                (y.getD j 0 - pulseTrain n (h1 r).sr ka.gaussI g (copyTime (h1 r) onset w0)
                  ((h1 r).start + (j : ℝ) / (h1 r).sr - onset)) ^ 2 ≤
                max ((1 - ρ) ^ ka.itmax) (ka.minderr / (100 * ρ)) *
                  ((h1 r).sr ^ 2 * n / σ ^ 2 * ∑ j ∈ range n, (h1 r).data.getD j 0 ^ 2) := by
  have hfunc : "iterative".toList ≠ "func".toList := by decide
  obtain ⟨m, h1, hm1, hq, hrec⟩ := C145_record env a _ hd hfunc hnoise h h' s s' hn hok
  refine ⟨m, h1, hm1, hq, fun p r hr hp hlen => ?_⟩
  obtain ⟨h2, rsp, hdec, hF⟩ := (hrec r hr p hp).1 hlen
  have hrl : rsp = s'.filter p := deconvolve_all env.dec h1 h2 _ (rfDeconvArgs a m _) rsp hfunc hrsp hdec
  subst hrl
  have hsub := (C46_membership env a (h, s)).1
  rw [hok] at hsub
  have hns' : (s'.filter p).Nodup := (hsub.nodup hn).filter _
  have hrp : r ∈ s'.filter p := mem_record env.timeStr h1 s' p r hr hp (by omega)
  rw [henv] at hdec
  obtain ⟨src, i1, i2, onset, T, c, t1, t2, t3, t4, t5, ⟨t6, t7⟩, rf, its, rmss, hx, hres⟩ :=
    iter_called ka dec h1 h2 (s'.filter p) (rfDeconvArgs a m _) (s'.filter p) w0 w1 w2
      (by unfold rfDeconvArgs; simp only [hwin]) hns' rfl hnorm hdec
  refine ⟨src, i1, i2, onset, T, c, t1, t2, t3, t4, t5, t6, ?_⟩
  rintro n rfl hle hsr g σ ρ hex hρ
  obtain ⟨i, hi, hir⟩ := List.mem_iff_getElem.1 hrp
  have hir' : (s'.filter p)[i]? = some r := by rw [List.getElem?_eq_getElem hi, hir]
  rw [hsr] at hex hρ
  obtain ⟨q0, q1, y, y1, y2, y3⟩ := C159_converges ka.fastLen c.data (h1 src).sr (-w0) ka.gaussI ka.itmax ka.minderr
    ka.muteShift _ rf its rmss hx i (h1 r).data (by rw [List.getElem?_map, hir']; rfl) g σ hex ρ hρ
  rw [min_eq_left hle] at y2
  have hy := hres i r hir'
  rw [y1] at hy
  obtain ⟨u1, u2, u3⟩ := t7 r hrp
  refine ⟨q0, q1, y, finished_shows m (h1 r) (h2 r) (h' r) onset y hF u1 u2 u3 (Option.some.inj hy).symm, y2,
    fun j hj => ?_⟩
  have := y3 j hj
  rw [hsr]
  convert this using 5
  unfold pulseTrain
  refine sum_congr rfl fun k _ => ?_
  congr 2
  unfold copyTime
  rw [hsr]
  ring

/-- There are a result and an iteration count for every response. -/
theorem iterative_lengths (fastLen : ℕ → ℕ) (rsp : List (List ℝ)) (src : List ℝ) (sr tshift gauss : ℝ) (itmax : ℕ)
    (minderr : ℝ) (mute : Bool) (rf : List (List ℝ)) (its : List ℕ) (rmss : List (List ℝ))
    (h : deconvIterative fastLen rsp src sr tshift gauss itmax minderr mute none = .ok (rf, its, rmss)) :
    rf.length = rsp.length ∧ its.length = rsp.length := by
  unfold deconvIterative at h
  split at h
  · cases h
  set f : List ℝ → Res (List ℝ × ItState) := fun r0 => do
      let st ← iterComp fastLen r0 src sr tshift gauss itmax minderr mute
      pure (iterOut fastLen r0 sr tshift gauss st.p0, st) with hf
  cases hm : rsp.mapM f with
  | error e => rw [hm] at h; cases h
  | ok sts =>
    rw [hm] at h
    simp only [bind, Except.bind, Except.ok.injEq, Prod.mk.injEq] at h
    obtain ⟨h1, h2, -⟩ := h
    have hl : sts.length = rsp.length := (mapM_ok f rsp sts hm).1
    rw [← h1, ← h2, List.length_map, List.length_map]
    exact ⟨hl, hl⟩

/-- With a cut source that is not zero the iterative method does not fail. -/
theorem deconvolve_iter_ok (ka : KernelArgs) (dec : DeconvEnv ℝ) (h : Heap ℝ) (s : List ℕ) (a : DeconvArgs ℝ)
    (src : ℕ) (o : ℝ) (hcha : ∀ r ∈ s, (h r).cha ≠ [])
    (hm : a.method = "iterative".toList) (hnorm : a.normalize = some .none) (hmin : 0 ≤ ka.minderr)
    (hsrc : onComps h s (some a.srcComps) = [src])
    (h1 : 1 ≤ (onComps h s a.rspComps).length) (h2 : (onComps h s a.rspComps).length ≤ 3)
    (hsr : 0 < (h src).sr) (ho : (h src).getTime "onset" = some o)
    (hin : ∃ j : ℕ, j < (h src).data.length ∧ o ≤ (h src).start + (j : ℝ) / (h src).sr)
    (w0 w1 w2 : ℝ) (hw : a.winsrc = .tuple w0 w1 w2)
    (hcut : ∀ onset (T : Trace ℝ), T.data = (h src).data → T.start = (h src).start → T.sr = (h src).sr →
      ∀ r ∈ onComps h s a.rspComps, ∃ j < ka.fastLen (2 * (h r).data.length),
        (dec.taper (dec.trimPad T (onset + w0) (onset + w1)) w2).data.getD j 0 ≠ 0) :
    ∃ h', deconvolve (withKernels ka dec) h s a = (h', .ok (onComps h s a.rspComps)) := by
  have hk : deconvMethod a.method = some .iterative := by rw [hm]; decide
  obtain ⟨idx, hidx, _⟩ := findNearest_ok (times (h src)) (o - (h src).start)
    (times_sorted (h src) hsr) (by
      obtain ⟨j, hj, hjo⟩ := hin
      refine ⟨_, (mem_times _ _).2 ⟨j, hj, rfl⟩, ?_⟩
      have e : (j : ℝ) * (h src).delta = (j : ℝ) / (h src).sr := by unfold Trace.delta; ring
      rw [e]; linarith)
  unfold deconvolve
  rw [deconvSelect_eq h s a .iterative src hcha hk hsrc h1 h2]
  simp only [ho, hidx, hw, sourceWindow]
  unfold runKernel
  simp only
  have hnk : normKw h a.normalize src (onComps h s a.rspComps) = some .none := by rw [hnorm]; rfl
  set rsp := onComps h s a.rspComps with hrspd
  set onset := (h src).start + (idx : ℝ) * (h src).delta with honset
  set T := snapped h src rsp onset src with hT
  have hdata : ∀ q ∈ rsp, ∀ h3 : Heap ℝ, h3 = (if (indexOf? (snapped h src rsp onset) src rsp).isSome then
      snapped h src rsp onset else (snapped h src rsp onset).set src
      (dec.taper (dec.trimPad T (onset + w0) (onset + w1)) w2)) → (h3 q).data = (h q).data := by
    rintro q hq2 h3 rfl
    have hsn : (snapped h src rsp onset q).data = (h q).data :=
      snapped_inv (fun t => t.data) (fun _ _ => rfl) h src rsp onset q
    split
    · exact hsn
    · rename_i hno
      rw [Heap.set_ne]
      · exact hsn
      · rintro rfl
        apply hno
        unfold indexOf?
        rw [List.findIdx?_isSome]
        simp only [List.any_eq_true, Bool.or_eq_true, decide_eq_true_eq]
        exact ⟨q, hq2, Or.inl rfl⟩
  obtain ⟨h3, hh3⟩ : ∃ h3 : Heap ℝ, h3 = (if (indexOf? (snapped h src rsp onset) src rsp).isSome then
      snapped h src rsp onset else (snapped h src rsp onset).set src
      (dec.taper (dec.trimPad T (onset + w0) (onset + w1)) w2)) := ⟨_, rfl⟩
  obtain ⟨⟨rf, its, rmss⟩, hrf⟩ := C21_succeeds ka.fastLen (rsp.map fun r => (h3 r).data)
    (dec.taper (dec.trimPad T (onset + w0) (onset + w1)) w2).data (h src).sr (-w0) ka.gaussI ka.itmax ka.minderr
    ka.muteShift hsr.ne' hmin (by
      intro r0 hr0
      obtain ⟨q, hq, rfl⟩ := List.mem_map.1 hr0
      rw [hdata q hq h3 hh3]
      exact hcut onset T (snapped_inv (fun t => t.data) (fun _ _ => rfl) h src rsp onset src)
        (snapped_inv (fun t => t.start) (fun _ _ => rfl) h src rsp onset src)
        (snapped_inv (fun t => t.sr) (fun _ _ => rfl) h src rsp onset src) q hq)
  have hlen : ((rf.zip its).map (fun (d : List ℝ × ℕ) (t : Trace ℝ) =>
      (setData d.1 t).put "iterations" (.num ((d.2 : ℕ) : ℝ)))).length = rsp.length := by
    have hl := iterative_lengths ka.fastLen _ _ _ _ _ _ _ _ rf its rmss hrf
    rw [List.length_map, List.length_zip, hl.1, hl.2, List.length_map, min_self]
  refine finish_total _ _ _ _ ?_ hlen
  show (iterKernel ka _ _ _ _ _).map _ = _
  unfold iterKernel
  rw [hnk]
  simp only [normIdx]
  have e : ∀ x, x = Except.ok (ε := PyErr) (rf, its, rmss) →
      ((x.map (fun out => out.1.zip out.2.1)).map (·.map (fun (d : List ℝ × ℕ) (t : Trace ℝ) =>
        (setData d.1 t).put "iterations" (.num ((d.2 : ℕ) : ℝ))))) =
      .ok ((rf.zip its).map (fun (d : List ℝ × ℕ) (t : Trace ℝ) =>
        (setData d.1 t).put "iterations" (.num ((d.2 : ℕ) : ℝ)))) := by
    rintro x rfl
    rfl
  subst hh3
  exact e _ hrf

section examples

noncomputable def iterArgs : RfArgs ℝ := { convArgs "S".toList with deconvolve := some "iterative".toList }

theorem iter_prep : (rfPrep convEnv iterArgs (convHeap, [0, 1])).andThen qStage =
    ((Heap.forEach negQ convHeap [0, 1], [0, 1]), none) := rfl

theorem iter_deconvolve : ∃ h', deconvolve (withKernels convKernels convDec)
    (Heap.forEach negQ convHeap [0, 1]) [0, 1] (rfDeconvArgs iterArgs "S".toList "iterative".toList) = (h', .ok [0, 1]) := by
  refine deconvolve_iter_ok convKernels convDec _ [0, 1] (rfDeconvArgs iterArgs "S".toList "iterative".toList) 0 100 ?_
    rfl rfl (by norm_num [convKernels]) ?_ (by show 1 ≤ 2; decide) (by show 2 ≤ 3; decide) ?_ rfl ?_
    0 1 0 rfl ?_
  · decide +kernel
  · show onComps (Heap.forEach negQ convHeap [0, 1]) [0, 1] (some "L".toList) = [0]
    decide +kernel
  · show (0 : ℝ) < 1
    exact one_pos
  · refine ⟨0, by show 0 < 5; decide, ?_⟩
    show (100 : ℝ) ≤ 100 + ((0 : ℕ) : ℝ) / 1
    norm_num
  · intro onset T h1 _ _ r hr
    refine ⟨0, ?_, ?_⟩
    · have : ∀ r : ℕ, ((Heap.forEach negQ convHeap [0, 1]) r).data.length = 5 := by
        intro r
        rcases r with _ | _ | r <;> rfl
      rw [this]
      show 0 < 10
      decide
    · have : (convDec.taper (convDec.trimPad T (onset + 0) (onset + 1)) 0).data = T.data.take 2 := rfl
      rw [this, h1]
      show (2 : ℝ) ≠ 0
      norm_num

theorem iter_rf : ∃ h', rf convEnv iterArgs (convHeap, [0, 1]) = ((h', [0, 1]), none) := by
  obtain ⟨h2, hd⟩ := iter_deconvolve
  have hb : rfBefore convEnv iterArgs "S".toList (convHeap, [0, 1]) =
      ((addInfoAll [] h2 [0, 1], [0, 1]), none) := by
    have hc : deconvolveCall convEnv (rfDeconvArgs iterArgs "S".toList "iterative".toList)
        (Heap.forEach negQ convHeap [0, 1]) [0, 1] = (addInfoAll [] h2 [0, 1], none) := by
      unfold deconvolveCall
      rw [show convEnv.dec = withKernels convKernels convDec from rfl, hd]
      rfl
    unfold rfBefore
    rw [iter_prep]
    simp only [SRes.andThen]
    unfold deconvolveStage
    rw [show iterArgs.deconvolve = some "iterative".toList from rfl]
    simp only
    unfold forGroups
    rw [conv_iter]
    simp only [groupBody, hc]
  have hon : ∀ r ∈ [0, 1], ∃ o, (addInfoAll [] h2 [0, 1] r).getTime "onset" = some o := by
    intro r hr
    obtain ⟨src, i1, i2, onset, T, c, nrm, t1, t2, t3, t4, t5, t6, ⟨t7, t8⟩, -⟩ := C86_kernel_call
      (withKernels convKernels convDec) _ _ _ _ _ 0 1 0 rfl (by decide) (by decide) hd
    refine ⟨onset, ?_⟩
    rw [← (t8 r hr).1]
    unfold Trace.getTime
    rw [(addInfoAll_eqBut [] h2 [0, 1] r).ext "onset" (by decide)]
  have hph : ∀ r ∈ [0, 1], (addInfoAll [] h2 [0, 1] r).ext.get "phase" = some (.str "P".toList) := by
    intro r hr
    rw [(addInfoAll_eqBut [] h2 [0, 1] r).ext "phase" (by decide)]
    have := deconvolve_phase (withKernels convKernels convDec) ⟨fun _ _ _ => rfl, fun _ _ => rfl⟩
      (rfDeconvArgs iterArgs "S".toList "iterative".toList) (by decide)
      (Heap.forEach negQ convHeap [0, 1]) [0, 1] r
    rw [hd] at this
    rw [this]
    simp only [List.mem_cons, List.not_mem_nil, or_false] at hr
    rcases hr with rfl | rfl <;> rfl
  obtain ⟨h5, m1, m2, m3⟩ := mirrorLoop_ok (addInfoAll [] h2 [0, 1]) [0, 1] (by decide) hon
  have hmir : mirrorStage "S".toList (addInfoAll [] h2 [0, 1], [0, 1]) = ((h5, [0, 1]), none) := by
    unfold mirrorStage
    rw [if_pos rfl]
    simp only [m1]
  have hph5 : ∀ r ∈ [0, 1], (h5 r).ext.get "phase" = some (.str "P".toList) := by
    intro r hr
    obtain ⟨o, ho⟩ := hon r hr
    rw [m3 r hr o ho, ← hph r hr]
    unfold mirrorTrace
    rw [put_get, if_neg (by decide)]
  obtain ⟨st', hl⟩ := labelStage_ok "S".toList (h5, [0, 1]) _
    (streamMethod_const h5 [0, 1] "P".toList (by decide) (by decide) hph5)
  have hs := labelStage_traces "S".toList (h5, [0, 1])
  rw [hl] at hs
  simp only at hs
  refine ⟨addInfoAll convEnv.infoRf st'.1 st'.2, ?_⟩
  rw [rf_intro convEnv iterArgs "S".toList rfl (Or.inr rfl) _ _ _ _ hb hmir hl, hs]

/-- C174 at work: the S receiver function of the example has the peak of the Gaussian pulse for the conversion with amplitude
1/2 two seconds before its onset. -/
example : ∃ h' o, rf convEnv iterArgs (convHeap, [0, 1]) = ((h', [0, 1]), none) ∧
    (h' 1).getTime "onset" = some o ∧ SampleAtLag (h' 1) o (-2) (1 / 2 * gaussPulse 10 1 (1 / 2) 0) := by
  obtain ⟨h', hok⟩ := iter_rf
  obtain ⟨m, h1, hm, hp, hx⟩ := C174_pulse convEnv convKernels convDec rfl iterArgs rfl
    rfl 0 1 0 rfl rfl (by decide) (by norm_num [convKernels]) (by norm_num [convKernels]) (fun _ _ _ _ _ _ _ => rfl) convHeap h' [0, 1] [0, 1] (by decide) hok
  have hm' : m = "S".toList := by
    have : rfMethod convHeap [0, 1] iterArgs.method = .ok "S".toList := by decide +kernel
    rw [this] at hm
    exact (Except.ok.inj hm).symm
  subst hm'
  rw [iter_prep] at hp
  have hh1 : h1 = Heap.forEach negQ convHeap [0, 1] := by
    simp only [Prod.mk.injEq, and_true] at hp
    exact hp.symm
  subst hh1
  obtain ⟨src, i1, i2, onset, T, c, t1, t2, t3, t4, t5, t6, hy⟩ := hx (fun _ => true) 1 (by decide) (by
      intro q hq
      refine ⟨fun _ => ?_, fun _ => rfl⟩
      simp only [List.mem_cons, List.not_mem_nil, or_false] at hq
      rcases hq with rfl | rfl <;> exact ⟨rfl, 100, 100, rfl, rfl, rfl⟩)
    (Or.inl rfl)
  have hsrc : src = 0 := by
    simp only [List.filter_true, List.mem_cons, List.not_mem_nil, or_false] at i1
    rcases i1 with rfl | rfl
    · rfl
    · exact absurd i2 (by decide +kernel)
  subst hsrc
  have hc : c.data = [2, 1] := by
    rw [t5]
    show T.data.take 2 = _
    rw [t1]
    rfl
  have honset : onset = 100 := by
    obtain ⟨o, i, o1, o2, o3, o4⟩ := t6 (show (0 : ℝ) < 1 from one_pos)
    have ho : o = 100 := by
      have : some (100 : ℝ) = some o := o1
      exact (Option.some.inj this).symm
    have h5 := o4 0 (show 0 < 5 by decide)
    have h6 : |o - onset| ≤ |o - (100 + ((0 : ℕ) : ℝ) / 1)| := h5
    rw [ho] at h6
    norm_num at h6
    linarith
  have hdat : ((Heap.forEach negQ convHeap [0, 1]) 1).data = [0, 0, 1, 1 / 2, 0] := by
    show [-(-(0 : ℝ)), -(-0), -(-1), -(-(1 / 2)), -(-0)] = _
    norm_num
  have hlen : ((Heap.forEach negQ convHeap [0, 1]) 1).data.length = 5 := rfl
  have hsr1 : ((Heap.forEach negQ convHeap [0, 1]) 1).sr = 1 := rfl
  have hst1 : ((Heap.forEach negQ convHeap [0, 1]) 1).start = 100 := rfl
  obtain ⟨y, ⟨o, o1, o2, o3⟩, y2, y3⟩ := hy 10 rfl (by rw [hlen]; decide) rfl
    (by rw [hsr1]; norm_num [samplesIn]) 2 (by decide) (.inl (by rw [hlen]; decide)) (1 / 2)
    (by
      rw [hc, hdat]
      intro m hm
      interval_cases m <;> norm_num)
    ⟨2, by decide, by rw [hdat]; norm_num⟩
    (by
      rw [hc, hdat]
      intro i hi b' h
      have h0 := h 0 (by decide)
      have h1 := h 1 (by decide)
      have h2 := h 2 (by decide)
      interval_cases i <;> first
        | rfl
        | (exfalso; norm_num at h0; done)
        | (exfalso; norm_num at h1; done)
        | (exfalso; norm_num at h2; done)
        | (exfalso; norm_num at h1 h2; linarith))
  rw [hlen] at y2
  have hj : y[2]? = some (1 / 2 * gaussPulse 10 1 (1 / 2) 0) := by
    have h2 : 2 < y.length := by rw [y2]; decide
    rw [List.getElem?_eq_getElem h2, ← List.getD_eq_getElem y 0 h2, y3 2 h2, hsr1, hst1]
    unfold copyTime
    rw [hsr1, hst1, honset]
    norm_num
    rfl
  refine ⟨h', o, hok, o1, ?_⟩
  have := o3 2 _ hj
  have e : lagSign "S".toList * ((Heap.forEach negQ convHeap [0, 1] 1).start +
      ((2 : ℕ) : ℝ) / (Heap.forEach negQ convHeap [0, 1] 1).sr - onset) = -2 := by
    unfold lagSign
    rw [if_pos rfl, honset]
    show -1 * ((100 : ℝ) + ((2 : ℕ) : ℝ) / 1 - 100) = -2
    norm_num
  rw [e] at this
  exact this

/-- The hypothesis of C174_train for the same record, with the spike 1/2 at the delay of two samples. -/
example : ∃ σ, Explained convKernels.fastLen [2, 1] 1 (-0) convKernels.gaussI convKernels.muteShift
    [0, 0, 1, 1 / 2, 0] [0, 0, 1 / 2] σ := by
  obtain ⟨σ, h0, h1⟩ := exists_floor (id (2 * 5)) (1 / 1) convKernels.gaussI [2, 1] (fun k hk =>
    (two_one_above _ (by decide) k hk).1)
  refine ⟨σ, ?_, ?_, by norm_num [samplesIn], h0, h1⟩
  · intro j hj
    have hj' : j < 10 := hj
    show _ = ∑ k ∈ range 10, _
    interval_cases j <;> norm_num [sum_range_succ, convKernels]
    · show (1 : ℝ) = 2 * (1 / 2)
      norm_num
    · show (1 / 2 : ℝ) = 1 / 2
      rfl
  · intro j hj hna
    by_contra hne
    apply hna
    left
    have hj' : j < 10 := hj
    show j < 5
    by_contra hge
    apply hne
    rw [List.getD_eq_default _ _ (by simp; omega)]

end examples
end Verif.Props
