import Verif.Props.RecordRf
import Verif.Props.DeconvolveRecover
import Verif.Props.GainKernels

/-!
# Conversions in the output of rf (C146)
-/

set_option linter.unusedSimpArgs false
set_option linter.unusedSectionVars false

namespace Verif.Props
open Verif.Py Verif.Model Verif.Spec Finset

/-- Without response components all traces are responses. -/
theorem deconvolve_all (env : DeconvEnv ℝ) (h h' : Heap ℝ) (s : List ℕ) (a : DeconvArgs ℝ) (l : List ℕ)
    (hm : a.method ≠ "func".toList) (hr : a.rspComps = none) (hd : deconvolve env h s a = (h', .ok l)) : l = s := by
  rcases deconvolve_cases env h h' s a _ hd with ⟨_, e, he⟩ |
    ⟨m, src, rsp, nrm, o, idx, onset, hsel, ho, hf, hon, hc⟩
  · cases he
  rcases hc with ⟨_, e, he⟩ | ⟨v0, v1, v2, srcT, h2, hw, hT, h2e, hk⟩
  · cases he
  obtain ⟨s1, s2, s3, s4, s5, s6⟩ := deconvSelect_ok h s a m src rsp nrm hsel
  rw [hr] at s3
  have e : l = rsp := runKernel_result env m h2 s rsp a.rspComps srcT _ _ nrm l
    (by rintro rfl; exact hm (deconvMethod_func _ s1)) (by rw [hk])
  simp only [selectRsp, Except.ok.injEq] at s3
  rw [e, ← s3]

/-- What comes after the deconvolution keeps the amplitudes at their lags, or mirrors them. -/
theorem finished_shows (m : Str) (t0 t t' : Trace ℝ) (onset : ℝ) (x : List ℝ) (hF : Finished m t t')
    (ho : t.getTime "onset" = some onset) (hst : t.start = t0.start) (hsr : t.sr = t0.sr) (hx : t.data = x) :
    ShowsAt m t0 onset x t' := by
  have key : ∀ (j : ℕ) (v : ℝ), x[j]? = some v →
      SampleAtLag t onset (t0.start + (j : ℝ) / t0.sr - onset) v := fun j v hv => by
    refine ⟨j, by rw [hx]; exact hv, ?_⟩
    unfold Trace.delta
    rw [hst, hsr]
    ring
  by_cases hS : m = "S".toList
  · obtain ⟨o, o1, o2⟩ := hF.2 hS
    rw [ho] at o1
    obtain rfl := Option.some.inj o1
    refine ⟨t.start + (t.endtime - onset), ?_, ?_, fun j v hv => ?_⟩
    · unfold Trace.getTime
      rw [o2.ext "onset" (by decide), put_get, if_pos rfl]
    · rw [o2.data]
      show t.data.reverse.length = _
      rw [List.length_reverse, hx]
    · have := (sampleAtLag_mirror t t' onset o2.data o2.start o2.sr _ v).1 (key j v hv)
      unfold lagSign
      rw [if_pos hS, neg_one_mul]
      exact this
  · have e := hF.1 hS
    refine ⟨onset, ?_, by rw [e.data, hx], fun j v hv => ?_⟩
    · unfold Trace.getTime
      rw [e.ext "onset" (by decide)]
      exact ho
    · unfold lagSign
      rw [if_neg hS, one_mul]
      obtain ⟨k, k1, k2⟩ := key j v hv
      refine ⟨k, by rw [e.data]; exact k1, ?_⟩
      rw [← k2]
      unfold Trace.delta
      rw [e.start, e.sr]

/-- A trace belongs to its own record if that is not empty. -/
theorem mem_record (timeStr : ℝ → Str) (h : Heap ℝ) (s : List ℕ) (p : ℕ → Bool) (r : ℕ) (hr : r ∈ s)
    (hp : ∀ q ∈ s, p q = true ↔ SameRecord timeStr h q r) (hlen : 0 < (s.filter p).length) : r ∈ s.filter p := by
  obtain ⟨q, hq⟩ := List.exists_mem_of_length_pos hlen
  obtain ⟨hq1, hq2⟩ := List.mem_filter.1 hq
  obtain ⟨-, x, y, -, b2, -⟩ := (hp q hq1).1 hq2
  exact List.mem_filter.2 ⟨hr, (hp r hr).2 ⟨rfl, y, y, b2, b2, rfl⟩⟩

/-- **C146**, water level method.  After a successful call of `rf` with a source window given by numbers, no Gauss
filter and no normalisation: every record of two or three traces has a source trace; whenever the prepared trace
`r` of the record consists of copies of the cut source, the receiver function `r` shows the amplitude of each copy
at its time after the onset, for S at the same time before the onset. -/
theorem C146_waterlevel (env : RfEnv ℝ) (ka : KernelArgs) (dec : DeconvEnv ℝ) (henv : env.dec = withKernels ka dec)
    (a : RfArgs ℝ) (d : Str) (hd : a.deconvolve = some d) (hm : d = "waterlevel".toList ∨ d = "freq".toList)
    (hrsp : a.rspComps = none) (w0 w1 w2 : ℝ) (hwin : a.winsrc = some (.tuple w0 w1 w2))
    (hnorm : a.normalize = some .none) (hg : ka.gaussW = none) (hl : ka.lengthW = none)
    (hnoise : NoiseLocal env.dec) (h h' : Heap ℝ) (s s' : List ℕ) (hn : s.Nodup)
    (hok : rf env a (h, s) = ((h', s'), none)) :
    ∃ m h1, rfMethod h s a.method = .ok m ∧ ((rfPrep env a (h, s)).andThen qStage) = ((h1, s'), none) ∧
      ∀ p : ℕ → Bool, ∀ r ∈ s', (∀ q ∈ s', p q = true ↔ SameRecord env.timeStr h1 q r) →
        ((s'.filter p).length = 2 ∨ (s'.filter p).length = 3) →
        ∀ N, (∀ q ∈ s'.filter p, (h1 q).data.length = N) → N ≤ ka.nfft.getD (ka.fastLen N) →
        ∃ src ∈ s'.filter p, OfComp (rfSource a m) (h1 src) ∧ ∃ (onset : ℝ) (T c : Trace ℝ),
          T.data = (h1 src).data ∧ T.start = (h1 src).start ∧ T.sr = (h1 src).sr ∧
          T.getTime "onset" = some onset ∧ c = dec.taper (dec.trimPad T (onset + w0) (onset + w1)) w2 ∧
          (0 < (h1 src).sr → SnappedOnset (h1 src) onset) ∧
          ∀ (k : ℤ), -w0 * (h1 src).sr = k → (h1 src).sr ≠ 0 →
            AboveLevel (ka.nfft.getD (ka.fastLen N)) c.data ka.waterlevel →
            ∀ x, CopiesOf k N c.data x (h1 r).data → ShowsAt m (h1 r) onset x (h' r) := by
  have hfunc : d ≠ "func".toList := by
    rintro he
    rcases hm with hm | hm <;> rw [hm] at he <;> exact absurd he (by decide)
  obtain ⟨m, h1, hm1, hq, hrec⟩ := C145_record env a d hd hfunc hnoise h h' s s' hn hok
  refine ⟨m, h1, hm1, hq, fun p r hr hp hlen N hN hfast => ?_⟩
  obtain ⟨h2, rsp, hdec, hF⟩ := (hrec r hr p hp).1 hlen
  have hrl : rsp = s'.filter p := deconvolve_all env.dec h1 h2 _ (rfDeconvArgs a m d) rsp hfunc hrsp hdec
  subst hrl
  have hsub := (C46_membership env a (h, s)).1
  rw [hok] at hsub
  have hns' : (s'.filter p).Nodup := (hsub.nodup hn).filter _
  have hrp : r ∈ s'.filter p := mem_record env.timeStr h1 s' p r hr hp (by omega)
  rw [henv] at hdec
  obtain ⟨src, i1, i2, onset, T, c, t1, t2, t3, t4, t5, ⟨t6, t7⟩, hx⟩ :=
    C143_waterlevel ka dec h1 h2 (s'.filter p) (rfDeconvArgs a m d) (s'.filter p) w0 w1 w2
      (by unfold rfDeconvArgs; simp only [hwin]) hns' hm hnorm hg hl hdec N hN hfast
  refine ⟨src, i1, i2, onset, T, c, t1, t2, t3, t4, t5, t6, fun k hk hsr hlev x hc => ?_⟩
  obtain ⟨u1, u2, u3⟩ := t7 r hrp
  exact finished_shows m (h1 r) (h2 r) (h' r) onset x hF u1 u2 u3 (hx k hk hsr hlev r hrp x hc)

/-- **C146**, time domain method with an exact solver and without added noise, for a source window with an odd number
of samples or with the onset strictly inside.  If every prepared trace of the record is the convolution of the cut
source with a series of amplitudes, the receiver functions of the record show these amplitudes, times one common
positive factor, at their times after (for S before) the onset. -/
theorem C146_time (env : RfEnv ℝ) (ka : KernelArgs) (dec : DeconvEnv ℝ) (henv : env.dec = withKernels ka dec)
    (a : RfArgs ℝ) (hd : a.deconvolve = some "time".toList)
    (hrsp : a.rspComps = none) (w0 w1 w2 : ℝ) (hwin : a.winsrc = some (.tuple w0 w1 w2))
    (n : Norm) (hnorm : a.normalize = some n) (hn2 : n ≠ .src)
    (hsolve : ExactSolver ka.solve) (hsp : ka.spiking = 0) (hl : ka.lengthT = none)
    (hnoise : NoiseLocal env.dec) (h h' : Heap ℝ) (s s' : List ℕ) (hn : s.Nodup)
    (hok : rf env a (h, s) = ((h', s'), none)) :
    ∃ m h1, rfMethod h s a.method = .ok m ∧ ((rfPrep env a (h, s)).andThen qStage) = ((h1, s'), none) ∧
      ∀ p : ℕ → Bool, ∀ r0 ∈ s', (∀ q ∈ s', p q = true ↔ SameRecord env.timeStr h1 q r0) →
        ((s'.filter p).length = 2 ∨ (s'.filter p).length = 3) →
        ∀ N, 1 ≤ N → (∀ q ∈ s'.filter p, (h1 q).data.length = N) →
        ∃ src ∈ s'.filter p, OfComp (rfSource a m) (h1 src) ∧ ∃ (onset : ℝ) (T c : Trace ℝ),
          T.data = (h1 src).data ∧ T.start = (h1 src).start ∧ T.sr = (h1 src).sr ∧
          T.getTime "onset" = some onset ∧ c = dec.taper (dec.trimPad T (onset + w0) (onset + w1)) w2 ∧
          (0 < (h1 src).sr → SnappedOnset (h1 src) onset) ∧
          ∀ (k : ℤ), -w0 * (h1 src).sr = k → (∃ v ∈ c.data, v ≠ 0) →
            (c.data.length % 2 = 1 ∨ (0 < k ∧ k < c.data.length)) →
            ∀ x : ℕ → List ℝ, (∀ r ∈ s'.filter p, (x r).length = N ∧ ConvOf k c.data (x r) (h1 r).data) →
              ∃ f : ℝ, 0 < f ∧
                (∀ r ∈ s'.filter p, ShowsAt m (h1 r) onset ((x r).map (f * ·)) (h' r)) ∧
                (n = .none → f = ∑ i ∈ range c.data.length, c.data.getD i 0 ^ 2) ∧
                (∀ i : ℤ, n = .idx i → ∃ y, getItem ((s'.filter p).map x) i = .ok y ∧
                  maxAbs y = .ok (1 / f)) := by
  have hfunc : "time".toList ≠ "func".toList := by decide
  obtain ⟨m, h1, hm1, hq, hrec⟩ := C145_record env a _ hd hfunc hnoise h h' s s' hn hok
  refine ⟨m, h1, hm1, hq, fun p r0 hr0 hp hlen N hN1 hN => ?_⟩
  obtain ⟨h2, rsp, hdec0, -⟩ := (hrec r0 hr0 p hp).1 hlen
  have hrl : rsp = s'.filter p := deconvolve_all env.dec h1 h2 _ (rfDeconvArgs a m _) rsp hfunc hrsp hdec0
  subst hrl
  have hsub := (C46_membership env a (h, s)).1
  rw [hok] at hsub
  have hns' : (s'.filter p).Nodup := (hsub.nodup hn).filter _
  have hdec := hdec0
  rw [henv] at hdec
  obtain ⟨src, i1, i2, onset, T, c, t1, t2, t3, t4, t5, ⟨t6, t7⟩, hx⟩ :=
    C143_time ka dec h1 h2 (s'.filter p) (rfDeconvArgs a m _) (s'.filter p) w0 w1 w2
      (by unfold rfDeconvArgs; simp only [hwin]) hns' rfl n hnorm hn2 hsolve hsp hl hdec N hN1 hN
  refine ⟨src, i1, i2, onset, T, c, t1, t2, t3, t4, t5, t6, fun k hk hE hw x hc => ?_⟩
  obtain ⟨f, f1, f2, f3, f4⟩ := hx k hk hE hw x hc
  refine ⟨f, f1, fun r hr => ?_, f3, f4⟩
  obtain ⟨u1, u2, u3⟩ := t7 r hr
  obtain ⟨hrs, hrp⟩ := List.mem_filter.1 hr
  have hrr0 := (hp r hrs).1 hrp
  have hp' : ∀ q ∈ s', p q = true ↔ SameRecord env.timeStr h1 q r := fun q hq => by
    rw [hp q hq]
    obtain ⟨c1, x1, x2, c2, c3, c4⟩ := hrr0
    constructor
    · rintro ⟨d1, y1, y2, d2, d3, d4⟩
      rw [c3] at d3
      exact ⟨d1.trans c1.symm, y1, x1, d2, c2, by rw [d4, c4, Option.some.inj d3]⟩
    · rintro ⟨d1, y1, y2, d2, d3, d4⟩
      rw [c2] at d3
      exact ⟨d1.trans c1, y1, x2, d2, c3, by rw [d4, ← c4, Option.some.inj d3]⟩
  obtain ⟨h2', rsp', hdec', hF⟩ := (hrec r hrs p hp').1 hlen
  rw [hdec0] at hdec'
  have e2 : h2 = h2' := congrArg Prod.fst hdec'
  subst e2
  exact finished_shows m (h1 r) (h2 r) (h' r) onset _ hF u1 u2 u3 (f2 r hr)

/-- With a positive water level and a cut source that is not zero the water level method does not fail. -/
theorem deconvolve_water_ok (ka : KernelArgs) (dec : DeconvEnv ℝ) (h : Heap ℝ) (s : List ℕ) (a : DeconvArgs ℝ)
    (src : ℕ) (o : ℝ) (hcha : ∀ r ∈ s, (h r).cha ≠ [])
    (hm : a.method = "waterlevel".toList ∨ a.method = "freq".toList) (hnorm : a.normalize = some .none)
    (hl : ka.lengthW = none) (hwl : 0 < ka.waterlevel)
    (hsrc : onComps h s (some a.srcComps) = [src])
    (h1 : 1 ≤ (onComps h s a.rspComps).length) (h2 : (onComps h s a.rspComps).length ≤ 3)
    (hsr : 0 < (h src).sr) (ho : (h src).getTime "onset" = some o)
    (hin : ∃ j : ℕ, j < (h src).data.length ∧ o ≤ (h src).start + (j : ℝ) / (h src).sr)
    (w0 w1 w2 : ℝ) (hw : a.winsrc = .tuple w0 w1 w2)
    (hcut : ∀ onset (T : Trace ℝ), T.data = (h src).data → T.start = (h src).start → T.sr = (h src).sr →
      ∀ r ∈ onComps h s a.rspComps, ∃ j < ka.nfft.getD (ka.fastLen (h r).data.length),
        (dec.taper (dec.trimPad T (onset + w0) (onset + w1)) w2).data.getD j 0 ≠ 0) :
    ∃ h', deconvolve (withKernels ka dec) h s a = (h', .ok (onComps h s a.rspComps)) := by
  have hk : deconvMethod a.method = some .waterlevel := by rcases hm with e | e <;> rw [e] <;> decide
  obtain ⟨idx, hidx, _⟩ := findNearest_ok (times (h src)) (o - (h src).start)
    (times_sorted (h src) hsr) (by
      obtain ⟨j, hj, hjo⟩ := hin
      refine ⟨_, (mem_times _ _).2 ⟨j, hj, rfl⟩, ?_⟩
      have e : (j : ℝ) * (h src).delta = (j : ℝ) / (h src).sr := by unfold Trace.delta; ring
      rw [e]; linarith)
  have hrsp : onComps h s a.rspComps ≠ [] := by rintro e; rw [e] at h1; simp at h1
  obtain ⟨q, l, hql⟩ := List.exists_cons_of_ne_nil hrsp
  unfold deconvolve
  rw [deconvSelect_eq h s a .waterlevel src hcha hk hsrc h1 h2]
  simp only [ho, hidx, hw, sourceWindow]
  unfold runKernel
  simp only
  have hnk : normKw h a.normalize src (onComps h s a.rspComps) = some .none := by rw [hnorm]; rfl
  set rsp := onComps h s a.rspComps with hrspd
  set onset := (h src).start + (idx : ℝ) * (h src).delta with honset
  set T := snapped h src rsp onset src with hT
  have hq2 : q ∈ rsp := by rw [hql]; exact List.mem_cons_self
  obtain ⟨j, j1, j2⟩ := hcut onset T (snapped_inv (fun t => t.data) (fun _ _ => rfl) h src rsp onset src)
    (snapped_inv (fun t => t.start) (fun _ _ => rfl) h src rsp onset src)
    (snapped_inv (fun t => t.sr) (fun _ _ => rfl) h src rsp onset src) q hq2
  have hdata : ∀ h3 : Heap ℝ, h3 = (if (indexOf? (snapped h src rsp onset) src rsp).isSome then
      snapped h src rsp onset else (snapped h src rsp onset).set src
      (dec.taper (dec.trimPad T (onset + w0) (onset + w1)) w2)) → (h3 q).data = (h q).data := by
    rintro h3 rfl
    have hsn : (snapped h src rsp onset q).data = (h q).data :=
      snapped_inv (fun t => t.data) (fun _ _ => rfl) h src rsp onset q
    split
    · exact hsn
    · rename_i hno
      rw [Heap.set_ne]
      · exact hsn
      · rintro rfl
        apply hno
        unfold indexOf?
        rw [List.findIdx?_isSome]
        simp only [List.any_eq_true, Bool.or_eq_true, decide_eq_true_eq]
        exact ⟨q, hq2, Or.inl rfl⟩
  obtain ⟨h3, hh3⟩ : ∃ h3 : Heap ℝ, h3 = (if (indexOf? (snapped h src rsp onset) src rsp).isSome then
      snapped h src rsp onset else (snapped h src rsp onset).set src
      (dec.taper (dec.trimPad T (onset + w0) (onset + w1)) w2)) := ⟨_, rfl⟩
  have hq3 := hdata h3 hh3
  obtain ⟨rf, hrf, hlen⟩ := C15_succeeds ka.fastLen (rsp.map fun r => (h3 r).data)
    (dec.taper (dec.trimPad T (onset + w0) (onset + w1)) w2).data (h src).sr ka.waterlevel (-w0) ka.gaussW
    none ka.nfft (h q).data.length (by rw [hql]; simp [outLen, hq3]) (by omega) hsr.ne' hwl ⟨j, j1, j2⟩
  refine finish_total _ _ _ (rf.map (fun x => setData (x.map Complex.re))) ?_ (by simpa using hlen)
  show (waterKernel ka _ _ _ _ _).map _ = _
  unfold waterKernel
  rw [hnk, hl]
  simp only [Option.getD_some]
  have e : ∀ x, x = Except.ok (ε := PyErr) rf → ((x.map (·.map (·.map Complex.re))).map (·.map setData)) =
      .ok (rf.map (fun x => setData (K := ℝ) (x.map Complex.re))) := by
    rintro x rfl
    simp only [Except.map, List.map_map]
    rfl
  subst hh3
  exact e _ hrf

section examples

/-- A pulse `[2, 1]` on L and a converted pulse with half the amplitude two samples later on Q. -/
noncomputable def convHeap : Heap ℝ := fun r =>
  { net := "XX".toList, sta := "A".toList, loc := [], cha := if r = 0 then "BHL".toList else "BHQ".toList,
    start := 100, sr := 1, data := if r = 0 then [2, 1, 0, 0, 0] else [-0, -0, -1, -(1 / 2), -0],
    ext := [("onset", .time 100), ("phase", .str "P".toList)] }

noncomputable def convKernels : KernelArgs :=
  { solve := uniqueSolve, spiking := 1, lengthT := none, fastLen := id, waterlevel := 1 / 20, gaussW := none,
    lengthW := none, nfft := none, gaussI := 1 / 2, itmax := 400, minderr := 1 / 1000, muteShift := false,
    mt := { tapers := fun n k => (List.replicate k (List.replicate n 1), List.replicate k 1), detrend := lineDetrend },
    gaussM := some (1 / 2), tapers := 3, taperLength := 10, olap := 3 / 4 }

/-- The source window is cut after two samples. -/
noncomputable def convDec : DeconvEnv ℝ :=
  { trimPad := fun t _ _ => { t with data := t.data.take 2 }, taper := fun t _ => t, noise := fun _ _ _ _ => .ok [],
    time := fun _ _ _ _ => .ok [], water := fun _ _ _ _ _ => .ok [], iter := fun _ _ _ _ _ => .ok [],
    mt := fun _ _ _ _ _ _ => .ok [], func := fun h r _ _ _ => (h, .ok r) }

noncomputable def convEnv : RfEnv ℝ :=
  { filter := fun t => .ok t, trim := fun t _ _ => .ok t, decimate := fun _ t => .ok t, rotate := fun _ h _ => (h, none),
    timeStr := fun _ => [], dec := withKernels convKernels convDec, infoDec := [], infoRf := [] }

noncomputable def convArgs (m : Str) : RfArgs ℝ :=
  { method := some m, rotate := none, deconvolve := some "waterlevel".toList, srcComps := some "L".toList,
    winsrc := some (.tuple 0 1 0), normalize := some .none }

theorem conv_prep (m : Str) : (rfPrep convEnv (convArgs m) (convHeap, [0, 1])).andThen qStage =
    ((Heap.forEach negQ convHeap [0, 1], [0, 1]), none) := rfl

theorem conv_iter : iter3c convEnv.timeStr (Heap.forEach negQ convHeap [0, 1]) [0, 1] = .ok [[0, 1]] := by
  decide +kernel

theorem conv_deconvolve (m : Str) : ∃ h', deconvolve (withKernels convKernels convDec)
    (Heap.forEach negQ convHeap [0, 1]) [0, 1] (rfDeconvArgs (convArgs m) m "waterlevel".toList) = (h', .ok [0, 1]) := by
  refine deconvolve_water_ok convKernels convDec _ [0, 1] (rfDeconvArgs (convArgs m) m "waterlevel".toList) 0 100 ?_
    (Or.inl rfl) rfl rfl (by norm_num [convKernels]) ?_ (by show 1 ≤ 2; decide) (by show 2 ≤ 3; decide) ?_ rfl ?_
    0 1 0 rfl ?_
  · decide +kernel
  · show onComps (Heap.forEach negQ convHeap [0, 1]) [0, 1] (some "L".toList) = [0]
    decide +kernel
  · show (0 : ℝ) < 1
    exact one_pos
  · refine ⟨0, by show 0 < 5; decide, ?_⟩
    show (100 : ℝ) ≤ 100 + ((0 : ℕ) : ℝ) / 1
    norm_num
  · intro onset T h1 _ _ r hr
    refine ⟨0, ?_, ?_⟩
    · have : ∀ r : ℕ, ((Heap.forEach negQ convHeap [0, 1]) r).data.length = 5 := by
        intro r
        rcases r with _ | _ | r <;> rfl
      rw [this]
      decide
    · have : (convDec.taper (convDec.trimPad T (onset + 0) (onset + 1)) 0).data = T.data.take 2 := rfl
      rw [this, h1]
      show (2 : ℝ) ≠ 0
      norm_num

theorem conv_rf : ∃ h', rf convEnv (convArgs "S".toList) (convHeap, [0, 1]) = ((h', [0, 1]), none) := by
  obtain ⟨h2, hd⟩ := conv_deconvolve "S".toList
  have hb : rfBefore convEnv (convArgs "S".toList) "S".toList (convHeap, [0, 1]) =
      ((addInfoAll [] h2 [0, 1], [0, 1]), none) := by
    have hc : deconvolveCall convEnv (rfDeconvArgs (convArgs "S".toList) "S".toList "waterlevel".toList)
        (Heap.forEach negQ convHeap [0, 1]) [0, 1] = (addInfoAll [] h2 [0, 1], none) := by
      unfold deconvolveCall
      rw [show convEnv.dec = withKernels convKernels convDec from rfl, hd]
      rfl
    unfold rfBefore
    rw [conv_prep]
    simp only [SRes.andThen]
    unfold deconvolveStage
    rw [show (convArgs "S".toList).deconvolve = some "waterlevel".toList from rfl]
    simp only
    unfold forGroups
    rw [conv_iter]
    simp only [groupBody, hc]
  have hon : ∀ r ∈ [0, 1], ∃ o, (addInfoAll [] h2 [0, 1] r).getTime "onset" = some o := by
    intro r hr
    obtain ⟨src, i1, i2, onset, T, c, nrm, t1, t2, t3, t4, t5, t6, ⟨t7, t8⟩, -⟩ := C86_kernel_call
      (withKernels convKernels convDec) _ _ _ _ _ 0 1 0 rfl (by decide) (by decide) hd
    refine ⟨onset, ?_⟩
    rw [← (t8 r hr).1]
    unfold Trace.getTime
    rw [(addInfoAll_eqBut [] h2 [0, 1] r).ext "onset" (by decide)]
  have hph : ∀ r ∈ [0, 1], (addInfoAll [] h2 [0, 1] r).ext.get "phase" = some (.str "P".toList) := by
    intro r hr
    rw [(addInfoAll_eqBut [] h2 [0, 1] r).ext "phase" (by decide)]
    have := deconvolve_phase (withKernels convKernels convDec) ⟨fun _ _ _ => rfl, fun _ _ => rfl⟩
      (rfDeconvArgs (convArgs "S".toList) "S".toList "waterlevel".toList) (by decide)
      (Heap.forEach negQ convHeap [0, 1]) [0, 1] r
    rw [hd] at this
    rw [this]
    simp only [List.mem_cons, List.not_mem_nil, or_false] at hr
    rcases hr with rfl | rfl <;> rfl
  obtain ⟨h5, m1, m2, m3⟩ := mirrorLoop_ok (addInfoAll [] h2 [0, 1]) [0, 1] (by decide) hon
  have hmir : mirrorStage "S".toList (addInfoAll [] h2 [0, 1], [0, 1]) = ((h5, [0, 1]), none) := by
    unfold mirrorStage
    rw [if_pos rfl]
    simp only [m1]
  have hph5 : ∀ r ∈ [0, 1], (h5 r).ext.get "phase" = some (.str "P".toList) := by
    intro r hr
    obtain ⟨o, ho⟩ := hon r hr
    rw [m3 r hr o ho, ← hph r hr]
    unfold mirrorTrace
    rw [put_get, if_neg (by decide)]
  obtain ⟨st', hl⟩ := labelStage_ok "S".toList (h5, [0, 1]) _
    (streamMethod_const h5 [0, 1] "P".toList (by decide) (by decide) hph5)
  have hs := labelStage_traces "S".toList (h5, [0, 1])
  rw [hl] at hs
  simp only at hs
  refine ⟨addInfoAll convEnv.infoRf st'.1 st'.2, ?_⟩
  rw [rf_intro convEnv (convArgs "S".toList) "S".toList rfl (Or.inr rfl) _ _ _ _ hb hmir hl, hs]

theorem conv_copies : CopiesOf 0 5 [2, 1] [0, 0, 1 / 2, 0, 0] [0, 0, 1, 1 / 2, 0] := by
  refine ⟨fun n => ?_, rfl, rfl, fun l hl h0 => ?_⟩
  · simp only [List.length_cons, List.length_nil, sum_range_succ, sum_range_zero]
    by_cases h0 : n < 0
    · rw [sig_neg _ _ h0]
      simp only [List.getD_cons_zero, List.getD_cons_succ, zero_mul, zero_add, add_zero, one_mul]
      rw [sig_neg _ (n - ((1 + 1 : ℕ) : ℤ)) (by push_cast; omega)]
      simp
    · obtain ⟨m, rfl⟩ := Int.eq_ofNat_of_zero_le (not_lt.1 h0)
      rcases m with _ | _ | _ | _ | _ | m <;> simp [sig]
      rw [if_pos (by omega), if_pos (by omega), List.getElem?_eq_none (by simp; omega),
        List.getElem?_eq_none (by simp; omega)]
      simp
  · have : l = 0 ∨ l = 1 ∨ l = 2 ∨ l = 3 ∨ l = 4 := by omega
    rcases this with rfl | rfl | rfl | rfl | rfl <;> simp at h0 ⊢

/-- C146 for S at work: the S receiver function of the example shows the conversion with amplitude 1/2 two seconds
before its onset. -/
example : ∃ h' o, rf convEnv (convArgs "S".toList) (convHeap, [0, 1]) = ((h', [0, 1]), none) ∧
    (h' 1).getTime "onset" = some o ∧ SampleAtLag (h' 1) o (-2) (1 / 2) := by
  obtain ⟨h', hok⟩ := conv_rf
  obtain ⟨m, h1, hm, hp, hx⟩ := C146_waterlevel convEnv convKernels convDec rfl (convArgs "S".toList) _ rfl (Or.inl rfl)
    rfl 0 1 0 rfl rfl rfl rfl (fun _ _ _ _ _ _ _ => rfl) convHeap h' [0, 1] [0, 1] (by decide) hok
  have hm' : m = "S".toList := by
    have : rfMethod convHeap [0, 1] (convArgs "S".toList).method = .ok "S".toList := by decide +kernel
    rw [this] at hm
    exact (Except.ok.inj hm).symm
  subst hm'
  rw [conv_prep] at hp
  have hh1 : h1 = Heap.forEach negQ convHeap [0, 1] := by
    simp only [Prod.mk.injEq, and_true] at hp
    exact hp.symm
  subst hh1
  obtain ⟨src, i1, i2, onset, T, c, t1, t2, t3, t4, t5, t6, hy⟩ := hx (fun _ => true) 1 (by decide) (by
      intro q hq
      refine ⟨fun _ => ?_, fun _ => rfl⟩
      simp only [List.mem_cons, List.not_mem_nil, or_false] at hq
      rcases hq with rfl | rfl <;> exact ⟨rfl, 100, 100, rfl, rfl, rfl⟩)
    (Or.inl rfl) 5 (by
      intro q hq
      simp only [List.filter_true, List.mem_cons, List.not_mem_nil, or_false] at hq
      rcases hq with rfl | rfl <;> rfl) (by decide)
  have hsrc : src = 0 := by
    simp only [List.filter_true, List.mem_cons, List.not_mem_nil, or_false] at i1
    rcases i1 with rfl | rfl
    · rfl
    · exact absurd i2 (by decide +kernel)
  subst hsrc
  have hc : c.data = [2, 1] := by
    rw [t5]
    show T.data.take 2 = _
    rw [t1]
    rfl
  have honset : onset = 100 := by
    obtain ⟨o, i, o1, o2, o3, o4⟩ := t6 (show (0 : ℝ) < 1 from one_pos)
    have ho : o = 100 := by
      have : some (100 : ℝ) = some o := o1
      exact (Option.some.inj this).symm
    have h5 := o4 0 (show 0 < 5 by decide)
    have h6 : |o - onset| ≤ |o - (100 + ((0 : ℕ) : ℝ) / 1)| := h5
    rw [ho] at h6
    norm_num at h6
    linarith
  have hdat : ((Heap.forEach negQ convHeap [0, 1]) 1).data = [0, 0, 1, 1 / 2, 0] := by
    show [-(-(0 : ℝ)), -(-0), -(-1), -(-(1 / 2)), -(-0)] = _
    norm_num
  have hS := hy 0 (by simp) (show (1 : ℝ) ≠ 0 by norm_num) (by rw [hc]; exact two_one_above _ (by decide))
    [0, 0, 1 / 2, 0, 0] (by rw [hc, hdat]; exact conv_copies)
  obtain ⟨o, o1, o2, o3⟩ := hS
  refine ⟨h', o, hok, o1, ?_⟩
  have := o3 2 (1 / 2) rfl
  have e : lagSign "S".toList * ((Heap.forEach negQ convHeap [0, 1] 1).start +
      ((2 : ℕ) : ℝ) / (Heap.forEach negQ convHeap [0, 1] 1).sr - onset) = -2 := by
    unfold lagSign
    rw [if_pos rfl, honset]
    show -1 * ((100 : ℝ) + ((2 : ℕ) : ℝ) / 1 - 100) = -2
    norm_num
  rw [e] at this
  exact this

end examples
end Verif.Props
