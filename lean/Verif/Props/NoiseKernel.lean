import Verif.Props.Noise

/-!
# C190: the multitaper method with the noise of the record: when it works
-/

set_option linter.unusedSimpArgs false
set_option linter.unusedSectionVars false

namespace Verif.Props
open Verif.Py Verif.Model Verif.Spec

theorem getItem_ok_lt {α : Type} (l : List α) (c : ℕ) (x : α) (h : getItem l (c : ℤ) = .ok x) : c < l.length := by
  by_contra hc
  rw [getItem_ge l c (by omega)] at h
  cases h

theorem mtComp_length (env : MtEnv) (nft ntap nwav : ℕ) (dt ofac tshift : ℝ) (gauss : Option ℝ) (taps : List (List ℝ))
    (el : List ℝ) (S : List (List ℂ)) (dat nos x : List ℝ)
    (h : mtComp env nft ntap nwav dt ofac tshift gauss taps el S dat nos = .ok x) : x.length = nft := by
  unfold mtComp at h
  simp only [bind, Except.bind] at h
  split at h
  · cases h
  split at h
  · cases h
  split at h
  · cases h
  split at h
  · cases h
  split at h
  · cases h
  split at h
  · cases h
  · cases h
    exact mtOut_length _ _ _ _ _

open Classical in
/-- The normalisation comes last. -/
theorem deconvMt_normalize (env : MtEnv) (rsp : List (List ℝ)) (src : List ℝ) (nse : List (List ℝ)) (sr tshift : ℝ)
    (gauss : Option ℝ) (K : ℕ) (T olap : ℝ) (i : ℤ) :
    deconvMultitaper env rsp src nse sr tshift gauss K T olap (some i) =
      (deconvMultitaper env rsp src nse sr tshift gauss K T olap none).bind fun rf =>
        (getItem rf i).bind fun x => (maxAbsR x).bind fun m =>
          if m = 0 then .error .other else .ok (rf.map (·.map (· * (1 / m)))) := by
  unfold deconvMultitaper
  simp only [bind]
  cases getItem rsp 0 with
  | error e => rfl
  | ok r0 =>
    simp only [Except.bind]
    split
    · rfl
    cases getItem nse 0 with
    | error e => rfl
    | ok n0 =>
      simp only
      split
      · rfl
      split
      · rfl
      split
      · rfl
      split
      · rfl
      cases mtPad r0.length (env.detrend src) with
      | error e => rfl
      | ok pad =>
        simp only
        split
        · rfl
        split
        · rfl
        split
        · rfl
        · rfl

/-- One array per response, each as long as the first response; there is noise for all responses. -/
theorem deconvMt_shape (env : MtEnv) (rsp : List (List ℝ)) (src : List ℝ) (nse : List (List ℝ)) (sr tshift : ℝ)
    (gauss : Option ℝ) (K : ℕ) (T olap : ℝ) (rf : List (List ℝ))
    (h : deconvMultitaper env rsp src nse sr tshift gauss K T olap none = .ok rf) :
    rf.length = rsp.length ∧ rsp.length ≤ nse.length ∧ ∀ x ∈ rf, src.length < x.length := by
  unfold deconvMultitaper at h
  simp only [bind, Except.bind] at h
  split at h
  · cases h
  rename_i r0 hr0
  split at h
  · cases h
  rename_i hlen
  split at h
  · cases h
  split at h
  · cases h
  split at h
  · cases h
  split at h
  · cases h
  split at h
  · cases h
  split at h
  · cases h
  split at h
  · cases h
  split at h
  · cases h
  split at h
  · cases h
  rename_i rf' hm
  cases h
  obtain ⟨h1, h2⟩ := mapM_ok _ _ _ hm
  rw [List.length_range] at h1
  have h3 : ∀ c, c < rsp.length → c < nse.length ∧ ∃ x, rf[c]? = some x ∧ x.length = r0.length := by
    intro c hc
    obtain ⟨y, h4, h5⟩ := h2 c c (by rw [List.getElem?_range hc])
    split at h4
    · cases h4
    rename_i nos hnos
    exact ⟨getItem_ok_lt nse c nos hnos, y, h5, mtComp_length _ _ _ _ _ _ _ _ _ _ _ _ _ _ h4⟩
  refine ⟨h1, ?_, fun x hx => ?_⟩
  · by_contra hc
    exact absurd (h3 nse.length (by omega)).1 (by omega)
  · obtain ⟨c, hc⟩ := List.mem_iff_getElem?.1 hx
    have : c < rf.length := (List.getElem?_eq_some_iff.1 hc).1
    obtain ⟨-, y, h4, h5⟩ := h3 c (by omega)
    rw [hc] at h4
    cases h4
    omega

theorem mtKernel_noise (ka : KernelArgs) (rd : List (List ℝ)) (src : List ℝ) (nse : List (List ℝ)) (sr ts : ℝ)
    (n : Option Norm) (rf : List (List ℝ)) (h : mtKernel ka rd src nse sr ts n = .ok rf) : rd.length ≤ nse.length := by
  have key : ∀ i rf, deconvMultitaper ka.mt rd src nse sr ts ka.gaussM ka.tapers ka.taperLength ka.olap i = .ok rf →
      rd.length ≤ nse.length := by
    intro i rf h
    cases i with
    | none => exact (deconvMt_shape _ _ _ _ _ _ _ _ _ _ _ h).2.1
    | some i =>
      rw [deconvMt_normalize] at h
      cases h1 : deconvMultitaper ka.mt rd src nse sr ts ka.gaussM ka.tapers ka.taperLength ka.olap none with
      | error e => rw [h1] at h; cases h
      | ok rf' => exact (deconvMt_shape _ _ _ _ _ _ _ _ _ _ _ h1).2.1
  unfold mtKernel at h
  split at h
  · simp only [Except.bind] at h
    split at h <;> cases h
  · exact key _ _ h

/-- **C190**, with the multitaper function of the package: every response is deconvolved with the noise of its own
trace; a response without noise makes the method fail. -/
theorem C190_own (trim : Trace ℝ → TArg ℝ → TArg ℝ → Res (Trace ℝ))
    (hcha : ∀ t a b t', trim t a b = .ok t' → t'.cha = t.cha) (ka : KernelArgs) (dec : DeconvEnv ℝ)
    (hcha2 : ∀ t a b x, (dec.taper (dec.trimPad t a b) x).cha = t.cha) (h h' : Heap ℝ)
    (s : List Nat) (a : DeconvArgs ℝ) (l : List Nat) (hn : s.Nodup) (hm : a.method = "multitaper".toList)
    (hd : deconvolve (withNoise trim (withKernels ka dec)) h s a = (h', .ok l)) :
    l = onComps h s a.rspComps ∧ ∃ src srcT w0 nrm onset r0 rest rf, l = r0 :: rest ∧
      (∀ r ∈ l, (h' r).getTime "onset" = some onset) ∧ ∃ cut : Nat → Trace ℝ,
        (∀ r ∈ l, trim ((h r).put "onset" (.time onset)) (.utc (h r0).start) (.utc (onset - 5)) = .ok (cut r) ∧
          (cut r).data ≠ []) ∧
        mtKernel ka (l.map fun r => (h r).data) srcT (l.map fun r => (cut r).data) (h src).sr w0 nrm = .ok rf ∧
        Results h' l rf := by
  obtain ⟨e, src, srcT, w0, nrm, onset, r0, rest, nse, rf, h1, h2, h3, h4, cut, h5, h6⟩ :=
    C190_noise trim hcha (withKernels ka dec) hcha2 h h' s a l hn hm hd
  have h7 := mtKernel_noise ka _ _ _ _ _ _ _ h3
  have h8 : ∀ r ∈ l, (cut r).npts ≠ 0 := by
    rw [h6, List.length_map, List.length_map] at h7
    have := List.filter_sublist (l := l) (p := fun r => decide ((cut r).npts ≠ 0))
    have h9 := this.eq_of_length_le h7
    intro r hr
    rw [← h9] at hr
    simpa using (List.mem_filter.1 hr).2
  have h9 : nse = l.map fun r => (cut r).data := by
    rw [h6, List.filter_eq_self.2 fun r hr => by simpa using h8 r hr]
  rw [h9] at h3
  exact ⟨e, src, srcT, w0, nrm, onset, r0, rest, rf, h1, h2, cut, fun r hr => ⟨h5 r hr, fun h0 => h8 r hr (by
    unfold Trace.npts; rw [h0]; rfl)⟩, h3, h4⟩

section early
variable {K : Type} [Field K] [LinearOrder K] [IsStrictOrderedRing K] [FloorRing K]

/-- **C190**: the onset (at the nearest sample) is less than 5 s after the start of the record: `ValueError`, whatever the
samples and the options. -/
theorem C190_early (trim : Trace K → TArg K → TArg K → Res (Trace K))
    (htrim : ∀ t x y, y < x → trim t (.utc x) (.utc y) = .error .valueError) (dec : DeconvEnv K) (h : Heap K)
    (s : List Nat) (a : DeconvArgs K) (src : Nat) (o : K) (hcha : ∀ r ∈ s, (h r).cha ≠ [])
    (hsrc : onComps h s (some a.srcComps) = [src]) (h3 : s.length ≤ 3) (hrc : a.rspComps = none)
    (hm : a.method = "multitaper".toList) (hw : ∀ l, a.winsrc = .letter l → l = "P".toList ∨ l = "S".toList)
    (ho : (h src).getTime "onset" = some o) (idx : ℕ)
    (hidx : findNearest (times (h src)) (o - (h src).start) = .ok idx)
    (hearly : ∀ r ∈ s, (h src).start + (idx : K) * (h src).delta < (h r).start + 5) :
    (deconvolve (withNoise trim dec) h s a).2 = .error .valueError := by
  have hsmem : src ∈ s := by
    have : src ∈ onComps h s (some a.srcComps) := by rw [hsrc]; simp
    exact (onComps_sublist h s _).subset this
  have hne : s ≠ [] := List.ne_nil_of_mem hsmem
  have hlen : 1 ≤ s.length := List.length_pos_iff.2 hne
  have hsel := deconvSelect_eq h s a .multitaper src hcha (by rw [hm]; decide) hsrc (by rw [hrc]; exact hlen)
    (by rw [hrc]; exact h3)
  rw [hrc] at hsel
  rcases hd : deconvolve (withNoise trim dec) h s a with ⟨h', res⟩
  unfold deconvolve at hd
  rw [hsel] at hd
  simp only [ho, hidx] at hd
  generalize hon : (h src).start + (idx : K) * (h src).delta = onset at hd hearly
  obtain ⟨w0, w1, w2, hwin⟩ : ∃ w0 w1 w2, sourceWindow .multitaper a.winsrc ((h src).endtime - (h src).start)
      (onset - (h src).start) = .ok (w0, w1, w2) := by
    unfold sourceWindow
    split
    · exact ⟨_, _, _, rfl⟩
    · rename_i l hl
      rcases hw l hl with rfl | rfl
      · exact ⟨-10, 30, 5, rfl⟩
      · exact ⟨-10, 30, 5, rfl⟩
  rw [hwin] at hd
  simp only at hd
  generalize hT : (withNoise trim dec).taper _ w2 = srcT at hd
  have hd : runKernel (withNoise trim dec) .multitaper (if (indexOf? (snapped h src s onset) src s).isSome then
      snapped h src s onset else (snapped h src s onset).set src srcT) s s a.rspComps srcT (h src).sr (-w0)
      (normKw h a.normalize src s) = (h', res) := hd
  generalize hH : (if (indexOf? (snapped h src s onset) src s).isSome then
      snapped h src s onset else (snapped h src s onset).set src srcT) = H at hd
  have hHr : ∀ r ∈ s, H r = (h r).put "onset" (.time onset) := fun r hr => by
    rw [← hH]; exact kernelHeap_rsp h src s onset srcT r hr
  obtain ⟨r0, rest, hs⟩ := List.exists_cons_of_ne_nil hne
  have hnoise : (withNoise trim dec).noise H s s a.rspComps = .error .valueError := by
    show preEventNoise trim H s s a.rspComps = _
    have hr0 : r0 ∈ s := by rw [hs]; exact List.mem_cons_self
    have hg : ((h r0).put "onset" (.time onset)).getTime "onset" = some onset := by
      unfold Trace.getTime Trace.put
      simp only [Dict.get_set_self]
    have hg2 : ((h r0).put "onset" (.time onset)).ext.get "onset" = some (.time onset) := by
      unfold Trace.put; simp only [Dict.get_set_self]
    have hst : ((h r0).put "onset" (.time onset)).start = (h r0).start := rfl
    have hc : cutTrace trim (.sec (-(onset - (h r0).start))) (.sec (-5)) (.key "onset") (H r0) = .error .valueError := by
      rw [hHr r0 hr0]
      unfold cutTrace
      simp only [seconds2utc, statsTime, hg2, show ¬ "onset" = "starttime" by decide,
        show ¬ "onset" = "endtime" by decide, if_false]
      refine htrim _ _ _ ?_
      have := hearly r0 hr0
      linarith
    rw [hs]
    unfold preEventNoise trim2
    simp only
    rw [hHr r0 hr0, hg, hst]
    simp only
    unfold Heap.forEachE
    rw [hc]
  unfold runKernel at hd
  simp only [hnoise, Except.bind, Except.map, finish] at hd
  simp only [Prod.mk.injEq] at hd
  exact hd.2.symm

end early

/-- The noise of a record whose traces cover the same time span: the first `n` samples of each trace. -/
theorem noise_nearest (h : Heap ℝ) (s : List Nat) (rc : Option Str) (hrc : rc = none) (hn : s.Nodup) (hne : s ≠ []) (T0 sr : ℝ) (N : ℕ)
    (onset : ℝ) (hs : ∀ r ∈ s, (h r).start = T0 ∧ (h r).sr = sr ∧ (h r).data.length = N ∧
      (h r).ext.get "onset" = some (.time onset)) (n : ℕ) (hnn : n = (⌊(onset - 5 - T0) * sr + 1 / 2⌋ + 1).toNat)
    (h5 : T0 + 5 ≤ onset) (hsr : 0 < sr) (hN : 0 < N) :
    preEventNoise nearestTrim h s s rc = .ok (s.map fun r => (h r).data.take n) := by
  subst hrc
  obtain ⟨r0, rest, hs0⟩ := List.exists_cons_of_ne_nil hne
  have hr0 : r0 ∈ s := by rw [hs0]; exact List.mem_cons_self
  have hn1 : 1 ≤ n := by
    have : (0 : ℤ) ≤ ⌊(onset - 5 - T0) * sr + 1 / 2⌋ := by
      rw [Int.floor_nonneg]
      have : 0 ≤ (onset - 5 - T0) * sr := mul_nonneg (by linarith) hsr.le
      linarith
    omega
  have hg : ∀ r ∈ s, (h r).getTime "onset" = some onset := by
    intro r hr
    unfold Trace.getTime
    rw [(hs r hr).2.2.2]
  have hc : ∀ r ∈ s, cutTrace nearestTrim (.sec (-(onset - T0))) (.sec (-5)) (.key "onset") (h r) =
      .ok (samplesOf 0 n (h r)) := by
    intro r hr
    obtain ⟨k1, k2, k3, k4⟩ := hs r hr
    unfold cutTrace
    simp only [seconds2utc, statsTime, k4, show ¬ "onset" = "starttime" by decide,
      show ¬ "onset" = "endtime" by decide, if_false, nearestTrim, k1, k2]
    rw [show onset + -(onset - T0) - T0 = 0 by ring, show onset + -5 - T0 = onset - 5 - T0 by ring,
      if_neg (by linarith), zero_mul, zero_add]
    have : ⌊(1 / 2 : ℝ)⌋.toNat = 0 := by
      rw [Int.floor_eq_zero_iff.2 ⟨by norm_num, by norm_num⟩]; rfl
    rw [this, hnn]
    rfl
  have hfe := (forEachE_ok_iff (cutTrace nearestTrim (.sec (-(onset - T0))) (.sec (-5)) (.key "onset")) h
    (fun r => if r ∈ s then samplesOf 0 n (h r) else h r) s hn).2
    ⟨fun r hr => by simp only [if_pos hr]; exact hc r hr, fun r hr => by simp only [if_neg hr]⟩
  have hfil : s.filter (fun r => (if r ∈ s then samplesOf 0 n (h r) else h r).npts ≠ 0) = s := by
    rw [List.filter_eq_self]
    intro r hr
    rw [if_pos hr, npts_samplesOf]
    have : (h r).npts = N := (hs r hr).2.2.1
    rw [this]
    simp; omega
  have hpre : preEventNoise nearestTrim h s s none = match (h r0).getTime "onset" with
      | none => .error .attributeError
      | some o =>
        match trim2 nearestTrim (.sec (-(o - (h r0).start))) (.sec (-5)) (.key "onset") (h, s) with
        | (_, some e) => .error e
        | ((h1, s1), none) => (selectRsp h1 none s1).map (·.map fun r => (h1 r).data) := by
    conv_lhs => unfold preEventNoise
    rw [hs0]
    simp only
    cases (h r0).getTime "onset" with
    | none => rfl
    | some o =>
      simp only
      rcases trim2 nearestTrim (.sec (-(o - (h r0).start))) (.sec (-5)) (.key "onset") (h, r0 :: rest) with
        ⟨⟨h1, s1⟩, _ | e⟩ <;> rfl
  rw [hpre, hg r0 hr0]
  simp only
  rw [(hs r0 hr0).1]
  unfold trim2
  simp only
  rw [hfe]
  simp only
  rw [hfil]
  simp only [selectRsp, Except.map]
  congr 1
  refine List.map_congr_left fun r hr => ?_
  rw [if_pos hr]
  show ((h r).data.drop 0).take n = _
  rw [List.drop_zero]

/-- **C190, partial**: when the multitaper method with the default window and the noise of the record does not fail.  All
components are responses and cover the same time span; the onset is 5 s, a step between two tapers and a sample after
the start; the record is longer than the source window plus the overlapping part of a taper.  Only divisions of the
spectra by zero remain (NaN in the code). -/
theorem C190_works_partial (ka : KernelArgs) (hmt : Shaped ka.mt) (dec : DeconvEnv ℝ) (h : Heap ℝ) (s : List Nat)
    (a : DeconvArgs ℝ) (src : Nat) (hn : s.Nodup) (hcha : ∀ r ∈ s, (h r).cha ≠ [])
    (hsrc : onComps h s (some a.srcComps) = [src]) (h3 : s.length ≤ 3) (hrc : a.rspComps = none)
    (hm : a.method = "multitaper".toList) (hw : a.winsrc = .letter "P".toList ∨ a.winsrc = .letter "S".toList)
    (hnorm : a.normalize = none) (T0 sr o : ℝ) (N L ntap : ℕ)
    (hs : ∀ r ∈ s, (h r).start = T0 ∧ (h r).sr = sr ∧ (h r).data.length = N) (hsr : 0 < sr)
    (ho : (h src).getTime "onset" = some o) (hend : (o - T0) * sr ≤ (N : ℝ) - 1)
    (hL : ∀ t x y, (dec.taper (dec.trimPad t x y) 5).data.length = L)
    (hnt : pyRound (ka.taperLength / (1 / sr)) = ntap) (hnt0 : 0 < ntap) (hol1 : ka.olap < 1)
    (hstart : ntap * (1 - ka.olap) + 1 ≤ (o - T0 - 5) * sr)
    (hL1 : (L : ℝ) + ka.olap * ntap ≤ N) (hLN : L < N) (hL2 : ntap * (1 - ka.olap) ≤ (L : ℝ))
    (hN2 : 2 * (ntap * (1 - ka.olap)) ≤ (N : ℝ)) (e : PyErr)
    (he : (deconvolve (withNoise nearestTrim (withKernels ka dec)) h s a).2 = .error e) : e = .other := by
  have hsmem : src ∈ s := by
    have : src ∈ onComps h s (some a.srcComps) := by rw [hsrc]; simp
    exact (onComps_sublist h s _).subset this
  have hne : s ≠ [] := List.ne_nil_of_mem hsmem
  have hlen : 1 ≤ s.length := List.length_pos_iff.2 hne
  have hsel := deconvSelect_eq h s a .multitaper src hcha (by rw [hm]; decide) hsrc (by rw [hrc]; exact hlen)
    (by rw [hrc]; exact h3)
  rw [hrc, hnorm] at hsel
  obtain ⟨k1, k2, k3⟩ := hs src hsmem
  have hntpos : (0 : ℝ) ≤ ntap * (1 - ka.olap) := mul_nonneg (Nat.cast_nonneg _) (by linarith)
  -- the onset at a sample
  have hpos : 0 ≤ (h src).delta := by unfold Trace.delta; rw [k2]; positivity
  have hdel : (h src).delta = 1 / sr := by unfold Trace.delta; rw [k2]
  have hmem : ∀ j : ℕ, j < N → (j : ℝ) * (h src).delta ∈ times (h src) := fun j hj =>
    (mem_times _ _).2 ⟨j, by rw [show (h src).npts = N from k3]; exact hj, rfl⟩
  have hv0 : 0 ≤ (o - T0) * sr := by
    have : (o - T0 - 5) * sr ≤ (o - T0) * sr := by nlinarith
    linarith
  have hceil : ⌈(o - T0) * sr⌉.toNat < N := by
    have h1 : ⌈(o - T0) * sr⌉ ≤ (N : ℤ) - 1 := by
      rw [Int.ceil_le]; push_cast; exact hend
    have h2 : 0 ≤ ⌈(o - T0) * sr⌉ := Int.ceil_nonneg hv0
    omega
  have hcast : ((⌈(o - T0) * sr⌉.toNat : ℕ) : ℝ) = (⌈(o - T0) * sr⌉ : ℤ) := by
    have h2 : 0 ≤ ⌈(o - T0) * sr⌉ := Int.ceil_nonneg hv0
    rw [← Int.cast_natCast, Int.toNat_of_nonneg h2]
  have hle := Int.le_ceil ((o - T0) * sr)
  have hlt := Int.ceil_lt_add_one ((o - T0) * sr)
  obtain ⟨idx, hidx, x, hx, hmin⟩ := findNearest_ok (times (h src)) (o - (h src).start)
    (times_sorted (h src) (by rw [k2]; exact hsr))
    ⟨_, hmem _ hceil, by
      rw [hdel, k1, hcast]
      rw [mul_one_div, le_div_iff₀ hsr]
      exact hle⟩
  obtain ⟨hidxN, hxe⟩ := times_get _ _ _ hx
  have hbound : (o - T0) * sr - 1 < (idx : ℝ) := by
    have h1 := hmin _ (hmem _ hceil)
    rw [hxe, hdel, k1, hcast] at h1
    have e1 : ∀ z : ℝ, o - T0 - z * (1 / sr) = ((o - T0) * sr - z) / sr := by intro z; field_simp
    rw [e1, e1, abs_div, abs_div, abs_of_pos hsr, div_le_div_iff_of_pos_right hsr] at h1
    have h2 : |(o - T0) * sr - (⌈(o - T0) * sr⌉ : ℤ)| < 1 := by
      rw [abs_lt]; constructor <;> linarith
    have h3 := (abs_lt.1 (h1.trans_lt h2)).2
    linarith
  rcases hd : deconvolve (withNoise nearestTrim (withKernels ka dec)) h s a with ⟨h', res⟩
  rw [hd] at he
  unfold deconvolve at hd
  rw [hsel] at hd
  simp only [ho, hidx] at hd
  generalize hon : (h src).start + (idx : ℝ) * (h src).delta = onset at hd
  have hons : onset = T0 + (idx : ℝ) / sr := by rw [← hon, k1, hdel, mul_one_div]
  have hwin : sourceWindow .multitaper a.winsrc ((h src).endtime - (h src).start)
      (onset - (h src).start) = .ok (-10, 30, 5) := by
    rcases hw with hw | hw <;> rw [hw] <;> rfl
  rw [hwin] at hd
  simp only at hd
  generalize hT : (withNoise nearestTrim (withKernels ka dec)).taper _ 5 = srcT at hd
  have hTL : srcT.data.length = L := by rw [← hT]; exact hL _ _ _
  have hd : runKernel (withNoise nearestTrim (withKernels ka dec)) .multitaper (if (indexOf? (snapped h src s onset) src s).isSome then
      snapped h src s onset else (snapped h src s onset).set src srcT) s s a.rspComps srcT (h src).sr (-(-10))
      (normKw h none src s) = (h', res) := hd
  generalize hH : (if (indexOf? (snapped h src s onset) src s).isSome then
      snapped h src s onset else (snapped h src s onset).set src srcT) = H at hd
  have hHr : ∀ r ∈ s, H r = (h r).put "onset" (.time onset) := fun r hr => by
    rw [← hH]; exact kernelHeap_rsp h src s onset srcT r hr
  have hNpos : 0 < N := by omega
  -- the noise
  have hnoise : (withNoise nearestTrim (withKernels ka dec)).noise H s s a.rspComps =
      .ok (s.map fun r => (H r).data.take (⌊(onset - 5 - T0) * sr + 1 / 2⌋ + 1).toNat) := by
    refine noise_nearest H s a.rspComps hrc hn hne T0 sr N onset (fun r hr => ?_) _ rfl ?_ hsr hNpos
    · rw [hHr r hr]
      exact ⟨(hs r hr).1, (hs r hr).2.1, (hs r hr).2.2, by unfold Trace.put; simp only [Dict.get_set_self]⟩
    · have : 5 ≤ (idx : ℝ) / sr := by
        rw [le_div_iff₀ hsr]
        nlinarith
      linarith
  have hdat : s.map (fun r => (H r).data) = s.map fun r => (h r).data :=
    List.map_congr_left fun r hr => by rw [hHr r hr]; rfl
  have hdat2 : (s.map fun r => (H r).data.take (⌊(onset - 5 - T0) * sr + 1 / 2⌋ + 1).toNat) =
      s.map fun r => (h r).data.take (⌊(onset - 5 - T0) * sr + 1 / 2⌋ + 1).toNat :=
    List.map_congr_left fun r hr => by rw [hHr r hr]; rfl
  rw [hdat2] at hnoise
  unfold runKernel at hd
  simp only [hnoise, hdat, Except.bind] at hd
  have hmtk : (withNoise nearestTrim (withKernels ka dec)).mt = mtKernel ka := rfl
  rw [hmtk, k2, neg_neg] at hd
  -- the kernel
  have hnone : ∀ er, deconvMultitaper ka.mt (s.map fun r => (h r).data) srcT.data
      (s.map fun r => (h r).data.take (⌊(onset - 5 - T0) * sr + 1 / 2⌋ + 1).toNat) sr (-10) ka.gaussM ka.tapers
      ka.taperLength ka.olap none = .error er → er = .other := by
    intro er her
    refine C24_no_failure_partial ka.mt hmt _ _ _ sr (-10) ka.gaussM ka.tapers ka.taperLength ka.olap N ntap (by simpa using hne)
      ?_ hsr.ne' (by simp) hnt hnt0 hol1 (by rw [hTL]; exact hLN) (by rw [hTL]; exact hL1) (by rw [hTL]; exact hL2)
      ?_ hN2 er her
    · intro r hr
      obtain ⟨q, hq, rfl⟩ := List.mem_map.1 hr
      exact (hs q hq).2.2
    · intro x hx
      obtain ⟨q, hq, rfl⟩ := List.mem_map.1 hx
      rw [List.length_take, (hs q hq).2.2]
      refine ⟨by omega, ?_⟩
      rw [Nat.cast_min]
      refine le_min ?_ (by linarith)
      have hfl := Int.lt_floor_add_one ((onset - 5 - T0) * sr + 1 / 2)
      have hval : (onset - 5 - T0) * sr = idx - 5 * sr := by
        rw [hons]; field_simp; ring
      have hnat : (⌊(onset - 5 - T0) * sr + 1 / 2⌋ : ℝ) + 1 ≤ (((⌊(onset - 5 - T0) * sr + 1 / 2⌋ + 1).toNat : ℕ) : ℝ) := by
        have := Int.self_le_toNat (⌊(onset - 5 - T0) * sr + 1 / 2⌋ + 1)
        exact_mod_cast this
      rw [hval] at hfl hnat ⊢
      nlinarith
  have hsome : (indexOf? h src s).isSome = true := by
    unfold indexOf?
    rw [List.findIdx?_isSome]
    simp only [List.any_eq_true, Bool.or_eq_true, decide_eq_true_eq]
    exact ⟨src, hsmem, Or.inl rfl⟩
  obtain ⟨i, hi⟩ := Option.isSome_iff_exists.1 hsome
  have hilt : i < s.length := by
    unfold indexOf? at hi
    exact (List.findIdx?_eq_some_iff_findIdx_eq.1 hi).1
  have hkw : normKw h none src s = some (.idx (i : ℤ)) := by
    unfold normKw; rw [hi]; rfl
  rw [hkw] at hd
  have hmk : mtKernel ka (s.map fun r => (h r).data) srcT.data
      (s.map fun r => (h r).data.take (⌊(onset - 5 - T0) * sr + 1 / 2⌋ + 1).toNat) sr (-10) (some (.idx (i : ℤ))) =
      deconvMultitaper ka.mt (s.map fun r => (h r).data) srcT.data
      (s.map fun r => (h r).data.take (⌊(onset - 5 - T0) * sr + 1 / 2⌋ + 1).toNat) sr (-10) ka.gaussM ka.tapers
      ka.taperLength ka.olap (some (i : ℤ)) := rfl
  rw [hmk, deconvMt_normalize] at hd
  cases hq : deconvMultitaper ka.mt (s.map fun r => (h r).data) srcT.data
      (s.map fun r => (h r).data.take (⌊(onset - 5 - T0) * sr + 1 / 2⌋ + 1).toNat) sr (-10) ka.gaussM ka.tapers
      ka.taperLength ka.olap none with
  | error er =>
    rw [hq] at hd
    have := hnone er hq
    subst this
    simp only [Except.bind, Except.map, finish, Prod.mk.injEq] at hd
    rw [← hd.2] at he
    exact (Except.error.inj he).symm
  | ok rf =>
    rw [hq] at hd
    obtain ⟨q1, -, q3⟩ := deconvMt_shape _ _ _ _ _ _ _ _ _ _ _ hq
    rw [List.length_map] at q1
    have hir : i < rf.length := by omega
    simp only [Except.bind, getItem_lt rf i hir] at hd
    have hxl := q3 _ (List.getElem_mem hir)
    obtain ⟨y, ys, hy⟩ : ∃ y ys, rf[i] = y :: ys := by
      cases hz : rf[i] with
      | nil => rw [hz] at hxl; simp at hxl
      | cons y ys => exact ⟨y, ys, rfl⟩
    rw [hy] at hd
    simp only [maxAbsR] at hd
    split at hd
    · simp only [Except.map, finish, Prod.mk.injEq] at hd
      rw [← hd.2] at he
      exact (Except.error.inj he).symm
    · exfalso
      have := finish_enough H s ((rf.map (·.map (· * (1 / (ys.foldl (fun m v => max m |v|) |y|))))).map setData) (by simp [q1])
      simp only [Except.map] at hd
      rw [hd] at this
      simp only at this he
      rw [he] at this
      cases this

end Verif.Props
