import Verif.Props.DeconvolveRecover
import Verif.Props.DeconvolveProps
import Verif.Spec.Length

/-!
# The option `length` of the deconvolutions (C179)
-/

set_option linter.unusedSimpArgs false
set_option linter.unusedSectionVars false

namespace Verif.Props
open Verif.Py Verif.Model Verif.Spec Finset

section
variable {K : Type} [Field K] [LinearOrder K] [IsStrictOrderedRing K]

theorem window_getD (e : ℤ) (L : ℕ) (x : List K) (k : ℕ) (hk : k < L) : (window e L x).getD k 0 = sig x (k + e) := by
  unfold window
  rw [List.getD_eq_getElem _ _ (by simpa using hk)]
  simp

theorem window_length (e : ℤ) (L : ℕ) (x : List K) : (window e L x).length = L := by simp [window]

/-- A convolution whose series is zero outside of the window, as a sum over the window. -/
theorem conv_window (src x rsp : List K) (s e : ℤ) (L : ℕ) (hconv : ConvOf s src x rsp)
    (hin : ∀ l : ℕ, x.getD l 0 ≠ 0 → e ≤ l ∧ (l : ℤ) < e + L) (n : ℤ) :
    sig rsp n = ∑ j ∈ range L, sig x (j + e) * sig src (n - (j + e) + s) := by
  rw [hconv n]
  have h1 : ∀ f : ℤ → K, ∑ l ∈ range x.length, x.getD l 0 * f l = ∑ j ∈ range L, sig x (j + e) * f (j + e) := by
    intro f
    refine sum_bij_ne_zero (fun l _ _ => ((l : ℤ) - e).toNat) ?_ ?_ ?_ ?_
    · intro l _ h0
      obtain ⟨h1, h2⟩ := hin l (left_ne_zero_of_mul h0)
      exact mem_range.2 (by omega)
    · intro a _ ha b _ hb hab
      have h1 := hin a (left_ne_zero_of_mul ha)
      have h2 := hin b (left_ne_zero_of_mul hb)
      omega
    · intro j hj h0
      have hs := left_ne_zero_of_mul h0
      have hpos : 0 ≤ (j : ℤ) + e := by
        by_contra h
        exact hs (sig_neg _ _ (not_le.1 h))
      have hlt : ((j : ℤ) + e) < x.length := by
        by_contra h
        exact hs (sig_ge _ _ (not_lt.1 h))
      have hcast : ((((j : ℤ) + e).toNat : ℕ) : ℤ) = (j : ℤ) + e := by omega
      refine ⟨((j : ℤ) + e).toNat, mem_range.2 (by omega), ?_, by omega⟩
      rw [← sig_nat, hcast]
      exact h0
    · intro l _ h0
      obtain ⟨h1, h2⟩ := hin l (left_ne_zero_of_mul h0)
      have hcast : (((((l : ℤ) - e).toNat : ℕ)) : ℤ) + e = l := by omega
      rw [hcast, sig_nat]
  have := h1 fun (l : ℤ) => sig src (n - l + s)
  simpa using this

/-- By how many samples the results of `deconv_time` begin later than the response, for `N` samples of the response, `M`
samples of the source and `length=L`. -/
def lateStart (N M L : ℕ) (s : ℤ) : ℤ := xcorrOffset N M L (s - (M / 2 : ℕ)) + s

/-- The results are cut out of the middle of the response. -/
theorem lateStart_bounds (N M L : ℕ) (s : ℤ) :
    (N : ℤ) - L - 1 ≤ 2 * lateStart N M L s ∧ 2 * lateStart N M L s ≤ (N : ℤ) - L + 2 := by
  unfold lateStart xcorrOffset
  simp only
  split <;> split <;> omega

theorem lateStart_same (N M : ℕ) (s : ℤ) (hw : M % 2 = 1 ∨ (0 < s ∧ s < M)) : lateStart N M N s = 0 := by
  unfold lateStart
  rw [xcorrOffset_value, if_neg (by omega)]
  ring

/-- The cross-correlation of a convolution with the source, for any number of samples. -/
theorem xcorrt_window (src x rsp : List K) (s : ℤ) (L : ℕ) (hL : 1 ≤ L) (hconv : ConvOf s src x rsp)
    (hin : ∀ l : ℕ, x.getD l 0 ≠ 0 → lateStart rsp.length src.length L s ≤ l ∧
      (l : ℤ) < lateStart rsp.length src.length L s + L) (i : ℕ) (hi : i < L) :
    (xcorrt rsp src L (s - (src.length / 2 : ℕ))).getD i 0
      = ∑ j ∈ range L, corrAt src src ((i : ℤ) - j) * (window (lateStart rsp.length src.length L s) L x).getD j 0 := by
  rw [xcorrt_eq _ _ _ _ hL, List.getD_eq_getElem _ _ (by simpa using hi)]
  simp only [List.getElem_map, List.getElem_range]
  have he : xcorrOffset rsp.length src.length L (s - (src.length / 2 : ℕ)) =
      lateStart rsp.length src.length L s - s := by unfold lateStart; ring
  rw [he]
  set e := lateStart rsp.length src.length L s with hedef
  unfold corrAt
  have : ∀ m ∈ range src.length, sig rsp ((i : ℤ) + (e - s) + m) * sig src m =
      ∑ j ∈ range L, sig x (j + e) * sig src ((i : ℤ) - j + m) * sig src m := by
    intro m _
    rw [conv_window src x rsp s e L hconv hin, sum_mul]
    refine sum_congr rfl fun j _ => ?_
    congr 3
    ring
  rw [sum_congr rfl this, sum_comm]
  refine sum_congr rfl fun j hj => ?_
  rw [window_getD _ _ _ _ (mem_range.1 hj), sum_mul]
  exact sum_congr rfl fun m _ => by ring

/-- The window of the series, multiplied by the energy of the source, solves the system without noise. -/
theorem window_sol (src x rsp : List K) (hE : ∃ v ∈ src, v ≠ 0) (s : ℤ) (L : ℕ) (hL : 1 ≤ L)
    (hconv : ConvOf s src x rsp)
    (hin : ∀ l : ℕ, x.getD l 0 ≠ 0 → lateStart rsp.length src.length L s ≤ l ∧
      (l : ℤ) < lateStart rsp.length src.length L s + L) (sts : List K) (hl : sts.length = L)
    (hv : ∀ d < L, sts.getD d 0 = corrAt src src d / energy src + if d = 0 then (0 : K) else 0) :
    IsToeplitzSol sts (xcorrt rsp src L (s - (src.length / 2 : ℕ)))
      ((window (lateStart rsp.length src.length L s) L x).map (energy src * ·)) := by
  have hE0 := energy_pos src hE
  rw [isSol_iff src L 0 sts hl hv]
  refine ⟨by simp [window_length], fun i hi => ?_⟩
  rw [xcorrt_window src x rsp s L hL hconv hin i hi]
  refine sum_congr rfl fun j _ => ?_
  rw [getD_map_mul]
  simp only [ite_self, add_zero]
  field_simp

/-- **C179**, kernel of the time domain method: with `length=L` (and no noise) the result is the series from sample
`lateStart` on, which is about `(N - L)/2`. -/
theorem C179_kernel (solve : List K → List K → Res (List K)) (hsolve : ExactSolver solve) (src : List K)
    (hE : ∃ v ∈ src, v ≠ 0) (s : ℤ) (L : ℕ) (hL : 1 ≤ L) (rsp xs : List (List K)) (N : ℕ)
    (hlen : ∀ r ∈ rsp, r.length = N)
    (hconv : List.Forall₂ (fun r x => ConvOf s src x r ∧ ∀ l : ℕ, x.getD l 0 ≠ 0 →
      lateStart N src.length L s ≤ l ∧ (l : ℤ) < lateStart N src.length L s + L) rsp xs) (normalize : Option ℤ) :
    deconvTime solve rsp src (s - (src.length / 2 : ℕ)) 0 (some L) normalize =
      match normalize with
      | none => .ok (xs.map fun x => (window (lateStart N src.length L s) L x).map (energy src * ·))
      | some i => normalizeAll (xs.map (window (lateStart N src.length L s) L)) i := by
  have hE0 := energy_pos src hE
  obtain ⟨sts, a1, a2, a3⟩ := stsVec_values src L hL (0 : K) hE0.ne'
  have hloop : timeLoop solve sts src L (s - (src.length / 2 : ℕ)) rsp =
      .ok (xs.map fun x => (window (lateStart N src.length L s) L x).map (energy src * ·)) := by
    induction hconv with
    | nil => rfl
    | @cons r x rs xs h1 _ ih =>
      have hr := hlen r List.mem_cons_self
      have hsol := window_sol src x r hE s L hL h1.1 (by rw [hr]; exact h1.2) sts a2 a3
      rw [hr] at hsol
      have := hsolve sts (xcorrt r src L (s - (src.length / 2 : ℕ))) _ (by rw [C10_length _ _ _ _ hL, a2]) hsol
        (fun x' hx' => sol_unique_zero src hE L 0 le_rfl sts a2 a3 _ _ _ hsol hx')
      unfold timeLoop
      simp only [C10_length _ _ _ _ hL, a2, ne_eq, not_true_eq_false, if_false, this,
        ih (fun q hq => hlen q (List.mem_cons_of_mem _ hq)), bind, Except.bind, List.map_cons]
  unfold deconvTime
  simp only [bind, Except.bind, a1, hloop]
  cases normalize with
  | none => rfl
  | some i =>
    have := normalizeAll_smul (energy src) hE0 (xs.map (window (lateStart N src.length L s) L)) i
    rw [List.map_map] at this
    exact this

end

/-- The water level deconvolution of copies of the source with a given number of samples. -/
theorem water_within (fastLen : ℕ → ℕ) (rsp : List (List ℝ)) (src : List ℝ) (sr wl : ℝ) (nfft : Option ℕ) (L : ℕ)
    (hfast : L ≤ nfft.getD (fastLen L)) (rf : List (List ℂ)) (s : ℤ)
    (h : deconvWaterlevel fastLen rsp src sr wl none (s / sr) (some L) .none nfft = .ok rf)
    (hlev : AboveLevel (nfft.getD (fastLen L)) src wl) (i : ℕ) (r x : List ℝ) (hr : rsp[i]? = some r)
    (hc : CopiesWithin s L src x r) : rf[i]? = some (toC (window 0 L x)) := by
  obtain ⟨hconv, hfit⟩ := hc
  set n := nfft.getD (fastLen L) with hn
  have hxw : ∀ l : ℕ, (window 0 L x).getD l 0 = x.getD l 0 := by
    intro l
    by_cases hl : l < L
    · rw [window_getD _ _ _ _ hl, add_zero, sig_nat]
    · rw [List.getD_eq_default _ _ (by rw [window_length]; omega)]
      by_contra h0
      exact hl (hfit l (Ne.symm h0)).2.1
  have hrw : ∀ j : ℕ, (window 0 L r).getD j 0 = r.getD j 0 := by
    intro l
    by_cases hl : l < L
    · rw [window_getD _ _ _ _ hl, add_zero, sig_nat]
    · rw [List.getD_eq_default _ _ (by rw [window_length]; omega)]
      have := hconv l
      rw [sig_nat] at this
      rw [this]
      symm
      refine sum_eq_zero fun j _ => ?_
      by_cases h0 : x.getD j 0 = 0
      · rw [h0, zero_mul]
      · have := hfit j h0
        rw [sig_ge _ _ (by omega), mul_zero]
  have hcopy : CopiesOf s L src (window 0 L x) (window 0 L r) := by
    refine ⟨fun m => ?_, window_length _ _ _, window_length _ _ _, fun l _ h0 => ?_⟩
    · have e1 : sig (window 0 L r) m = sig r m := by
        unfold sig
        rw [hrw]
      rw [e1, conv_window src x r s 0 L hconv (fun l h0 => by have := hfit l h0; omega), window_length]
      refine sum_congr rfl fun j hj => ?_
      rw [window_getD _ _ _ _ (mem_range.1 hj), add_zero]
    · rw [hxw] at h0
      have := hfit l h0
      exact ⟨this.1, this.2.2⟩
  have hcirc := copies_circ s L n hfast src _ _ hcopy
  obtain ⟨y, hy, hl, hv⟩ := C135_recovers fastLen rsp src sr wl (some L) nfft L rfl rf s h hlev i r _ hr
    (fun j hj => by rw [← hrw]; exact hcirc j hj)
  rw [hy]
  congr 1
  rw [← hn] at hl hv
  rw [min_eq_left hfast] at hl
  refine listC_ext _ _ (by rw [hl]; simp [toC, window_length]) fun m hm => ?_
  have hmN : m < L := by rw [← hl]; exact hm
  have hn0 : (0 : ℤ) < n := by omega
  rw [hv m hm]
  have h1 := Int.emod_nonneg ((m : ℤ) - s) hn0.ne'
  have h2 := Int.emod_lt_of_pos ((m : ℤ) - s) hn0
  rw [List.getD_eq_getElem _ _ (by rw [List.length_map, List.length_range]; omega)]
  simp only [List.getElem_map, List.getElem_range]
  rw [show ((((m : ℤ) - s) % n).toNat : ℤ) = ((m : ℤ) - s) % n by omega, Int.emod_add_emod,
    show (m : ℤ) - s + s = m by ring, Int.emod_eq_of_lt (by omega) (by omega)]
  unfold toC
  rw [List.getD_eq_getElem (window 0 L x) _ (by rw [window_length]; simpa using hmN),
    List.getD_eq_getElem _ _ (by rw [List.length_map, window_length]; exact hmN)]
  simp

/-- **C179**, water level method: with `length=L` the samples are the amplitudes of the copies in the first `L` samples,
each at the sample of its onset. -/
theorem C179_waterlevel (ka : KernelArgs) (dec : DeconvEnv ℝ) (h h' : Heap ℝ) (st : List ℕ) (a : DeconvArgs ℝ)
    (l : List ℕ) (w0 w1 w2 : ℝ) (hwin : a.winsrc = .tuple w0 w1 w2) (hn : st.Nodup)
    (hm : a.method = "waterlevel".toList ∨ a.method = "freq".toList) (hnorm : a.normalize = some .none)
    (hg : ka.gaussW = none) (L : ℕ) (hl : ka.lengthW = some L)
    (hd : deconvolve (withKernels ka dec) h st a = (h', .ok l)) (hfast : L ≤ ka.nfft.getD (ka.fastLen L)) :
    ∃ src ∈ st, OfComp a.srcComps (h src) ∧ ∃ (onset : ℝ) (T c : Trace ℝ),
      T.data = (h src).data ∧ T.start = (h src).start ∧ T.sr = (h src).sr ∧ T.getTime "onset" = some onset ∧
      c = dec.taper (dec.trimPad T (onset + w0) (onset + w1)) w2 ∧
      ((0 < (h src).sr → SnappedOnset (h src) onset) ∧
        ∀ r ∈ l, (h' r).getTime "onset" = some onset ∧ (h' r).start = (h r).start ∧ (h' r).sr = (h r).sr) ∧
      ∀ (s : ℤ), -w0 * (h src).sr = s → (h src).sr ≠ 0 →
        AboveLevel (ka.nfft.getD (ka.fastLen L)) c.data ka.waterlevel →
        ∀ r ∈ l, ∀ x, CopiesWithin s L c.data x (h r).data → (h' r).data = window 0 L x := by
  obtain ⟨src, hs, ho, onset, T, c, nrm, t1, t2, t3, t4, t5, t6, t7, -, hw, -⟩ :=
    C86_kernel_call (withKernels ka dec) h h' st a l w0 w1 w2 hwin hn (by
      rintro he
      rcases hm with hm | hm <;> rw [hm] at he <;> exact absurd he (by decide)) hd
  refine ⟨src, hs, ho, onset, T, c, t1, t2, t3, t4, t5, t7, fun s hs0 hsr hlev r hr x hx => ?_⟩
  obtain ⟨rf, hrf, hres⟩ := hw hm
  have hnrm := t6 _ hnorm
  subst hnrm
  change waterKernel ka _ _ _ _ _ = _ at hrf
  unfold waterKernel at hrf
  rw [hg, hl] at hrf
  simp only [Option.getD_some] at hrf
  have hw0 : -w0 = s / (h src).sr := by rw [← hs0]; field_simp
  rw [hw0] at hrf
  cases hdw : deconvWaterlevel ka.fastLen (l.map fun r => (h r).data) c.data (h src).sr ka.waterlevel none
      (s / (h src).sr) (some L) .none ka.nfft with
  | error e => rw [hdw] at hrf; cases hrf
  | ok rfc =>
    rw [hdw] at hrf
    simp only [Except.map, Except.ok.injEq] at hrf
    subst hrf
    obtain ⟨i, hi, rfl⟩ := List.mem_iff_getElem.1 hr
    have := water_within ka.fastLen _ c.data (h src).sr ka.waterlevel ka.nfft L hfast rfc s hdw hlev i
      ((h l[i]).data) x (by rw [List.getElem?_map, List.getElem?_eq_getElem hi]; rfl) hx
    have h2 := hres i l[i] (List.getElem?_eq_getElem hi)
    rw [List.getElem?_map, this] at h2
    simp only [Option.map_some, Option.some.injEq] at h2
    rw [← h2]
    unfold toC
    rw [List.map_map]
    exact List.map_id' _

/-- **C179**, time domain method (exact solver, no noise, no normalisation; partial: conversions keep their time only if
`e = 0`, see `C179_counterexample`).  With `length=L` for responses of `N` samples the new samples are the amplitudes
of the copies from sample `e` on, times the energy of the source, with `e` about `(N - L)/2`; start time and onset in the
header are those of the whole response, so every conversion is `e` samples early.  `e = 0` for `L = N`; for `L + 2 <= N`
it is positive. -/
theorem C179_time_partial (ka : KernelArgs) (dec : DeconvEnv ℝ) (h h' : Heap ℝ) (st : List ℕ) (a : DeconvArgs ℝ)
    (l : List ℕ) (w0 w1 w2 : ℝ) (hwin : a.winsrc = .tuple w0 w1 w2) (hn : st.Nodup)
    (hm : a.method = "time".toList) (hnorm : a.normalize = some .none)
    (hsolve : ExactSolver ka.solve) (hsp : ka.spiking = 0) (L : ℕ) (hL : 1 ≤ L) (hl : ka.lengthT = some L)
    (hd : deconvolve (withKernels ka dec) h st a = (h', .ok l)) (N : ℕ) (hlen : ∀ r ∈ l, (h r).data.length = N) :
    ∃ src ∈ st, OfComp a.srcComps (h src) ∧ ∃ (onset : ℝ) (T c : Trace ℝ),
      T.data = (h src).data ∧ T.start = (h src).start ∧ T.sr = (h src).sr ∧ T.getTime "onset" = some onset ∧
      c = dec.taper (dec.trimPad T (onset + w0) (onset + w1)) w2 ∧
      ((0 < (h src).sr → SnappedOnset (h src) onset) ∧
        ∀ r ∈ l, (h' r).getTime "onset" = some onset ∧ (h' r).start = (h r).start ∧ (h' r).sr = (h r).sr) ∧
      ∀ (s : ℤ), -w0 * (h src).sr = s → (∃ v ∈ c.data, v ≠ 0) → ∃ e : ℤ,
        (N : ℤ) - L - 1 ≤ 2 * e ∧ 2 * e ≤ (N : ℤ) - L + 2 ∧ (L + 2 ≤ N → 0 < e) ∧
        (L = N → c.data.length % 2 = 1 ∨ (0 < s ∧ s < c.data.length) → e = 0) ∧
        ∀ x : ℕ → List ℝ, (∀ r ∈ l, ConvOf s c.data (x r) (h r).data ∧
            ∀ k : ℕ, (x r).getD k 0 ≠ 0 → e ≤ k ∧ (k : ℤ) < e + L) →
          ∀ r ∈ l, (h' r).data =
            (window e L (x r)).map ((∑ m ∈ range c.data.length, c.data.getD m 0 ^ 2) * ·) := by
  obtain ⟨src, hs, ho, onset, T, c, nrm, t1, t2, t3, t4, t5, t6, t7, ht, -⟩ :=
    C86_kernel_call (withKernels ka dec) h h' st a l w0 w1 w2 hwin hn (by
      rintro he
      rw [hm] at he
      exact absurd he (by decide)) hd
  refine ⟨src, hs, ho, onset, T, c, t1, t2, t3, t4, t5, t7, fun s hs0 hE => ?_⟩
  have hb := lateStart_bounds N c.data.length L s
  refine ⟨lateStart N c.data.length L s, hb.1, hb.2, fun hlt => by omega, fun hLN hw => by
    subst hLN; exact lateStart_same L _ s hw, fun x hx r hr => ?_⟩
  obtain ⟨rf, hrf, hres⟩ := ht hm s hs0
  have hnrm := t6 _ hnorm
  subst hnrm
  replace hrf : timeKernel ka (l.map fun r => (h r).data) c.data (s - ((c.data.length / 2 : ℕ) : ℤ)) (some .none) =
    .ok rf := hrf
  have hex := C179_kernel ka.solve hsolve c.data hE s L hL (l.map fun r => (h r).data) (l.map x) N (by
      intro r hr
      obtain ⟨q, hq, rfl⟩ := List.mem_map.1 hr
      exact hlen q hq) (by
      rw [List.forall₂_map_left_iff, List.forall₂_map_right_iff]
      exact List.forall₂_same.2 fun r hr => hx r hr) none
  unfold timeKernel at hrf
  simp only [hsp, hl, normIdx] at hrf
  rw [hex] at hrf
  simp only [Except.ok.injEq] at hrf
  subst hrf
  obtain ⟨i, hi, rfl⟩ := List.mem_iff_getElem.1 hr
  have h2 := hres i l[i] (List.getElem?_eq_getElem hi)
  rw [List.getElem?_map, List.getElem?_map, List.getElem?_eq_getElem hi] at h2
  simp only [Option.map_some, Option.some.injEq] at h2
  exact h2.symm

section examples

/-- A record of nine samples with the onset at sample 4: a direct wave on Z, and on R a conversion one sample later. -/
def lenHeap : Heap ℚ := fun r =>
  { net := "N".toList, sta := "S".toList, loc := [], cha := ["BHZ".toList, "BHR".toList].getD r [],
    start := 100, sr := 1, data := [[0, 0, 0, 0, 1, 0, 0, 0, 0], [0, 0, 0, 0, 0, 1/2, 0, 0, 0]].getD r [],
    ext := [("onset", .time 104)] }

/-- The time domain kernel with `length=5` and a solver for diagonal matrices. -/
def lenEnv (length : Option ℕ) : DeconvEnv ℚ := { dEnv with
  time := fun rd src shift n =>
    deconvTime (fun sts y => .ok (y.map (· / sts.getD 0 1))) rd src shift 0 length (normIdx n) }

/-- **C179, negation.**  Onset at sample 4, a conversion one second after the onset, `length=5`: the receiver function has
the direct wave at sample 2 and the conversion at sample 3, but start time and onset are kept, so that the conversion is
one second before the onset.  Without the option it is at sample 5. -/
theorem C179_counterexample :
    ((deconvolve (lenEnv (some 5)) lenHeap [0, 1] { dArgs with winsrc := .tuple 0 0 0 }).2 = .ok [0, 1] ∧
      let h' := (deconvolve (lenEnv (some 5)) lenHeap [0, 1] { dArgs with winsrc := .tuple 0 0 0 }).1
      (h' 0).data = [0, 0, 1, 0, 0] ∧ (h' 1).data = [0, 0, 0, 1/2, 0] ∧ (h' 1).start = 100 ∧
        (h' 1).getTime "onset" = some 104) ∧
    ((deconvolve (lenEnv none) lenHeap [0, 1] { dArgs with winsrc := .tuple 0 0 0 }).1 1).data =
      [0, 0, 0, 0, 0, 1/2, 0, 0, 0] := by
  decide +kernel

/-- The solver of the example solves its system: the source is one sample. -/
example : stsVec ([1] : List ℚ) 5 0 = .ok [1, 0, 0, 0, 0] := by decide +kernel

/-- The hypotheses of the partial theorems are met by the example: one copy of the source with onset at sample 5. -/
example : ConvOf 0 [1] [0, 0, 0, 0, 0, 1/2, 0, 0, 0] ([0, 0, 0, 0, 0, 1/2, 0, 0, 0] : List ℚ) ∧
    lateStart 9 1 5 0 = 2 := by
  refine ⟨fun n => ?_, by decide⟩
  have : ∀ m : ℤ, sig ([1] : List ℚ) m = if m = 0 then 1 else 0 := by
    intro m
    unfold sig
    split
    · rename_i h
      obtain ⟨k, rfl⟩ := Int.eq_ofNat_of_zero_le h
      cases k <;> simp
      omega
    · rename_i h
      rw [if_neg (by omega)]
  simp only [this, List.length_cons, List.length_nil, sum_range_succ, sum_range_zero]
  by_cases h0 : n < 0
  · rw [sig_neg _ _ h0]
    simp
    omega
  · obtain ⟨m, rfl⟩ := Int.eq_ofNat_of_zero_le (not_lt.1 h0)
    rw [sig_nat]
    rcases m with _ | _ | _ | _ | _ | _ | _ | _ | _ | m <;> simp
    omega

end examples
end Verif.Props
