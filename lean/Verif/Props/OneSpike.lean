import Verif.Props.Recover
import Verif.Props.IterativeProps

/-!
# Iterative deconvolution of a delayed copy of the source (C136)
-/

set_option linter.unusedSimpArgs false
set_option linter.unusedSectionVars false

namespace Verif.Props
open Verif.Py Verif.Model Verif.Spec Finset Complex

variable (fastLen : ℕ → ℕ) (src : List ℝ) (sr tshift gauss : ℝ) (itmax : ℕ) (minderr : ℝ) (mute : Bool)

/-- Filtering commutes with convolution. -/
theorem rFlt_conv (r0 g : List ℝ) (hn : fastLen (2 * r0.length) ≠ 0) (hsr : sr ≠ 0)
    (hconv : CircConv (fastLen (2 * r0.length)) src g r0) (m : ℕ) (hm : m < fastLen (2 * r0.length)) :
    (iterEnv fastLen r0 src sr tshift gauss mute).rFlt.getD m 0
      = ∑ j ∈ range (fastLen (2 * r0.length)), g.getD j 0 *
        srcFlt fastLen r0 src sr gauss (cidx (fastLen (2 * r0.length)) m j) := by
  have hok := iterEnv_ok fastLen r0 src sr tshift gauss mute hn hsr
  have hspec := hok.spec
  simp only [iterEnv] at hspec ⊢
  set n := fastLen (2 * r0.length) with hn'
  unfold applyFilter
  simp only [toC_length, gaussFilter_length]
  have e := ifft_mul (fun j => ((g.getD j 0 : ℝ) : ℂ)) (fun j => ((srcFlt fastLen r0 src sr gauss j : ℝ) : ℂ)) n hn m
  have e2 : (ifft (mulL (fft (toC r0) n) (toC (gaussFilter (1 / sr) n gauss none))) n).getD m 0
      = ((∑ j ∈ range n, g.getD j 0 * srcFlt fastLen r0 src sr gauss (cidx n m j) : ℝ) : ℂ) := by
    push_cast
    rw [← show _ = ∑ j ∈ range n, ((g.getD j 0 : ℝ) : ℂ) * (srcFlt fastLen r0 src sr gauss (cidx n m j) : ℂ) from e,
      ifft_get _ _ _ hm]
    congr 1
    refine sum_congr rfl fun k hk => ?_
    have hk := mem_range.1 hk
    rw [← hspec k hk, mulL_get _ _ _ (by simpa using hk) (by simpa using hk),
      mulL_get _ _ _ (by simpa using hk) (by simpa using hk), fft_toC_get _ _ _ hk, fft_toC_get _ _ _ hk,
      dft_conv n src g r0 hconv k hk]
    congr 1
    rw [show (∑ j ∈ range n, ((g.getD j 0 : ℝ) : ℂ) * W n (-(j * k))) = dft g n k from rfl]
    ring
  rw [getD_map_of_lt _ _ 0 0 m (by simpa using hm), e2, Complex.ofReal_re]

/-- One spike of amplitude `a` at sample `d`. -/
def spike (d : ℕ) (a : ℝ) : List ℝ := List.replicate d 0 ++ [a]

theorem spike_getD (d : ℕ) (a : ℝ) (j : ℕ) : (spike d a).getD j 0 = if j = d then a else 0 := by
  unfold spike
  rcases lt_trichotomy j d with h | h | h
  · rw [List.getD_append _ _ _ _ (by simpa using h), getD_replicate, if_neg h.ne]
  · subst h
    rw [List.getD_append_right _ _ _ _ (by simp)]
    simp
  · rw [List.getD_eq_default _ _ (by simp; omega), if_neg h.ne']

/-- Convolution with a spike is a circular delay. -/
theorem spike_conv (n : ℕ) (src r0 : List ℝ) (d : ℕ) (hd : d < n) (a : ℝ) :
    CircConv n src (spike d a) r0 ↔ ∀ m < n, r0.getD m 0 = a * src.getD (((m : ℤ) - d) % n).toNat 0 := by
  have key : ∀ j < n, ∑ k ∈ range n, src.getD k 0 * (spike d a).getD (((j : ℤ) - k) % n).toNat 0
      = a * src.getD (((j : ℤ) - d) % n).toNat 0 := by
    intro j hj
    rw [sum_eq_single ((((j : ℤ) - d) % n).toNat)]
    · rw [spike_getD, if_pos, mul_comm]
      have e1 : 0 ≤ ((j : ℤ) - d) % n := Int.emod_nonneg _ (by omega)
      rw [Int.toNat_of_nonneg e1]
      have e2 : ((j : ℤ) - ((j : ℤ) - d) % n) % n = d := by
        rw [Int.sub_emod, Int.emod_emod_of_dvd _ (dvd_refl _), ← Int.sub_emod, sub_sub_cancel,
          Int.emod_eq_of_lt (by omega) (by omega)]
      rw [e2]; simp
    · intro k hk hne
      rw [spike_getD, if_neg, mul_zero]
      intro hh
      apply hne
      have hk := mem_range.1 hk
      have e1 : 0 ≤ ((j : ℤ) - k) % n := Int.emod_nonneg _ (by omega)
      have e2 : (d : ℤ) = ((j : ℤ) - k) % n := by omega
      rw [e2, Int.sub_emod, Int.emod_emod_of_dvd _ (dvd_refl _), ← Int.sub_emod, sub_sub_cancel,
          Int.emod_eq_of_lt (by omega) (by omega)]
      simp
    · intro hh
      exfalso
      apply hh
      rw [mem_range]
      have e1 : 0 ≤ ((j : ℤ) - d) % n := Int.emod_nonneg _ (by omega)
      have e2 := Int.emod_lt_of_pos ((j : ℤ) - d) (by omega : (0 : ℤ) < n)
      omega
  constructor
  · intro h m hm
    rw [h m hm, key m hm]
  · intro h m hm
    rw [h m hm, key m hm]

/-- One pass removes a single delayed copy of the source; the next one changes nothing. -/
theorem one_spike_steps {e : ItEnv} {s : ℕ → ℝ} (h : EnvOK e s) (itmax : ℕ) (minderr : ℝ) (d : ℕ)
    (hd : d < e.nfft) (hm : ¬ Muted e d) (a : ℝ)
    (hr : ∀ m < e.nfft, e.rFlt.getD m 0 = a * s (cidx e.nfft m d)) (hR : e.powerR ≠ 0) (hit : 0 < itmax)
    (h0 : 0 ≤ minderr) (h1 : minderr < 100) (fin : ItState)
    (hl : iterLoop e minderr itmax (iterInit e itmax minderr) = .ok fin) :
    fin.it = min 2 itmax ∧ (∀ j, fin.rms.getD j 0 = 0) ∧
      ∃ i < e.nfft, ∃ b : ℝ, ¬ Muted e i ∧ (∀ j < e.nfft, fin.p0.getD j 0 = if j = i then b else 0) ∧
        ∀ m < e.nfft, e.rFlt.getD m 0 = b * s (cidx e.nfft m i) * e.dt := by
  have hR0 : 0 ≤ e.powerR := by rw [h.powR]; exact sum_nonneg fun _ _ => sq_nonneg _
  have hRp : 0 < e.powerR := lt_of_le_of_ne hR0 hR.symm
  have hinit := inv_init h itmax minderr
  obtain ⟨k, rfl⟩ : ∃ k, itmax = k + 1 := ⟨itmax - 1, by omega⟩
  unfold iterLoop at hl
  rw [if_pos (by
    simp only [iterInit]
    rw [abs_of_nonneg (by positivity)]
    linarith)] at hl
  cases hs1 : iterStep e (iterInit e (k + 1) minderr) with
  | error er => rw [hs1] at hl; cases hl
  | ok st1 =>
    rw [hs1] at hl
    have hl : iterLoop e minderr k st1 = .ok fin := hl
    obtain ⟨hS, -, hok1, hit1, hsq1, hde1, hrms1, i1, hi1, a1, ha1, ha2, hmax, hp1, hpow⟩ :=
      iterStep_spec h _ st1 hinit.ok hs1
    have hen := (iterStep_energy h _ st1 hinit.ok hs1).2 d hd hm (a / e.dt)
    have hz : power st1.rem = 0 := by
      have hl0 : leftover e.nfft s e.dt ((iterInit e (k + 1) minderr).rem.getD · 0) d (a / e.dt) = 0 := by
        unfold leftover
        refine sum_eq_zero fun m hmm => ?_
        have := hr m (mem_range.1 hmm)
        simp only [iterInit]
        rw [this]
        have := h.dt
        field_simp
        ring
      rw [hl0] at hen
      refine le_antisymm hen ?_
      rw [power_eq _ _ hok1.rlen]
      exact sum_nonneg fun _ _ => sq_nonneg _
    have hrem1 : ∀ m < e.nfft, st1.rem.getD m 0 = 0 := by
      intro m hmm
      rw [power_eq _ _ hok1.rlen, sum_eq_zero_iff_of_nonneg fun _ _ => sq_nonneg _] at hz
      exact pow_eq_zero_iff two_ne_zero |>.1 (hz m (mem_range.2 hmm))
    have hsq1' : st1.sumsq = 0 := by rw [hsq1, hz, zero_div]
    have hp1' : ∀ j < e.nfft, st1.p0.getD j 0 = if j = i1 then a1 else 0 := by
      intro j hj
      rw [hp1 j hj]
      simp only [iterInit]
      rw [getD_replicate]
      simp
    have hfit : ∀ m < e.nfft, e.rFlt.getD m 0 = a1 * s (cidx e.nfft m i1) * e.dt := by
      intro m hmm
      have := hok1.rem m hmm
      rw [hrem1 m hmm, sum_eq_single i1] at this
      · rw [hp1' i1 hi1, if_pos rfl] at this
        linarith
      · intro j hj hne
        rw [hp1' j (mem_range.1 hj), if_neg hne, zero_mul]
      · intro hh; exact absurd (mem_range.2 hi1) hh
    have hnm : ¬ Muted e i1 := by
      intro hmm
      rw [ha1 hmm] at hfit
      apply hR
      rw [h.powR]
      refine sum_eq_zero fun m hm' => ?_
      rw [hfit m (mem_range.1 hm')]
      ring
    have hinv1 := inv_step h (k + 1) minderr _ st1 hinit (by simp [iterInit]) hs1
    have hrms1' : ∀ j, st1.rms.getD j 0 = 0 := by
      intro j
      by_cases hj : j = 0
      · subst hj
        rw [hrms1, hsq1']
        simp only [iterInit]
        rw [getD_set _ _ _ _ (by simp), if_pos rfl]
      · exact hinv1.rest j (by rw [hit1]; simp only [iterInit]; omega)
    cases k with
    | zero =>
      simp only [iterLoop, Except.ok.injEq] at hl
      subst hl
      exact ⟨by rw [hit1]; simp [iterInit], hrms1', i1, hi1, a1, hnm, hp1', hfit⟩
    | succ k =>
      have hd1 : st1.dErr = 100 := by rw [hde1, hsq1']; simp [iterInit]
      unfold iterLoop at hl
      rw [if_pos (by rw [hd1, abs_of_nonneg (by norm_num)]; exact h1)] at hl
      cases hs2 : iterStep e st1 with
      | error er => rw [hs2] at hl; cases hl
      | ok st2 =>
        rw [hs2] at hl
        have hl : iterLoop e minderr k st2 = .ok fin := hl
        obtain ⟨-, -, hok2, hit2, hsq2, hde2, hrms2, i2, hi2, a2, hb1, hb2, -, hp2, -⟩ :=
          iterStep_spec h _ st2 hok1 hs2
        have ha2' : a2 = 0 := by
          by_cases hmm : Muted e i2
          · exact hb1 hmm
          · rw [hb2 hmm]
            have : ccorr e.nfft s st1.rem i2 = 0 :=
              sum_eq_zero fun j hj => by rw [hrem1 j (mem_range.1 hj), zero_mul]
            rw [this]; simp
        have hen2 := (iterStep_energy h _ st2 hok1 hs2).1
        have hz2 : power st2.rem = 0 := by
          refine le_antisymm (hen2.trans hz.le) ?_
          rw [power_eq _ _ hok2.rlen]
          exact sum_nonneg fun _ _ => sq_nonneg _
        have hd2 : st2.dErr = 0 := by rw [hde2, hsq2, hz2, hsq1']; simp
        have hfin : fin = st2 := by
          cases k with
          | zero => simp only [iterLoop, Except.ok.injEq] at hl; exact hl.symm
          | succ k =>
            unfold iterLoop at hl
            rw [if_neg (by rw [hd2, abs_zero]; exact not_lt.2 h0)] at hl
            simp only [Except.ok.injEq] at hl
            exact hl.symm
        subst hfin
        refine ⟨by rw [hit2, hit1]; simp [iterInit], ?_, i1, hi1, a1, hnm, ?_, hfit⟩
        · intro j
          rw [hrms2, getD_set _ _ _ _ (by rw [hinv1.len, hit1]; simp [iterInit]), hsq2, hz2, hrms1']
          simp
        · intro j hj
          rw [hp2 j hj, ha2', add_zero, ite_self, hp1' j hj]

/-- C136.  A response that is a copy of the source, delayed (circularly in the transform window) by an admissible
number `d` of samples and multiplied with `a`, is explained if it is not zero completely: the first pass already leaves the
misfit 0, a second one ends the loop, and the spike train consists of one spike at an admissible position that
reproduces the filtered response. -/
theorem C136_one_spike (rsp : List (List ℝ)) (norm : Option ℤ) (hit : 0 < itmax) (h0 : 0 ≤ minderr)
    (h1 : minderr < 100) (rf : List (List ℝ)) (its : List ℕ) (rmss : List (List ℝ))
    (h : deconvIterative fastLen rsp src sr tshift gauss itmax minderr mute norm = .ok (rf, its, rmss))
    (c : ℕ) (r0 : List ℝ) (hc : rsp[c]? = some r0) (d : ℕ) (hd : d < fastLen (2 * r0.length))
    (had : Admissible (fastLen (2 * r0.length)) r0.length mute (samplesIn tshift sr) d)
    (hq : samplesIn tshift sr ≤ fastLen (2 * r0.length)) (a : ℝ)
    (hr : ∀ m < fastLen (2 * r0.length),
      r0.getD m 0 = a * src.getD (((m : ℤ) - d) % (fastLen (2 * r0.length) : ℕ)).toNat 0)
    (hne : ∃ j < fastLen (2 * r0.length), r0.getD j 0 ≠ 0) :
    its[c]? = some (min 2 itmax) ∧ (∃ rms, rmss[c]? = some rms ∧ ∀ j, rms.getD j 0 = 0) ∧
    let n := fastLen (2 * r0.length)
    let low := toC (gaussFilter (1 / sr) n gauss none)
    ∃ i < n, ∃ b : ℝ, Admissible n r0.length mute (samplesIn tshift sr) i ∧
      (∀ m < n, (applyFilter r0 low).getD m 0
        = b * (applyFilter src low).getD (((m : ℤ) - i) % n).toNat 0 * (1 / sr)) ∧
      (norm = none → rf[c]? = some (iterOut fastLen r0 sr tshift gauss
        ((List.range n).map fun (j : ℕ) => if j = i then b else 0))) := by
  obtain ⟨hsr, st, hst, g1, g2, x, g3, g4⟩ := iterative_comp _ _ _ _ _ _ _ _ _ _ rf its rmss h c r0 hc
  unfold iterComp at hst
  simp only [] at hst
  split at hst
  · cases hst
  rename_i hn
  have hn' : fastLen (2 * r0.length) ≠ 0 := hn
  have hok := iterEnv_ok fastLen r0 src sr tshift gauss mute hn' hsr
  have hconv : CircConv (fastLen (2 * r0.length)) src (spike d a) r0 := (spike_conv _ src r0 d hd a).2 hr
  have hrf : ∀ m < fastLen (2 * r0.length), (iterEnv fastLen r0 src sr tshift gauss mute).rFlt.getD m 0
      = a * srcFlt fastLen r0 src sr gauss (cidx (fastLen (2 * r0.length)) m d) := by
    intro m hm
    rw [rFlt_conv fastLen src sr tshift gauss mute r0 (spike d a) hn' hsr hconv m hm, sum_eq_single d]
    · rw [spike_getD, if_pos rfl]
    · intro j _ hj
      rw [spike_getD, if_neg hj, zero_mul]
    · intro hh; exact absurd (mem_range.2 hd) hh
  have hR : (iterEnv fastLen r0 src sr tshift gauss mute).powerR ≠ 0 := by
    obtain ⟨j, hj, hj2⟩ := hne
    have := powerS_ne_zero fastLen r0 sr tshift gauss mute r0 hsr j hj hj2
    have e : (iterEnv fastLen r0 r0 sr tshift gauss mute).powerS
        = (iterEnv fastLen r0 src sr tshift gauss mute).powerR := by
      simp [iterEnv, applyFilter, ifftRe]
    rwa [e] at this
  obtain ⟨f1, f2, i, hi, b, hb, f3, f4⟩ := one_spike_steps hok itmax minderr d hd
    (not_muted_of_admissible fastLen r0 src sr tshift gauss mute hq d hd had) a hrf hR hit h0 h1 st hst
  refine ⟨by rw [g1, f1], ⟨st.rms, g2, f2⟩, i, hi, b,
    admissible_of_not_muted fastLen r0 src sr tshift gauss mute i hi hb, f4, fun hnone => ?_⟩
  rw [g3, g4 hnone]
  congr 2
  have hl : st.p0.length = fastLen (2 * r0.length) := by
    obtain ⟨r1, -⟩ := iterLoop_reach hok itmax minderr itmax _ st Reach.init (by simp [iterInit]) hst
    exact (reach_inv hok _ _ _ r1).ok.plen
  apply List.ext_getElem
  · simp [hl]
  · intro m m1 m2
    have m3 : m < fastLen (2 * r0.length) := hl ▸ m1
    rw [← List.getD_eq_getElem _ 0 m1, f3 m m3]
    simp

/-- Filtered series determine the series in the transform window. -/
theorem unfilter (r0 : List ℝ) (hn : fastLen (2 * r0.length) ≠ 0) (hsr : sr ≠ 0) (i : ℕ)
    (hi : i < fastLen (2 * r0.length)) (b : ℝ)
    (h : ∀ m < fastLen (2 * r0.length), srcFlt fastLen r0 r0 sr gauss m
      = b * srcFlt fastLen r0 src sr gauss (((m : ℤ) - i) % (fastLen (2 * r0.length) : ℕ)).toNat) (m : ℕ)
    (hm : m < fastLen (2 * r0.length)) :
    r0.getD m 0 = b * src.getD (((m : ℤ) - i) % (fastLen (2 * r0.length) : ℕ)).toNat 0 := by
  set n := fastLen (2 * r0.length) with hn'
  have key : ∀ (x : List ℝ) (k : ℕ), k < n →
      dft x n k * (((gaussFilter (1 / sr) n gauss none).getD k 0 : ℝ) : ℂ)
        = dft (applyFilter x (toC (gaussFilter (1 / sr) n gauss none))) n k := by
    intro x k hk
    have := (iterEnv_ok fastLen r0 x sr 0 gauss true hn hsr).spec k hk
    simp only [iterEnv] at this
    rw [mulL_get _ _ _ (by simpa using hk) (by simpa using hk), fft_toC_get _ _ _ hk, toC_getD] at this
    exact this
  have hc := (spike_conv n (applyFilter src (toC (gaussFilter (1 / sr) n gauss none)))
    (applyFilter r0 (toC (gaussFilter (1 / sr) n gauss none))) i hi b).2 h
  set q : List ℝ := (List.range n).map fun (m : ℕ) => b * src.getD (((m : ℤ) - i) % n).toNat 0 with hq
  have hqm : ∀ m < n, q.getD m 0 = b * src.getD (((m : ℤ) - i) % n).toNat 0 := by
    intro m hm
    rw [hq, List.getD_eq_getElem _ _ (by simpa using hm)]
    simp
  have hdft : ∀ k < n, dft r0 n k = dft q n k := by
    intro k hk
    rw [dft_conv n src (spike i b) q ((spike_conv n src q i hi b).2 hqm) k hk]
    have e := dft_conv n _ _ _ hc k hk
    rw [← key r0 k hk, ← key src k hk] at e
    have hg : (((gaussFilter (1 / sr) n gauss none).getD k 0 : ℝ) : ℂ) ≠ 0 := by
      rw [gauss_get _ _ _ _ _ hk]
      exact_mod_cast (Real.exp_pos _).ne'
    apply mul_right_cancel₀ hg
    rw [e]
    ring
  rw [← hqm m hm]
  have e1 := ifft_fft_get (toC r0) n m hm
  have e2 := ifft_fft_get (toC q) n m hm
  have e3 : fft (toC r0) n = fft (toC q) n :=
    listC_ext _ _ (by simp) fun k hk => by
      rw [fft_length] at hk
      rw [fft_toC_get _ _ _ hk, fft_toC_get _ _ _ hk, hdft k hk]
  rw [e3, e2, toC_getD, toC_getD] at e1
  exact_mod_cast e1.symm

/-- C136, position.  If `d` is the only delay with which the source can be turned into the response, the result
without normalisation is the filtered spike of amplitude `a / dt` at `d`. -/
theorem C136_position (rsp : List (List ℝ)) (hit : 0 < itmax) (h0 : 0 ≤ minderr)
    (h1 : minderr < 100) (rf : List (List ℝ)) (its : List ℕ) (rmss : List (List ℝ))
    (h : deconvIterative fastLen rsp src sr tshift gauss itmax minderr mute none = .ok (rf, its, rmss))
    (c : ℕ) (r0 : List ℝ) (hc : rsp[c]? = some r0) (d : ℕ) (hd : d < fastLen (2 * r0.length))
    (had : Admissible (fastLen (2 * r0.length)) r0.length mute (samplesIn tshift sr) d)
    (hq : samplesIn tshift sr ≤ fastLen (2 * r0.length)) (a : ℝ)
    (hr : ∀ m < fastLen (2 * r0.length),
      r0.getD m 0 = a * src.getD (((m : ℤ) - d) % (fastLen (2 * r0.length) : ℕ)).toNat 0)
    (hne : ∃ j < fastLen (2 * r0.length), r0.getD j 0 ≠ 0)
    (huniq : ∀ i < fastLen (2 * r0.length), ∀ b : ℝ, (∀ m < fastLen (2 * r0.length),
      r0.getD m 0 = b * src.getD (((m : ℤ) - i) % (fastLen (2 * r0.length) : ℕ)).toNat 0) → i = d) :
    rf[c]? = some (iterOut fastLen r0 sr tshift gauss
      ((List.range (fastLen (2 * r0.length))).map fun (j : ℕ) => if j = d then a * sr else 0)) := by
  obtain ⟨-, -, i, hi, b, -, f1, f2⟩ := C136_one_spike fastLen src sr tshift gauss itmax minderr mute rsp none hit h0 h1
    rf its rmss h c r0 hc d hd had hq a hr hne
  obtain ⟨hsr, -⟩ := iterative_comp _ _ _ _ _ _ _ _ _ _ rf its rmss h c r0 hc
  have hun := unfilter fastLen src sr gauss r0 (by omega) hsr i hi (b * (1 / sr)) (by
    intro m hm
    have := f1 m hm
    rw [show b * (1 / sr) * srcFlt fastLen r0 src sr gauss (((m : ℤ) - i) % (fastLen (2 * r0.length) : ℕ)).toNat
      = b * srcFlt fastLen r0 src sr gauss (((m : ℤ) - i) % (fastLen (2 * r0.length) : ℕ)).toNat * (1 / sr) by ring]
    exact this)
  have hid := huniq i hi _ hun
  subst hid
  have hab : b = a * sr := by
    obtain ⟨j, hj, hj2⟩ := hne
    have e1 := hr j hj
    have e2 := hun j hj
    rw [e1] at hj2 e2
    have hs := right_ne_zero_of_mul hj2
    have := mul_right_cancel₀ hs e2
    field_simp at this
    linarith
  rw [f2 rfl, hab]

/-- C136, result.  Under the same hypotheses the result without normalisation is a Gaussian pulse of amplitude
`a / dt`, centred `tshift` seconds after the time of sample `d`. -/
theorem C136_pulse (rsp : List (List ℝ)) (hit : 0 < itmax) (h0 : 0 ≤ minderr)
    (h1 : minderr < 100) (rf : List (List ℝ)) (its : List ℕ) (rmss : List (List ℝ))
    (h : deconvIterative fastLen rsp src sr tshift gauss itmax minderr mute none = .ok (rf, its, rmss))
    (c : ℕ) (r0 : List ℝ) (hc : rsp[c]? = some r0) (d : ℕ) (hd : d < fastLen (2 * r0.length))
    (had : Admissible (fastLen (2 * r0.length)) r0.length mute (samplesIn tshift sr) d)
    (hq : samplesIn tshift sr ≤ fastLen (2 * r0.length)) (a : ℝ)
    (hr : ∀ m < fastLen (2 * r0.length),
      r0.getD m 0 = a * src.getD (((m : ℤ) - d) % (fastLen (2 * r0.length) : ℕ)).toNat 0)
    (hne : ∃ j < fastLen (2 * r0.length), r0.getD j 0 ≠ 0)
    (huniq : ∀ i < fastLen (2 * r0.length), ∀ b : ℝ, (∀ m < fastLen (2 * r0.length),
      r0.getD m 0 = b * src.getD (((m : ℤ) - i) % (fastLen (2 * r0.length) : ℕ)).toNat 0) → i = d) :
    ∃ x, rf[c]? = some x ∧ x.length = min r0.length (fastLen (2 * r0.length)) ∧ ∀ m < x.length,
      x.getD m 0 = a * sr *
        gaussPulse (fastLen (2 * r0.length)) (1 / sr) gauss (((m : ℝ) - d) * (1 / sr) - tshift) := by
  obtain ⟨hsr, -⟩ := iterative_comp _ _ _ _ _ _ _ _ _ _ rf its rmss h c r0 hc
  refine ⟨_, C136_position fastLen src sr tshift gauss itmax minderr mute rsp hit h0 h1 rf its rmss h c r0 hc d hd had
    hq a hr hne huniq, (C22_output fastLen sr tshift gauss r0 _ hsr).1, fun m hm => ?_⟩
  rw [(C22_output fastLen sr tshift gauss r0 _ hsr).2 m hm, sum_eq_single d]
  · rw [List.getD_eq_getElem _ _ (by simpa using hd)]
    simp
  · intro j hj hjd
    rw [List.getD_eq_getElem _ _ (by simpa using hj)]
    simp [hjd]
  · intro hh; exact absurd (mem_range.2 hd) hh

/-- C136 is not vacuous: source `[2, 1]`, response `[0, 4, 2]`, i.e. delay 1 and factor 2; the call succeeds and
the hypotheses of both theorems hold. -/
example : (∃ out, deconvIterative id [[0, 4, 2]] [2, 1] 10 (1 / 10) (1 / 2) 400 (1 / 1000) false none = .ok out) ∧
    Admissible (id (2 * 3)) 3 false (samplesIn (1 / 10) 10) 1 ∧ samplesIn (1 / 10) 10 ≤ id (2 * 3) ∧
    (∀ m < id (2 * 3), ([0, 4, 2] : List ℝ).getD m 0
      = 2 * ([2, 1] : List ℝ).getD (((m : ℤ) - (1 : ℕ)) % (id (2 * 3) : ℕ)).toNat 0) ∧
    ∀ i : ℕ, i < id (2 * 3) → ∀ b : ℝ, (∀ m < id (2 * 3), ([0, 4, 2] : List ℝ).getD m 0
      = b * ([2, 1] : List ℝ).getD (((m : ℤ) - i) % (id (2 * 3) : ℕ)).toNat 0) → i = 1 := by
  refine ⟨?_, .inl (by decide), by norm_num [samplesIn], ?_, ?_⟩
  · exact C21_succeeds id _ _ _ _ _ _ _ _ (by norm_num) (by norm_num) (by
      intro r hr
      rw [List.mem_singleton] at hr
      subst hr
      exact ⟨0, by decide, by norm_num⟩)
  · intro m hm
    simp only [id] at hm
    interval_cases m <;> norm_num
  · intro i hi b h
    simp only [id] at hi h
    have h0 := h 0 (by decide)
    have h1 := h 1 (by decide)
    have h2 := h 2 (by decide)
    have h3 := h 3 (by decide)
    interval_cases i <;> first
      | rfl
      | (exfalso; norm_num at h0; done)
      | (exfalso; norm_num at h1; done)
      | (exfalso; norm_num at h2; done)

end Verif.Props
