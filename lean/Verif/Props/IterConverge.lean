import Verif.Props.OneSpike
import Mathlib.Algebra.Order.BigOperators.Ring.Finset
import Mathlib.Algebra.Order.Chebyshev
import Mathlib.Analysis.SpecificLimits.Basic

/-!
# Convergence of the iterative deconvolution: C159

The loop of `deconv_iterative` is a matching pursuit.  If the response is the convolution of the source with a spike
train at admissible lags and the spectrum of the source has no zero, what is left of the response decreases at
least geometrically, and the spike train converges to the one that was convolved.
-/

set_option linter.unusedSimpArgs false
set_option linter.unusedSectionVars false

namespace Verif.Spec
open Finset

/-- Amplitude of the source spectrum behind the Gaussian low-pass of width `g`. -/
noncomputable def lowPassed (n : ℕ) (dt g : ℝ) (src : List ℝ) (k : ℕ) : ℝ :=
  ‖dft src n k‖ * Real.exp (-(freqAt n dt k / g) ^ 2 / 2)

end Verif.Spec

namespace Verif.Props
open Verif.Py Verif.Model Verif.Spec Finset Complex

/-- Parseval's identity for real series. -/
theorem parseval (n : ℕ) (hn : n ≠ 0) (x : ℕ → ℝ) :
    ∑ k ∈ range n, ‖∑ j ∈ range n, (x j : ℂ) * W n (-(j * k))‖ ^ 2 = n * ∑ j ∈ range n, x j ^ 2 := by
  have hn' : (n : ℂ) ≠ 0 := by exact_mod_cast hn
  have e := ifft_mul_conj (fun j => (x j : ℂ)) (fun j => (x j : ℂ)) n hn 0
  rw [div_eq_iff hn'] at e
  have e1 : ∀ k ∈ range n, ((∑ j ∈ range n, (x j : ℂ) * W n (-(j * k))) *
      (starRingEnd ℂ) (∑ l ∈ range n, (x l : ℂ) * W n (-(l * k)))) * W n ((k : ℤ) * ((0 : ℕ) : ℤ))
      = ((‖∑ j ∈ range n, (x j : ℂ) * W n (-(j * k))‖ ^ 2 : ℝ) : ℂ) := by
    intro k _
    simp only [Nat.cast_zero, mul_zero, W_zero, mul_one]
    rw [Complex.mul_conj, Complex.normSq_eq_norm_sq]
  rw [sum_congr rfl e1] at e
  have e2 : ∀ j ∈ range n, (x j : ℂ) * (starRingEnd ℂ) ((x (((j : ℤ) - ((0 : ℕ) : ℤ)) % n).toNat : ℝ) : ℂ)
      = ((x j ^ 2 : ℝ) : ℂ) := by
    intro j hj
    have hj := mem_range.1 hj
    have : (((j : ℤ) - ((0 : ℕ) : ℤ)) % n).toNat = j := by
      rw [Nat.cast_zero, sub_zero, Int.emod_eq_of_lt (by omega) (by omega)]
      simp
    rw [this, Complex.conj_ofReal]
    push_cast
    ring
  rw [sum_congr rfl e2, ← Complex.ofReal_sum, ← Complex.ofReal_sum] at e
  have e3 : ((∑ k ∈ range n, ‖∑ j ∈ range n, (x j : ℂ) * W n (-(j * k))‖ ^ 2 : ℝ) : ℂ)
      = ((n * ∑ j ∈ range n, x j ^ 2 : ℝ) : ℂ) := by
    rw [e]
    push_cast
    ring
  exact_mod_cast e3

/-- The spectrum of a circular convolution. -/
theorem conv_spectrum (n : ℕ) (b s r : ℕ → ℝ)
    (h : ∀ m < n, r m = ∑ j ∈ range n, b j * s (cidx n m j)) (k : ℕ) (hk : k < n) :
    ∑ j ∈ range n, (r j : ℂ) * W n (-(j * k))
      = (∑ j ∈ range n, (b j : ℂ) * W n (-(j * k))) * ∑ j ∈ range n, (s j : ℂ) * W n (-(j * k)) := by
  have hn : 0 < n := by omega
  have hl : ∀ (x : ℕ → ℝ) (j : ℕ), j < n → ((List.range n).map x).getD j 0 = x j := fun x j hj => by
    rw [List.getD_eq_getElem _ _ (by simpa using hj)]
    simp
  have hd : ∀ x : ℕ → ℝ, dft ((List.range n).map x) n k = ∑ j ∈ range n, (x j : ℂ) * W n (-(j * k)) := by
    intro x
    unfold dft
    refine sum_congr rfl fun j hj => ?_
    rw [hl x j (mem_range.1 hj), chr_eq]
  have := dft_conv n ((List.range n).map b) ((List.range n).map s) ((List.range n).map r) (by
    intro j hj
    rw [hl r j hj, h j hj]
    refine sum_congr rfl fun i hi => ?_
    rw [hl b i (mem_range.1 hi), hl s _ (by exact cidx_lt n hn j i)]
    rfl) k hk
  rw [hd, hd, hd] at this
  exact this

/-- Energy of a convolution with a source whose spectrum is at least `σ`. -/
theorem conv_energy (n : ℕ) (b s r : ℕ → ℝ) (σ : ℝ) (hσ : 0 ≤ σ)
    (hs : ∀ k < n, σ ≤ ‖∑ j ∈ range n, (s j : ℂ) * W n (-(j * k))‖)
    (h : ∀ m < n, r m = ∑ j ∈ range n, b j * s (cidx n m j)) :
    σ ^ 2 * ∑ j ∈ range n, b j ^ 2 ≤ ∑ j ∈ range n, r j ^ 2 := by
  rcases Nat.eq_zero_or_pos n with rfl | hn
  · simp
  have hnR : (0 : ℝ) < n := by exact_mod_cast hn
  have p1 := parseval n hn.ne' b
  have p2 := parseval n hn.ne' r
  have : σ ^ 2 * ∑ k ∈ range n, ‖∑ j ∈ range n, (b j : ℂ) * W n (-(j * k))‖ ^ 2
      ≤ ∑ k ∈ range n, ‖∑ j ∈ range n, (r j : ℂ) * W n (-(j * k))‖ ^ 2 := by
    rw [mul_sum]
    refine sum_le_sum fun k hk => ?_
    have hk := mem_range.1 hk
    rw [conv_spectrum n b s r h k hk, norm_mul, mul_pow, mul_comm (‖_‖ ^ 2)]
    refine mul_le_mul_of_nonneg_right ?_ (sq_nonneg _)
    exact pow_le_pow_left₀ hσ (hs k hk) 2
  rw [p1, p2] at this
  have e : σ ^ 2 * (n * ∑ j ∈ range n, b j ^ 2) = n * (σ ^ 2 * ∑ j ∈ range n, b j ^ 2) := by ring
  rw [e] at this
  exact le_of_mul_le_mul_left this hnR

open Classical in
/-- If what is left is a combination of delayed sources at positions in `A`, one of the correlations at these positions
is at least a fixed part of its norm. -/
theorem large_corr (n : ℕ) (b s : ℕ → ℝ) (rem : List ℝ) (A : ℕ → Prop) (σ M : ℝ) (hσ : 0 < σ)
    (hs : ∀ k < n, σ ≤ ‖∑ j ∈ range n, (s j : ℂ) * W n (-(j * k))‖)
    (h : ∀ m < n, rem.getD m 0 = ∑ j ∈ range n, b j * s (cidx n m j))
    (hb : ∀ j < n, ¬ A j → b j = 0) (hM : ∀ i < n, A i → ccorr n s rem i ^ 2 ≤ M) (hM0 : 0 ≤ M) :
    σ ^ 2 / n * ∑ m ∈ range n, rem.getD m 0 ^ 2 ≤ M := by
  rcases Nat.eq_zero_or_pos n with rfl | hn
  · simpa using hM0
  have hnR : (0 : ℝ) < n := by exact_mod_cast hn
  set E := ∑ m ∈ range n, rem.getD m 0 ^ 2 with hE
  have hE0 : 0 ≤ E := sum_nonneg fun _ _ => sq_nonneg _
  have hen : σ ^ 2 * ∑ j ∈ range n, b j ^ 2 ≤ E := conv_energy n b s (rem.getD · 0) σ hσ.le hs h
  have e1 : E = ∑ j ∈ range n, b j * ccorr n s rem j := by
    unfold ccorr
    simp only [mul_sum]
    rw [sum_comm, hE]
    refine sum_congr rfl fun m hm => ?_
    rw [sq]
    conv_lhs => rw [h m (mem_range.1 hm)]
    rw [mul_comm, mul_sum]
    rw [← h m (mem_range.1 hm)]
    refine sum_congr rfl fun j _ => ?_
    ring
  have e2 : E ^ 2 ≤ (∑ j ∈ range n, b j ^ 2) * (n * M) := by
    have hcs := sum_mul_sq_le_sq_mul_sq (range n) b (fun j => if A j then ccorr n s rem j else 0)
    have e3 : ∑ j ∈ range n, b j * (if A j then ccorr n s rem j else 0) = E := by
      rw [e1]
      refine sum_congr rfl fun j hj => ?_
      split
      · rfl
      · rename_i hA
        rw [hb j (mem_range.1 hj) hA]
        simp
    rw [e3] at hcs
    refine hcs.trans (mul_le_mul_of_nonneg_left ?_ (sum_nonneg fun _ _ => sq_nonneg _))
    calc ∑ j ∈ range n, (if A j then ccorr n s rem j else 0) ^ 2 ≤ ∑ _j ∈ range n, M := by
          refine sum_le_sum fun j hj => ?_
          split
          · exact hM j (mem_range.1 hj) ‹_›
          · simpa using hM0
      _ = n * M := by simp
  rcases hE0.eq_or_lt with h0 | h0
  · rw [← h0]
    simpa using hM0
  have e4 : σ ^ 2 * E ^ 2 ≤ E * (n * M) := by
    calc σ ^ 2 * E ^ 2 ≤ σ ^ 2 * ((∑ j ∈ range n, b j ^ 2) * (n * M)) := mul_le_mul_of_nonneg_left e2 (sq_nonneg _)
      _ = (σ ^ 2 * ∑ j ∈ range n, b j ^ 2) * (n * M) := by ring
      _ ≤ E * (n * M) := mul_le_mul_of_nonneg_right hen (by positivity)
  have e5 : E * (σ ^ 2 * E) ≤ E * (n * M) := by
    calc E * (σ ^ 2 * E) = σ ^ 2 * E ^ 2 := by ring
      _ ≤ _ := e4
  have e6 := le_of_mul_le_mul_left e5 h0
  rw [div_mul_eq_mul_div, div_le_iff₀ hnR]
  linarith

/-- What is left of a response made of delayed sources. -/
theorem rem_conv {e : ItEnv} {s : ℕ → ℝ} (st : ItState) (hst : StOK e s st) (g : ℕ → ℝ)
    (hg : ∀ m < e.nfft, e.rFlt.getD m 0 = ∑ j ∈ range e.nfft, g j * s (cidx e.nfft m j)) (m : ℕ) (hm : m < e.nfft) :
    st.rem.getD m 0 = ∑ j ∈ range e.nfft, (g j - e.dt * st.p0.getD j 0) * s (cidx e.nfft m j) := by
  rw [hst.rem m hm, hg m hm, sum_mul, ← sum_sub_distrib]
  refine sum_congr rfl fun j _ => ?_
  ring

/-- One pass reduces the energy by a fixed factor. -/
theorem step_factor {e : ItEnv} {s : ℕ → ℝ} (h : EnvOK e s) (itmax : ℕ) (minderr : ℝ) (st st' : ItState)
    (hinv : LoopInv e s itmax minderr st) (hs : iterStep e st = .ok st') (g : ℕ → ℝ)
    (hg : ∀ m < e.nfft, e.rFlt.getD m 0 = ∑ j ∈ range e.nfft, g j * s (cidx e.nfft m j))
    (hmut : ∀ j < e.nfft, Muted e j → g j = 0) (σ : ℝ) (hσ : 0 < σ)
    (hsp : ∀ k < e.nfft, σ ≤ ‖∑ j ∈ range e.nfft, (s j : ℂ) * W e.nfft (-(j * k))‖) :
    power st'.rem ≤ (1 - σ ^ 2 / (e.nfft * e.powerS)) * power st.rem := by
  obtain ⟨hS, hR, hst', -⟩ := iterStep_spec h st st' hinv.ok hs
  have hen := iterStep_energy h st st' hinv.ok hs
  have hnR : (0 : ℝ) < e.nfft := by exact_mod_cast h.pos
  have hpw := power_eq _ _ hinv.ok.rlen
  have hcor : ∀ i < e.nfft, ¬ Muted e i → ccorr e.nfft s st.rem i ^ 2 ≤ e.powerS * (power st.rem - power st'.rem) := by
    intro i hi hm
    have h1 := hen.2 i hi hm (ccorr e.nfft s st.rem i / (e.dt * e.powerS))
    rw [leftover_eq e.nfft h.pos, ← h.powS, ← hpw] at h1
    have hdt := h.dt
    have e1 : power st.rem - 2 * (ccorr e.nfft s st.rem i / (e.dt * e.powerS)) * e.dt * ccorr e.nfft s st.rem i +
        (ccorr e.nfft s st.rem i / (e.dt * e.powerS)) ^ 2 * e.dt ^ 2 * e.powerS
        = power st.rem - ccorr e.nfft s st.rem i ^ 2 / e.powerS := by
      field_simp
      ring
    rw [e1] at h1
    have h2 : ccorr e.nfft s st.rem i ^ 2 / e.powerS ≤ power st.rem - power st'.rem := by linarith
    rw [div_le_iff₀ hS] at h2
    linarith
  have hl := large_corr e.nfft (fun j => g j - e.dt * st.p0.getD j 0) s st.rem (fun i => ¬ Muted e i) σ
    (e.powerS * (power st.rem - power st'.rem)) hσ hsp (rem_conv st hinv.ok g hg)
    (fun j hj hm => by
      have hm := not_not.1 hm
      rw [hmut j hj hm, hinv.spikes j hj hm]
      ring)
    hcor (mul_nonneg hS.le (sub_nonneg.2 hen.1))
  rw [← hpw] at hl
  have : σ ^ 2 / (e.nfft * e.powerS) * power st.rem ≤ power st.rem - power st'.rem := by
    have e1 : σ ^ 2 / (e.nfft * e.powerS) * power st.rem = (σ ^ 2 / e.nfft * power st.rem) / e.powerS := by
      field_simp
    rw [e1, div_le_iff₀ hS]
    linarith
  linarith

/-- The rate is a number between 0 and 1. -/
theorem rate_le_one {e : ItEnv} {s : ℕ → ℝ} (h : EnvOK e s) (hS : 0 < e.powerS) (σ : ℝ) (hσ : 0 < σ)
    (hsp : ∀ k < e.nfft, σ ≤ ‖∑ j ∈ range e.nfft, (s j : ℂ) * W e.nfft (-(j * k))‖) :
    0 < σ ^ 2 / (e.nfft * e.powerS) ∧ σ ^ 2 / (e.nfft * e.powerS) ≤ 1 := by
  have hnR : (0 : ℝ) < e.nfft := by exact_mod_cast h.pos
  refine ⟨by positivity, ?_⟩
  rw [div_le_one (by positivity), h.powS, ← parseval e.nfft h.pos.ne' s]
  have h0 := hsp 0 h.pos
  calc σ ^ 2 ≤ ‖∑ j ∈ range e.nfft, (s j : ℂ) * W e.nfft (-(j * (0 : ℕ)))‖ ^ 2 := pow_le_pow_left₀ hσ.le h0 2
    _ ≤ _ := single_le_sum (f := fun k : ℕ => ‖∑ j ∈ range e.nfft, (s j : ℂ) * W e.nfft (-(j * k))‖ ^ 2)
        (fun _ _ => sq_nonneg _) (mem_range.2 h.pos)

/-- Energies along the loop. -/
theorem reach_factor {e : ItEnv} {s : ℕ → ℝ} (h : EnvOK e s) (itmax : ℕ) (minderr : ℝ) (st : ItState)
    (hr : Reach e itmax minderr st) (g : ℕ → ℝ)
    (hg : ∀ m < e.nfft, e.rFlt.getD m 0 = ∑ j ∈ range e.nfft, g j * s (cidx e.nfft m j))
    (hmut : ∀ j < e.nfft, Muted e j → g j = 0) (σ : ℝ) (hσ : 0 < σ)
    (hsp : ∀ k < e.nfft, σ ≤ ‖∑ j ∈ range e.nfft, (s j : ℂ) * W e.nfft (-(j * k))‖) :
    power st.rem ≤ (1 - σ ^ 2 / (e.nfft * e.powerS)) ^ st.it * e.powerR ∧
    ∀ j < st.it, st.rms.getD j 0 ≤ (1 - σ ^ 2 / (e.nfft * e.powerS)) ^ (j + 1) := by
  induction hr with
  | init =>
    constructor
    · simp only [iterInit, pow_zero, one_mul]
      rw [power_eq _ _ h.rlen, h.powR]
    · simp [iterInit]
  | @step st st' hr _ hlt hs ih =>
    have hinv := reach_inv h itmax minderr _ hr
    obtain ⟨hS, hR, hst', hit, hsq, -, hrms, -⟩ := iterStep_spec h st st' hinv.ok hs
    have hf := step_factor h itmax minderr st st' hinv hs g hg hmut σ hσ hsp
    obtain ⟨r0, r1⟩ := rate_le_one h hS σ hσ hsp
    have hp : power st'.rem ≤ (1 - σ ^ 2 / (e.nfft * e.powerS)) ^ (st.it + 1) * e.powerR := by
      rw [pow_succ']
      calc power st'.rem ≤ (1 - σ ^ 2 / (e.nfft * e.powerS)) * power st.rem := hf
        _ ≤ (1 - σ ^ 2 / (e.nfft * e.powerS)) * ((1 - σ ^ 2 / (e.nfft * e.powerS)) ^ st.it * e.powerR) :=
            mul_le_mul_of_nonneg_left ih.1 (by linarith)
        _ = _ := by ring
    refine ⟨by rw [hit]; exact hp, fun j hj => ?_⟩
    rw [hrms, getD_set _ _ _ _ (by rw [hinv.len]; exact hlt)]
    split
    · rename_i he
      subst he
      rw [hsq, div_le_iff₀ hR]
      exact hp
    · exact ih.2 j (by omega)

/-- Distance of the spike train from the one that was convolved. -/
theorem train_distance {e : ItEnv} {s : ℕ → ℝ} (st : ItState) (hst : StOK e s st) (g : ℕ → ℝ)
    (hg : ∀ m < e.nfft, e.rFlt.getD m 0 = ∑ j ∈ range e.nfft, g j * s (cidx e.nfft m j))
    (σ : ℝ) (hσ : 0 < σ)
    (hsp : ∀ k < e.nfft, σ ≤ ‖∑ j ∈ range e.nfft, (s j : ℂ) * W e.nfft (-(j * k))‖) :
    ∑ j ∈ range e.nfft, (g j - e.dt * st.p0.getD j 0) ^ 2 ≤ power st.rem / σ ^ 2 := by
  rw [le_div_iff₀ (by positivity), power_eq _ _ hst.rlen, mul_comm]
  exact conv_energy e.nfft (fun j => g j - e.dt * st.p0.getD j 0) s (st.rem.getD · 0) σ hσ.le hsp (rem_conv st hst g hg)

/-- The Gaussian pulse is at most 1. -/
theorem gaussPulse_le (n : ℕ) (dt g t : ℝ) : |gaussPulse n dt g t| ≤ 1 := by
  unfold gaussPulse
  rcases Nat.eq_zero_or_pos n with rfl | hn
  · simp
  have hnR : (0 : ℝ) < n := by exact_mod_cast hn
  rw [abs_div, abs_of_pos hnR, div_le_one hnR]
  refine (abs_sum_le_sum_abs _ _).trans ?_
  calc _ ≤ ∑ _k ∈ range n, (1 : ℝ) := by
        refine sum_le_sum fun k _ => ?_
        rw [abs_mul, abs_of_pos (Real.exp_pos _)]
        refine mul_le_one₀ ?_ (abs_nonneg _) (Real.abs_cos_le_one _)
        rw [Real.exp_le_one_iff]
        have := sq_nonneg (freqAt n dt k / g)
        linarith
    _ = n := by simp

/-- What is left at the end of the loop. -/
theorem final_factor {e : ItEnv} {s : ℕ → ℝ} (h : EnvOK e s) (itmax : ℕ) (minderr : ℝ) (fin : ItState)
    (hr : Reach e itmax minderr fin) (hstop : fin.it = itmax ∨ |fin.dErr| ≤ minderr) (g : ℕ → ℝ)
    (hg : ∀ m < e.nfft, e.rFlt.getD m 0 = ∑ j ∈ range e.nfft, g j * s (cidx e.nfft m j))
    (hmut : ∀ j < e.nfft, Muted e j → g j = 0) (σ : ℝ) (hσ : 0 < σ)
    (hsp : ∀ k < e.nfft, σ ≤ ‖∑ j ∈ range e.nfft, (s j : ℂ) * W e.nfft (-(j * k))‖) (ρ : ℝ)
    (hρ : ρ = σ ^ 2 / (e.nfft * e.powerS)) :
    power fin.rem ≤ max ((1 - ρ) ^ itmax) (minderr / (100 * ρ)) * e.powerR := by
  have hR0 : 0 ≤ e.powerR := by rw [h.powR]; exact sum_nonneg fun _ _ => sq_nonneg _
  have hf := (reach_factor h itmax minderr fin hr g hg hmut σ hσ hsp).1
  rw [← hρ] at hf
  rcases hstop with hit | hd
  · rw [hit] at hf
    exact hf.trans (mul_le_mul_of_nonneg_right (le_max_left _ _) hR0)
  · cases hr with
    | init =>
      simp only [iterInit] at hd
      have : e.powerR = 0 := by
        have := (le_abs_self _).trans hd
        linarith
      rw [this] at hf ⊢
      simpa using hf
    | @step st _ hr _ hlt hs =>
      have hinv := reach_inv h itmax minderr _ hr
      obtain ⟨hS, hR, hst', hit, hsq, hde, -⟩ := iterStep_spec h st fin hinv.ok hs
      have hstep := step_factor h itmax minderr st fin hinv hs g hg hmut σ hσ hsp
      obtain ⟨r0, r1⟩ := rate_le_one h hS σ hσ hsp
      rw [← hρ] at hstep r0 r1
      have hp0 : 0 ≤ power st.rem := by
        rw [power_eq _ _ hinv.ok.rlen]
        exact sum_nonneg fun _ _ => sq_nonneg _
      have h1 := (le_abs_self _).trans hd
      rw [hde, hinv.energy hR.ne', hsq, ← sub_div, mul_div_assoc', div_le_iff₀ hR] at h1
      have h2 : power fin.rem ≤ minderr / (100 * ρ) * e.powerR := by
        rw [div_mul_eq_mul_div, le_div_iff₀ (by positivity)]
        have h3 : power fin.rem ≤ power st.rem := by
          have := mul_nonneg r0.le hp0
          linarith
        have h4 := mul_le_mul_of_nonneg_left h3 r0.le
        linarith
      exact h2.trans (mul_le_mul_of_nonneg_right (le_max_right _ _) hR0)

section api
variable (fastLen : ℕ → ℕ) (src : List ℝ) (sr tshift gauss : ℝ) (itmax : ℕ) (minderr : ℝ) (mute : Bool)

/-- The amplitude spectrum of the filtered source. -/
theorem srcFlt_spectrum (r0 : List ℝ) (hn : fastLen (2 * r0.length) ≠ 0) (hsr : sr ≠ 0) (k : ℕ)
    (hk : k < fastLen (2 * r0.length)) :
    ‖∑ j ∈ range (fastLen (2 * r0.length)), (srcFlt fastLen r0 src sr gauss j : ℂ) *
      W (fastLen (2 * r0.length)) (-(j * k))‖ = lowPassed (fastLen (2 * r0.length)) (1 / sr) gauss src k := by
  have hok := iterEnv_ok fastLen r0 src sr 0 gauss true hn hsr
  have := hok.spec k hk
  simp only [iterEnv] at this
  rw [mulL_get _ _ _ (by simpa using hk) (by simpa using hk), fft_toC_get _ _ _ hk, toC_getD] at this
  rw [← this, norm_mul, gauss_get _ _ _ _ _ hk]
  unfold lowPassed
  rw [Complex.norm_real, Real.norm_eq_abs, abs_of_pos (Real.exp_pos _)]
  congr 2
  unfold freqAt
  rw [freqIdx_eq]
  ring

/-- The energy of the filtered response. -/
theorem powerR_le (r0 : List ℝ) (hn : fastLen (2 * r0.length) ≠ 0) (hsr : sr ≠ 0) :
    (iterEnv fastLen r0 src sr tshift gauss mute).powerR ≤ ∑ j ∈ range (fastLen (2 * r0.length)), r0.getD j 0 ^ 2 := by
  have hok := iterEnv_ok fastLen r0 r0 sr tshift gauss mute hn hsr
  have e : (iterEnv fastLen r0 src sr tshift gauss mute).powerR
      = ∑ j ∈ range (fastLen (2 * r0.length)), srcFlt fastLen r0 r0 sr gauss j ^ 2 := by
    rw [(iterEnv_ok fastLen r0 src sr tshift gauss mute hn hsr).powR]
    rfl
  have hnR : (0 : ℝ) < (fastLen (2 * r0.length) : ℕ) := by exact_mod_cast Nat.pos_of_ne_zero hn
  rw [e]
  refine le_of_mul_le_mul_left ?_ hnR
  rw [← parseval _ hn, ← parseval _ hn]
  refine sum_le_sum fun k hk => pow_le_pow_left₀ (norm_nonneg _) ?_ 2
  have hk := mem_range.1 hk
  rw [srcFlt_spectrum fastLen r0 sr gauss r0 hn hsr k hk]
  have hd : ∑ j ∈ range (fastLen (2 * r0.length)), ((r0.getD j 0 : ℝ) : ℂ) * W (fastLen (2 * r0.length)) (-(j * k))
      = dft r0 (fastLen (2 * r0.length)) k := rfl
  rw [hd]
  unfold lowPassed
  refine mul_le_of_le_one_right (norm_nonneg _) ?_
  rw [Real.exp_le_one_iff]
  have := sq_nonneg (freqAt (fastLen (2 * r0.length)) (1 / sr) k / gauss)
  linarith

/-- The power of the filtered source in terms of its spectrum. -/
theorem powerS_spectrum (r0 : List ℝ) (hn : fastLen (2 * r0.length) ≠ 0) (hsr : sr ≠ 0) :
    ((fastLen (2 * r0.length) : ℕ) : ℝ) * (iterEnv fastLen r0 src sr tshift gauss mute).powerS
      = ∑ k ∈ range (fastLen (2 * r0.length)), lowPassed (fastLen (2 * r0.length)) (1 / sr) gauss src k ^ 2 := by
  have hok := iterEnv_ok fastLen r0 src sr tshift gauss mute hn hsr
  have hP := hok.powS
  have hnf : (iterEnv fastLen r0 src sr tshift gauss mute).nfft = fastLen (2 * r0.length) := rfl
  rw [hnf] at hP
  rw [hP, ← parseval _ hn]
  exact sum_congr rfl fun k hk => by rw [srcFlt_spectrum fastLen src sr gauss r0 hn hsr k (mem_range.1 hk)]

/-- The hypotheses of the convergence theorems: the response is the circular convolution (in the transform window) of
the source with `g`, which has spikes at admissible lags only, and the spectrum of the source is at least `σ`. -/
structure Explained (r0 g : List ℝ) (σ : ℝ) : Prop where
  conv : CircConv (fastLen (2 * r0.length)) src g r0
  lags : ∀ j < fastLen (2 * r0.length),
    ¬ Admissible (fastLen (2 * r0.length)) r0.length mute (samplesIn tshift sr) j → g.getD j 0 = 0
  shift : samplesIn tshift sr ≤ fastLen (2 * r0.length)
  pos : 0 < σ
  spec : ∀ k < fastLen (2 * r0.length), σ ≤ lowPassed (fastLen (2 * r0.length)) (1 / sr) gauss src k

/-- **C159, misfit.** Every pass reduces the recorded misfit at least by the factor `1 - ρ`, where `ρ` is the smallest
part of the energy of the source which is found at one frequency. -/
theorem C159_misfit (rsp : List (List ℝ)) (norm : Option ℤ) (rf : List (List ℝ)) (its : List ℕ) (rmss : List (List ℝ))
    (h : deconvIterative fastLen rsp src sr tshift gauss itmax minderr mute norm = .ok (rf, its, rmss))
    (c : ℕ) (r0 : List ℝ) (hc : rsp[c]? = some r0) (g : List ℝ) (σ : ℝ)
    (hex : Explained fastLen src sr tshift gauss mute r0 g σ) (ρ : ℝ)
    (hρ : ρ = σ ^ 2 / ∑ k ∈ range (fastLen (2 * r0.length)), lowPassed (fastLen (2 * r0.length)) (1 / sr) gauss src k ^ 2) :
    ∃ it rms, its[c]? = some it ∧ rmss[c]? = some rms ∧ ∀ j < it, rms.getD j 0 ≤ (1 - ρ) ^ (j + 1) := by
  obtain ⟨hsr, st, hst, g1, g2, -⟩ := iterative_comp _ _ _ _ _ _ _ _ _ _ rf its rmss h c r0 hc
  refine ⟨st.it, st.rms, g1, g2, ?_⟩
  unfold iterComp at hst
  simp only [] at hst
  split at hst
  · cases hst
  rename_i hn
  have hn' : fastLen (2 * r0.length) ≠ 0 := hn
  have hok := iterEnv_ok fastLen r0 src sr tshift gauss mute hn' hsr
  obtain ⟨hr, -⟩ := iterLoop_reach hok itmax minderr itmax _ st Reach.init (by simp [iterInit]) hst
  have := (reach_factor hok itmax minderr st hr (g.getD · 0)
    (fun m hm => rFlt_conv fastLen src sr tshift gauss mute r0 g hn' hsr hex.conv m hm)
    (fun j hj hm => hex.lags j hj fun ha =>
      not_muted_of_admissible fastLen r0 src sr tshift gauss mute hex.shift j hj ha hm) σ hex.pos
    (fun k hk => by
      have := hex.spec k hk
      rw [← srcFlt_spectrum fastLen src sr gauss r0 hn' hsr k hk] at this
      exact this)).2
  have hP := powerS_spectrum fastLen src sr tshift gauss mute r0 hn' hsr
  have hnf : (iterEnv fastLen r0 src sr tshift gauss mute).nfft = fastLen (2 * r0.length) := rfl
  rw [hnf, hP, ← hρ] at this
  exact this

/-- **C159, receiver function.** Without normalisation every sample of the result differs from the Gaussian filtered
train of the spikes that were convolved (delayed by `tshift`) by an error which becomes as small as desired with
increasing `itmax` and decreasing `minderr`. -/
theorem C159_converges (rsp : List (List ℝ)) (rf : List (List ℝ)) (its : List ℕ) (rmss : List (List ℝ))
    (h : deconvIterative fastLen rsp src sr tshift gauss itmax minderr mute none = .ok (rf, its, rmss))
    (c : ℕ) (r0 : List ℝ) (hc : rsp[c]? = some r0) (g : List ℝ) (σ : ℝ)
    (hex : Explained fastLen src sr tshift gauss mute r0 g σ) (ρ : ℝ)
    (hρ : ρ = σ ^ 2 / ∑ k ∈ range (fastLen (2 * r0.length)), lowPassed (fastLen (2 * r0.length)) (1 / sr) gauss src k ^ 2) :
    0 < ρ ∧ ρ ≤ 1 ∧
    ∃ x, rf[c]? = some x ∧ x.length = min r0.length (fastLen (2 * r0.length)) ∧ ∀ m < x.length,
      (x.getD m 0 - ∑ j ∈ range (fastLen (2 * r0.length)), g.getD j 0 * sr *
        gaussPulse (fastLen (2 * r0.length)) (1 / sr) gauss (((m : ℝ) - j) * (1 / sr) - tshift)) ^ 2
      ≤ max ((1 - ρ) ^ itmax) (minderr / (100 * ρ)) *
        (sr ^ 2 * (fastLen (2 * r0.length) : ℕ) / σ ^ 2 * ∑ j ∈ range (fastLen (2 * r0.length)), r0.getD j 0 ^ 2) := by
  obtain ⟨hsr, st, hst, g1, g2, x, g3, g4⟩ := iterative_comp _ _ _ _ _ _ _ _ _ _ rf its rmss h c r0 hc
  have g4 := g4 rfl
  subst g4
  unfold iterComp at hst
  simp only [] at hst
  split at hst
  · cases hst
  rename_i hn
  have hn' : fastLen (2 * r0.length) ≠ 0 := hn
  have hok := iterEnv_ok fastLen r0 src sr tshift gauss mute hn' hsr
  obtain ⟨hr, hstop⟩ := iterLoop_reach hok itmax minderr itmax _ st Reach.init (by simp [iterInit]) hst
  have hinv := reach_inv hok _ _ _ hr
  have hnf : (iterEnv fastLen r0 src sr tshift gauss mute).nfft = fastLen (2 * r0.length) := rfl
  have hdt : (iterEnv fastLen r0 src sr tshift gauss mute).dt = 1 / sr := rfl
  have hP := powerS_spectrum fastLen src sr tshift gauss mute r0 hn' hsr
  have hconv := fun m hm => rFlt_conv fastLen src sr tshift gauss mute r0 g hn' hsr hex.conv m hm
  have hspec : ∀ k < fastLen (2 * r0.length), σ ≤ ‖∑ j ∈ range (fastLen (2 * r0.length)),
      (srcFlt fastLen r0 src sr gauss j : ℂ) * W (fastLen (2 * r0.length)) (-(j * k))‖ := fun k hk => by
    rw [srcFlt_spectrum fastLen src sr gauss r0 hn' hsr k hk]
    exact hex.spec k hk
  have hρ' : ρ = σ ^ 2 / ((iterEnv fastLen r0 src sr tshift gauss mute).nfft *
      (iterEnv fastLen r0 src sr tshift gauss mute).powerS) := by rw [hnf, hP]; exact hρ
  have hS : 0 < (iterEnv fastLen r0 src sr tshift gauss mute).powerS := by
    have hnR : (0 : ℝ) < (fastLen (2 * r0.length) : ℕ) := by exact_mod_cast Nat.pos_of_ne_zero hn'
    have h0 : 0 < ∑ k ∈ range (fastLen (2 * r0.length)), lowPassed (fastLen (2 * r0.length)) (1 / sr) gauss src k ^ 2 :=
      sum_pos (fun k hk => pow_pos (hex.pos.trans_le (hex.spec k (mem_range.1 hk))) 2)
        ⟨0, mem_range.2 (Nat.pos_of_ne_zero hn')⟩
    rw [← hP] at h0
    exact (mul_pos_iff_of_pos_left hnR).1 h0
  obtain ⟨q0, q1⟩ := rate_le_one hok hS σ hex.pos hspec
  rw [← hρ'] at q0 q1
  refine ⟨q0, q1, _, g3, (C22_output fastLen sr tshift gauss r0 _ hsr).1, fun m hm => ?_⟩
  have hfin := final_factor hok itmax minderr st hr hstop (g.getD · 0) hconv
    (fun j hj hm => hex.lags j hj fun ha =>
      not_muted_of_admissible fastLen r0 src sr tshift gauss mute hex.shift j hj ha hm) σ hex.pos hspec ρ hρ'
  have htr := train_distance st hinv.ok (g.getD · 0) hconv σ hex.pos hspec
  rw [hnf, hdt] at htr
  set n := fastLen (2 * r0.length) with hnn
  set B := max ((1 - ρ) ^ itmax) (minderr / (100 * ρ)) with hB
  have hB0 : 0 ≤ B := le_max_of_le_left (pow_nonneg (by linarith) _)
  rw [(C22_output fastLen sr tshift gauss r0 _ hsr).2 m hm, ← hnn, ← sum_sub_distrib]
  have e1 : ∀ j ∈ range n, st.p0.getD j 0 * gaussPulse n (1 / sr) gauss (((m : ℝ) - j) * (1 / sr) - tshift) -
      g.getD j 0 * sr * gaussPulse n (1 / sr) gauss (((m : ℝ) - j) * (1 / sr) - tshift)
      = -sr * ((g.getD j 0 - 1 / sr * st.p0.getD j 0) *
        gaussPulse n (1 / sr) gauss (((m : ℝ) - j) * (1 / sr) - tshift)) := by
    intro j _
    field_simp
    ring
  rw [sum_congr rfl e1, ← mul_sum, mul_pow, neg_sq]
  have hcs := sum_mul_sq_le_sq_mul_sq (range n) (fun j => g.getD j 0 - 1 / sr * st.p0.getD j 0)
    (fun (j : ℕ) => gaussPulse n (1 / sr) gauss (((m : ℝ) - j) * (1 / sr) - tshift))
  have hgp : ∑ j ∈ range n, gaussPulse n (1 / sr) gauss (((m : ℝ) - j) * (1 / sr) - tshift) ^ 2 ≤ n := by
    calc _ ≤ ∑ _j ∈ range n, (1 : ℝ) := sum_le_sum fun j _ => by
          rw [← sq_abs]
          exact pow_le_one₀ (abs_nonneg _) (gaussPulse_le _ _ _ _)
      _ = n := by simp
  have hσ2 : 0 < σ ^ 2 := pow_pos hex.pos 2
  have hE := powerR_le fastLen src sr tshift gauss mute r0 hn' hsr
  rw [← hnn] at hE
  set E := ∑ j ∈ range n, r0.getD j 0 ^ 2 with hEdef
  have hE0 : 0 ≤ E := sum_nonneg fun _ _ => sq_nonneg _
  have htr2 : ∑ j ∈ range n, (g.getD j 0 - 1 / sr * st.p0.getD j 0) ^ 2 ≤ B * E / σ ^ 2 := by
    refine htr.trans ((div_le_div_iff_of_pos_right hσ2).2 ?_)
    exact hfin.trans (mul_le_mul_of_nonneg_left hE hB0)
  calc _ ≤ sr ^ 2 * ((∑ j ∈ range n, (g.getD j 0 - 1 / sr * st.p0.getD j 0) ^ 2) *
        ∑ j ∈ range n, gaussPulse n (1 / sr) gauss (((m : ℝ) - j) * (1 / sr) - tshift) ^ 2) :=
        mul_le_mul_of_nonneg_left hcs (sq_nonneg _)
    _ ≤ sr ^ 2 * (B * E / σ ^ 2 * n) := by
        refine mul_le_mul_of_nonneg_left ?_ (sq_nonneg _)
        exact mul_le_mul htr2 hgp (sum_nonneg fun _ _ => sq_nonneg _) (by positivity)
    _ = _ := by ring

/-- **C159, limit.** For a given response, source and spike train the result is as close to the filtered spike train
as desired, for all sufficiently large `itmax` and all sufficiently small `minderr`. -/
theorem C159_limit (rsp : List (List ℝ)) (c : ℕ) (r0 : List ℝ) (hc : rsp[c]? = some r0) (g : List ℝ) (σ : ℝ)
    (hn : fastLen (2 * r0.length) ≠ 0)
    (hex : Explained fastLen src sr tshift gauss mute r0 g σ) (ε : ℝ) (hε : 0 < ε) :
    ∃ N δ, 0 < δ ∧ ∀ itmax minderr, N ≤ itmax → minderr ≤ δ → ∀ rf its rmss,
      deconvIterative fastLen rsp src sr tshift gauss itmax minderr mute none = .ok (rf, its, rmss) →
      ∃ x, rf[c]? = some x ∧ x.length = min r0.length (fastLen (2 * r0.length)) ∧ ∀ m < x.length,
        |x.getD m 0 - ∑ j ∈ range (fastLen (2 * r0.length)), g.getD j 0 * sr *
          gaussPulse (fastLen (2 * r0.length)) (1 / sr) gauss (((m : ℝ) - j) * (1 / sr) - tshift)| ≤ ε := by
  set L := ∑ k ∈ range (fastLen (2 * r0.length)), lowPassed (fastLen (2 * r0.length)) (1 / sr) gauss src k ^ 2 with hL
  set ρ := σ ^ 2 / L with hρ
  set C := sr ^ 2 * (fastLen (2 * r0.length) : ℕ) / σ ^ 2 * ∑ j ∈ range (fastLen (2 * r0.length)), r0.getD j 0 ^ 2 with hC
  have hC0 : 0 ≤ C := mul_nonneg (by positivity) (sum_nonneg fun _ _ => sq_nonneg _)
  have hLge : σ ^ 2 ≤ L := by
    calc σ ^ 2 ≤ lowPassed (fastLen (2 * r0.length)) (1 / sr) gauss src 0 ^ 2 :=
          pow_le_pow_left₀ hex.pos.le (hex.spec 0 (Nat.pos_of_ne_zero hn)) 2
      _ ≤ L := single_le_sum
          (f := fun k : ℕ => lowPassed (fastLen (2 * r0.length)) (1 / sr) gauss src k ^ 2)
          (fun _ _ => sq_nonneg _) (mem_range.2 (Nat.pos_of_ne_zero hn))
  have hσ2 : 0 < σ ^ 2 := pow_pos hex.pos 2
  have q0 : 0 < ρ := div_pos hσ2 (hσ2.trans_le hLge)
  have q1 : ρ ≤ 1 := (div_le_one (hσ2.trans_le hLge)).2 hLge
  set η := ε ^ 2 / (C + 1) with hη
  have hη0 : 0 < η := by positivity
  obtain ⟨N, hN⟩ := exists_pow_lt_of_lt_one hη0 (show 1 - ρ < 1 by linarith)
  refine ⟨N, η * (100 * ρ), by positivity, fun itmax minderr hit hmin rf its rmss h => ?_⟩
  obtain ⟨-, -, x, h1, h2, h3⟩ := C159_converges fastLen src sr tshift gauss itmax minderr mute rsp rf its rmss h c r0 hc g
    σ hex ρ hρ
  refine ⟨x, h1, h2, fun m hm => ?_⟩
  have h4 := h3 m hm
  have hB : max ((1 - ρ) ^ itmax) (minderr / (100 * ρ)) ≤ η := by
    refine max_le ?_ ((div_le_iff₀ (by positivity)).2 hmin)
    exact (pow_le_pow_of_le_one (by linarith) (by linarith) hit).trans hN.le
  rw [← sq_le_sq₀ (abs_nonneg _) hε.le, sq_abs]
  refine h4.trans ?_
  calc _ ≤ η * C := mul_le_mul_of_nonneg_right hB hC0
    _ ≤ η * (C + 1) := mul_le_mul_of_nonneg_left (by linarith) hη0.le
    _ = ε ^ 2 := by rw [hη]; field_simp

end api

/-- A spectrum without zeros is bounded from below. -/
theorem exists_floor (n : ℕ) (dt g : ℝ) (src : List ℝ) (h : ∀ k < n, dft src n k ≠ 0) :
    ∃ σ : ℝ, 0 < σ ∧ ∀ k < n, σ ≤ lowPassed n dt g src k := by
  have hp : ∀ k < n, 0 < lowPassed n dt g src k := fun k hk =>
    mul_pos (norm_pos_iff.2 (h k hk)) (Real.exp_pos _)
  rcases Nat.eq_zero_or_pos n with rfl | hn
  · exact ⟨1, one_pos, fun k hk => absurd hk (Nat.not_lt_zero k)⟩
  · obtain ⟨k, hk, hmin⟩ := exists_min_image (range n) (lowPassed n dt g src) ⟨0, mem_range.2 hn⟩
    exact ⟨_, hp k (mem_range.1 hk), fun j hj => hmin j (mem_range.2 hj)⟩

/-- C159 is not vacuous: the source `[2, 1]` and the spikes 1 and 1/2 at the lags 0 and 1. -/
example : (∃ σ, Explained id [2, 1] 10 (1 / 10) (1 / 2) false [2, 2, 1 / 2] [1, 1 / 2] σ) ∧
    ∃ out, deconvIterative id [[2, 2, 1 / 2]] [2, 1] 10 (1 / 10) (1 / 2) 400 (1 / 1000) false none = .ok out := by
  constructor
  · obtain ⟨σ, h0, h1⟩ := exists_floor (id (2 * 3)) (1 / 10) (1 / 2) [2, 1] (fun k hk =>
      (two_one_above _ (by decide) k hk).1)
    refine ⟨σ, ?_, ?_, by norm_num [samplesIn], h0, h1⟩
    · intro j hj
      simp only [List.length_cons, List.length_nil, id] at hj ⊢
      interval_cases j <;> norm_num [sum_range_succ]
    · intro j hj hna
      by_contra hne
      apply hna
      left
      simp only [List.length_cons, List.length_nil, id] at hj ⊢
      interval_cases j <;> first | omega | (exfalso; apply hne; norm_num)
  · exact C21_succeeds id _ _ _ _ _ _ _ _ (by norm_num) (by norm_num) (by
      intro r hr
      rw [List.mem_singleton] at hr
      subst hr
      exact ⟨0, by decide, by norm_num⟩)

end Verif.Props
