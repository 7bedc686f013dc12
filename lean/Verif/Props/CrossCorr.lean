import Verif.Props.WaterNorm
import Verif.Props.TimeEnergy

/-!
# C210: with strong damping the deconvolutions are cross-correlations with the source
-/

set_option linter.unusedSimpArgs false
set_option linter.unusedSectionVars false

namespace Verif.Spec
open Finset

/-- Circular cross-correlation of `r` with `s` at lag `d`, both cut or padded with zeros to `n` samples. -/
def circCorr (n : ℕ) (r s : List ℝ) (d : ℤ) : ℝ :=
  ∑ j ∈ range n, s.getD j 0 * r.getD (((j : ℤ) + d) % n).toNat 0

/-- `M` is the largest power of the source at any frequency. -/
def IsPeakPower (s : List ℝ) (n : ℕ) (M : ℝ) : Prop :=
  (∃ j < n, M = ‖dft s n j‖ ^ 2) ∧ ∀ j < n, ‖dft s n j‖ ^ 2 ≤ M

end Verif.Spec

namespace Verif.Props
open Verif.Py Verif.Model Verif.Spec Finset Complex

section high
variable (fastLen : ℕ → ℕ) (rsp : List (List ℝ)) (src : List ℝ) (sr wl T : ℝ) (gauss : Option ℝ)

theorem peak_unique (n : ℕ) (M M' : ℝ) (h : IsPeakPower src n M) (h' : IsPeakPower src n M') : M = M' := by
  obtain ⟨⟨j, hj, rfl⟩, h2⟩ := h
  obtain ⟨⟨j', hj', rfl⟩, h2'⟩ := h'
  exact le_antisymm (h2' j hj) (h2 j' hj')

/-- All denominators are the water level. -/
theorem high_water (hwl : 1 ≤ wl) (n : ℕ) (hn : 0 < n) :
    ∃ M, IsPeakPower src n M ∧ 0 ≤ M ∧ ∀ k < n, (waterPower (fft (toC src) n) wl).getD k 0 = M * wl := by
  obtain ⟨M, h1, h2, h3⟩ := water_get src wl n hn
  have h0 : 0 ≤ M := by obtain ⟨j, _, rfl⟩ := h1; positivity
  refine ⟨M, ⟨h1, h2⟩, h0, fun k hk => ?_⟩
  rw [h3 k hk, max_eq_right]
  nlinarith [h2 k hk]

theorem circ_sum (n : ℕ) (hn : n ≠ 0) (r s : List ℝ) (d : ℤ) :
    (∑ k ∈ range n, dft r n k * (starRingEnd ℂ) (dft s n k) * W n (k * d)) / n = (circCorr n r s d : ℝ) := by
  have hn' : (n : ℂ) ≠ 0 := by exact_mod_cast hn
  have h1 : ∀ k ∈ range n, dft r n k * (starRingEnd ℂ) (dft s n k) * W n (k * d)
      = ∑ j ∈ range n, ∑ a ∈ range n, (s.getD j 0 : ℂ) * (r.getD a 0 : ℂ) * W n (k * ((j : ℤ) + d - a)) := by
    intro k _
    unfold dft
    rw [map_sum, sum_mul_sum, sum_comm, sum_mul]
    refine sum_congr rfl fun j _ => ?_
    rw [sum_mul]
    refine sum_congr rfl fun a _ => ?_
    rw [map_mul, Complex.conj_ofReal, chr_eq, chr_eq, W_conj]
    rw [show (k : ℤ) * ((j : ℤ) + d - a) = -((a : ℤ) * k) + (-(-((j : ℤ) * k)) + k * d) by ring, W_add, W_add]
    ring
  rw [sum_congr rfl h1, sum_comm]
  unfold circCorr
  rw [sum_div]
  push_cast
  refine sum_congr rfl fun j _ => ?_
  rw [sum_comm]
  simp only [← mul_sum]
  simp only [sum_W n hn]
  have hpos : (0 : ℤ) < n := by omega
  have hm0 := Int.emod_nonneg ((j : ℤ) + d) (show (n : ℤ) ≠ 0 by omega)
  have hm1 := Int.emod_lt_of_pos ((j : ℤ) + d) hpos
  rw [sum_eq_single ((((j : ℤ) + d) % n).toNat)]
  · rw [if_pos]
    · field_simp
    · rw [Int.toNat_of_nonneg hm0]
      exact Int.dvd_self_sub_emod
  · intro a ha hne
    rw [if_neg, mul_zero]
    intro hd
    apply hne
    have ha := mem_range.1 ha
    have : ((j : ℤ) + d) % n = a := by
      obtain ⟨q, hq⟩ := hd
      rw [show (j : ℤ) + d = a + n * q by linarith, Int.add_mul_emod_self_left]
      exact Int.emod_eq_of_lt (by omega) (by omega)
    omega
  · intro h
    exact absurd (mem_range.2 (by omega)) h

/-- **C210** (water level).  With a water level of one or more the result is the circular cross-correlation with the source, delayed by
the time shift, divided by the water level times the largest power of the source. -/
theorem C210_water (hwl : 1 ≤ wl) (length nfft : Option ℕ) (N : ℕ) (hN : outLen rsp length = some N) (s : ℤ) (rf : List (List ℂ))
    (h : deconvWaterlevel fastLen rsp src sr wl none (s / sr) length .none nfft = .ok rf)
    (i : ℕ) (r : List ℝ) (hr : rsp[i]? = some r) :
    ∃ x M, rf[i]? = some x ∧ x.length = min N (nfft.getD (fastLen N)) ∧ IsPeakPower src (nfft.getD (fastLen N)) M ∧ 0 < M ∧
      ∀ m < x.length, x.getD m 0 = ((circCorr (nfft.getD (fastLen N)) r src (m - s) / (M * wl) : ℝ) : ℂ) := by
  obtain ⟨hn, hsr, hw, rfl⟩ := water_raw _ _ _ _ _ _ _ _ _ N hN _ h
  set n := nfft.getD (fastLen N) with hn'
  obtain ⟨M, hM, hM0, hall⟩ := high_water src wl hwl n (Nat.pos_of_ne_zero hn)
  have hMwl : M * wl ≠ 0 := by
    rw [← hall 0 (Nat.pos_of_ne_zero hn)]
    exact water_nonempty src wl n hw 0 (Nat.pos_of_ne_zero hn)
  refine ⟨_, M, by rw [List.getElem?_map, hr]; rfl, rawRf_length .., hM, lt_of_le_of_ne hM0 (fun h => hMwl (by rw [← h, zero_mul])), ?_⟩
  intro m hm
  rw [rawRf_length, lt_min_iff] at hm
  rw [rawRf_get _ _ _ _ _ _ _ _ _ hm.1 hm.2, Complex.ofReal_div, ← circ_sum n hn, div_right_comm, sum_div _ _ ((M * wl : ℝ) : ℂ)]
  congr 1
  refine Finset.sum_congr rfl fun k hk => ?_
  have hk := mem_range.1 hk
  have hf : filterAt n (1 / sr) (s / sr) none k = W n (-(k * s)) := by
    have h1 := phase_W n (1 / sr) (by positivity) s k hk
    have h2 := filter_get n (1 / sr) (s * (1 / sr)) none k hk
    unfold waterFilter at h2
    simp only at h2
    rw [h1, mul_one_div] at h2
    exact h2.symm
  rw [hall k hk, hf, show (k : ℤ) * ((m : ℤ) - s) = -(k * s) + k * m by ring, W_add]
  ring

theorem rawRf_level (wl' : ℝ) (hwl : 1 ≤ wl) (hwl' : 1 ≤ wl') (n N : ℕ) (r : List ℝ) :
    rawRf src sr wl T gauss n N r = (rawRf src sr wl' T gauss n N r).map (((wl' / wl : ℝ) : ℂ) * ·) := by
  refine listC_ext _ _ (by simp [rawRf_length]) fun m hm => ?_
  rw [rawRf_length, lt_min_iff] at hm
  obtain ⟨M, hM, -, hall⟩ := high_water src wl hwl n (by omega)
  obtain ⟨M', hM', -, hall'⟩ := high_water src wl' hwl' n (by omega)
  have hMM := peak_unique src n M M' hM hM'
  subst hMM
  rw [getD_map_of_lt _ _ 0 0 m (by rw [rawRf_length]; exact lt_min hm.1 hm.2),
    rawRf_get _ _ _ _ _ _ _ _ _ hm.1 hm.2, rawRf_get _ _ _ _ _ _ _ _ _ hm.1 hm.2, ← mul_div_assoc, mul_sum]
  congr 1
  refine sum_congr rfl fun k hk => ?_
  have hk := mem_range.1 hk
  rw [hall k hk, hall' k hk]
  have h1 : (wl : ℂ) ≠ 0 := by exact_mod_cast (by linarith : wl ≠ 0)
  have h2 : (wl' : ℂ) ≠ 0 := by exact_mod_cast (by linarith : wl' ≠ 0)
  push_cast
  by_cases hw : (M : ℂ) = 0
  · simp [hw]
  · field_simp

theorem zero_level (wl' : ℝ) (hwl : 1 ≤ wl) (hwl' : 1 ≤ wl') (n : ℕ) (hn : 0 < n) :
    0 ∈ waterPower (fft (toC src) n) wl ↔ 0 ∈ waterPower (fft (toC src) n) wl' := by
  obtain ⟨M, hM, -, hall⟩ := high_water src wl hwl n hn
  obtain ⟨M', hM', -, hall'⟩ := high_water src wl' hwl' n hn
  have hMM := peak_unique src n M M' hM hM'
  subst hMM
  have e : ∀ wl : ℝ, 1 ≤ wl → (∀ k < n, (waterPower (fft (toC src) n) wl).getD k 0 = M * wl) → (0 ∈ waterPower (fft (toC src) n) wl ↔ M = 0) := by
    intro wl hwl hall
    constructor
    · intro h
      obtain ⟨k, hk, h⟩ := List.getElem_of_mem h
      have := hall k (by simpa using hk)
      rw [List.getD_eq_getElem _ _ hk, h] at this
      rcases mul_eq_zero.1 this.symm with h | h
      · exact h
      · linarith
    · intro h
      have := hall 0 hn
      rw [h, zero_mul, List.getD_eq_getElem _ _ (by simpa using hn)] at this
      rw [← this]
      exact List.getElem_mem _
  rw [e wl hwl hall, e wl' hwl' hall']

/-- **C210** (water level, normalised).  The normalised outcome (also a failure) is the same for all water levels of one or more. -/
theorem C210_levels (wl' : ℝ) (hwl : 1 ≤ wl) (hwl' : 1 ≤ wl') (length nfft : Option ℕ) (norm : Norm) (hnorm : norm ≠ .none) :
    deconvWaterlevel fastLen rsp src sr wl gauss T length norm nfft = deconvWaterlevel fastLen rsp src sr wl' gauss T length norm nfft := by
  cases hN : outLen rsp length with
  | none =>
    unfold outLen at hN
    cases length with
    | some l => simp at hN
    | none =>
      cases rsp with
      | nil => rfl
      | cons r rs => simp at hN
  | some N =>
    rw [water_eq _ _ _ _ _ _ _ _ _ _ N hN, water_eq _ _ _ _ _ _ _ _ _ _ N hN]
    simp only
    by_cases hn : nfft.getD (fastLen N) = 0
    · rw [if_pos hn, if_pos hn]
    rw [if_neg hn, if_neg hn]
    by_cases hsr : sr = 0
    · rw [if_pos hsr, if_pos hsr]
    rw [if_neg hsr, if_neg hsr]
    have hz := zero_level src wl wl' hwl hwl' _ (Nat.pos_of_ne_zero hn)
    by_cases hw : 0 ∈ waterPower (fft (toC src) (nfft.getD (fastLen N))) wl
    · rw [if_pos hw, if_pos (hz.1 hw)]
    rw [if_neg hw, if_neg (fun h => hw (hz.2 h))]
    set n := nfft.getD (fastLen N)
    have e0 : 0 < wl' / wl := by positivity
    have e1 : rsp.map (rawRf src sr wl T gauss n N) = (rsp.map (rawRf src sr wl' T gauss n N)).map (·.map (((wl' / wl : ℝ) : ℂ) * ·)) := by
      rw [List.map_map]
      exact List.map_congr_left fun r _ => rawRf_level src sr wl T gauss wl' hwl hwl' n N r
    have scale : ∀ (x : Res (List ℂ)),
        (do
          let y ← x.map (·.map (((wl' / wl : ℝ) : ℂ) * ·))
          let m ← maxC y
          if m = 0 then .error .other else .ok (scaleAll (1 / m) ((rsp.map (rawRf src sr wl' T gauss n N)).map (·.map (((wl' / wl : ℝ) : ℂ) * ·)))) :
            Res (List (List ℂ))) =
        (do
          let y ← x
          let m ← maxC y
          if m = 0 then .error .other else .ok (scaleAll (1 / m) (rsp.map (rawRf src sr wl' T gauss n N)))) := by
      intro x
      cases x with
      | error e => rfl
      | ok x =>
        simp only [Except.map, bind, Except.bind]
        rw [maxC_smul _ _ e0]
        cases maxC x with
        | error e => rfl
        | ok m =>
          simp only [Except.map]
          have hne : ((wl' / wl : ℝ) : ℂ) ≠ 0 := by exact_mod_cast e0.ne'
          by_cases h0 : m = 0
          · rw [if_pos h0, if_pos (by rw [h0, mul_zero])]
          · rw [if_neg h0, if_neg (mul_ne_zero hne h0)]
            congr 1
            unfold scaleAll
            rw [List.map_map]
            refine List.map_congr_left fun y _ => ?_
            simp only [Function.comp, List.map_map]
            refine List.map_congr_left fun v _ => ?_
            simp only [Function.comp]
            generalize ((wl' / wl : ℝ) : ℂ) = q at hne
            field_simp
    cases norm with
    | none => exact absurd rfl hnorm
    | src =>
      simp only
      rw [e1, rawRf_level src sr wl T gauss wl' hwl hwl' n N src]
      exact scale (.ok _)
    | idx i =>
      simp only
      rw [e1, getItem_map]
      exact scale _

end high

section spiking
variable {K : Type} [Field K] [LinearOrder K] [IsStrictOrderedRing K]

theorem corr_bound (s : List K) (d : ℤ) : |corrAt s s d| ≤ energy s := by
  have h1 := window_energy s s.length d
  have h2 : ∑ m ∈ range s.length, sig s (m : ℤ) ^ 2 = energy s := by
    unfold energy
    exact sum_congr rfl fun m _ => by rw [sig_nat]
  have e1 : ∑ m ∈ range s.length, (sig s ((m : ℤ) + d) + sig s (m : ℤ)) ^ 2
      = ∑ m ∈ range s.length, sig s ((m : ℤ) + d) ^ 2 + 2 * corrAt s s d + energy s := by
    rw [← h2]
    unfold corrAt
    rw [mul_sum, ← sum_add_distrib, ← sum_add_distrib]
    exact sum_congr rfl fun m _ => by ring_nf
  have e2 : ∑ m ∈ range s.length, (sig s ((m : ℤ) + d) - sig s (m : ℤ)) ^ 2
      = ∑ m ∈ range s.length, sig s ((m : ℤ) + d) ^ 2 - 2 * corrAt s s d + energy s := by
    rw [← h2]
    unfold corrAt
    rw [mul_sum, ← sum_sub_distrib, ← sum_add_distrib]
    exact sum_congr rfl fun m _ => by ring_nf
  have p1 : 0 ≤ ∑ m ∈ range s.length, (sig s ((m : ℤ) + d) + sig s (m : ℤ)) ^ 2 := sum_nonneg fun _ _ => sq_nonneg _
  have p2 : 0 ≤ ∑ m ∈ range s.length, (sig s ((m : ℤ) + d) - sig s (m : ℤ)) ^ 2 := sum_nonneg fun _ _ => sq_nonneg _
  rw [abs_le]
  constructor <;> linarith

/-- **C210** (time domain).  `spiking` times the result is the cross-correlation with the source, up to an error which is small for
large `spiking`. -/
theorem C210_time (solve : List K → List K → Res (List K)) (hsolve : ExactSolver solve)
    (src : List K) (hE : ∃ v ∈ src, v ≠ 0) (lam : K) (hlam : 0 < lam) (N : ℕ) (hN : 1 ≤ N) (shift : ℤ)
    (rsp rf : List (List K)) (h : deconvTime solve rsp src shift lam (some N) none = .ok rf)
    (i : ℕ) (r : List K) (hr : rsp[i]? = some r) :
    ∃ x, rf[i]? = some x ∧ x.length = N ∧ ∀ m < N,
      4 * lam * (lam * x.getD m 0 - corrAt r src (m + xcorrOffset r.length src.length N shift)) ^ 2
        ≤ N * (energyOf src * energyOf r) := by
  obtain ⟨sts, h1, h2, F, hF, hU, hloop⟩ := timeLoop_map solve hsolve src hE lam hlam N hN shift
  have : rf = rsp.map F := by
    unfold deconvTime at h
    simp only [bind, Except.bind, h1, hloop] at h
    injection h with h
    exact h.symm
  subst this
  refine ⟨F r, by rw [List.getElem?_map, hr]; rfl, by rw [(hF r).1, h2], fun m hm => ?_⟩
  rw [energyOf_eq, energyOf_eq]
  have hen := sol_energy src hE lam N hN shift sts h1 r _ (hF r)
  have hE0 := energy_pos src hE
  obtain ⟨sts', a1, a2, a3⟩ := stsVec_values src N hN lam hE0.ne'
  rw [h1] at a1
  injection a1 with a1
  subst a1
  have hx := hF r
  rw [isSol_iff src N lam sts a2 a3] at hx
  have hrow := hx.2 m hm
  rw [xcorrt_eq _ _ _ _ hN, List.getD_eq_getElem _ _ (by simpa using hm)] at hrow
  simp only [List.getElem_map, List.getElem_range] at hrow
  have e2 : ∑ j ∈ range N, (corrAt src src ((m : ℤ) - j) / energy src + if m = j then lam else 0) * (F r).getD j 0
      = ∑ j ∈ range N, corrAt src src ((m : ℤ) - j) / energy src * (F r).getD j 0 + lam * (F r).getD m 0 := by
    rw [← sum_ite_eq_of_mem (range N) m (fun j => lam * (F r).getD j 0) (mem_range.2 hm), ← sum_add_distrib]
    refine sum_congr rfl fun j _ => ?_
    split
    · ring
    · ring
  rw [e2] at hrow
  have e3 : (lam * (F r).getD m 0 - corrAt r src (m + xcorrOffset r.length src.length N shift)) ^ 2
      = (∑ j ∈ range N, corrAt src src ((m : ℤ) - j) / energy src * (F r).getD j 0) ^ 2 := by
    rw [← hrow]; ring
  have hcs := sum_mul_sq_le_sq_mul_sq (range N) (fun (j : ℕ) => corrAt src src ((m : ℤ) - j) / energy src) (fun j => (F r).getD j 0)
  have hA : ∑ j ∈ range N, (corrAt src src ((m : ℤ) - (j : ℕ)) / energy src) ^ 2 ≤ (N : K) := by
    calc ∑ j ∈ range N, (corrAt src src ((m : ℤ) - (j : ℕ)) / energy src) ^ 2 ≤ ∑ j ∈ range N, (1 : K) := by
          refine sum_le_sum fun j _ => ?_
          rw [sq_le_one_iff_abs_le_one, abs_div, abs_of_pos hE0, div_le_one hE0]
          exact corr_bound src _
      _ = N := by simp
  have hxe : ∑ j ∈ range N, (F r).getD j 0 ^ 2 = energy (F r) := by unfold energy; rw [hx.1]
  rw [hxe] at hcs
  have hx0 : 0 ≤ energy (F r) := by unfold energy; exact sum_nonneg fun _ _ => sq_nonneg _
  rw [e3]
  calc 4 * lam * (∑ j ∈ range N, corrAt src src ((m : ℤ) - j) / energy src * (F r).getD j 0) ^ 2
      ≤ 4 * lam * (N * energy (F r)) := by
        refine mul_le_mul_of_nonneg_left (hcs.trans (mul_le_mul_of_nonneg_right hA hx0)) (by positivity)
    _ = N * (4 * lam * energy (F r)) := by ring
    _ ≤ N * (energy src * energy r) := mul_le_mul_of_nonneg_left hen (by positivity)

end spiking

/-- Source `[1, 2]`, response `[1, 2, 0, 0]`: correlations at the lags 0, 1 and, around the end, 3. -/
example : circCorr 4 [1, 2, 0, 0] [1, 2] 0 = 5 ∧ circCorr 4 [1, 2, 0, 0] [1, 2] 1 = 2 ∧ circCorr 4 [1, 2, 0, 0] [1, 2] (-1) = 2 := by
  refine ⟨?_, ?_, ?_⟩ <;> (simp [circCorr, sum_range_succ]; try norm_num)

/-- Water levels of one and more are accepted: the call does not fail for a spike as source. -/
example : ∃ rf, deconvWaterlevel (fun n => n) [[1, 2]] [1, 0] 1 2 none ((1 : ℤ) / 1) none .none none = .ok rf := by
  rw [water_eq _ _ _ _ _ _ _ _ _ _ 2 rfl]
  simp only
  rw [if_neg (by simp), if_neg (by norm_num), if_neg]
  · exact ⟨_, rfl⟩
  · obtain ⟨M, ⟨-, h2⟩, -, hall⟩ := high_water [1, 0] 2 (by norm_num) 2 (by norm_num)
    have hM : 1 ≤ M := by
      have := h2 0 (by norm_num)
      simpa [dft, sum_range_succ, chr_eq, W] using this
    intro h0
    simp only [Option.getD_none] at h0
    obtain ⟨k, hk, h⟩ := List.getElem_of_mem h0
    have := hall k (by simpa using hk)
    rw [List.getD_eq_getElem _ _ hk, h] at this
    linarith

end Verif.Props
