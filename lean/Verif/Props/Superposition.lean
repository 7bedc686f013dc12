import Verif.Props.MultitaperWindows
import Verif.Props.WaterNorm
import Verif.Props.DeconvTime
import Verif.Props.OneSpike
import Verif.Props.GainKernels
import Verif.Spec.Superposed

/-!
# Superposition of responses in the four deconvolution methods (C172)
-/

set_option linter.unusedSimpArgs false
set_option linter.unusedSectionVars false

namespace Verif.Props
open Verif.Py Verif.Model Verif.Spec Finset Complex

section general
variable {F : Type} [Field F]

theorem superposed_eq {a b : F} {x y z : List F} (h : Superposed a b x y z) :
    x = List.zipWith (· + ·) (y.map (a * ·)) (z.map (b * ·)) := by
  obtain ⟨h1, h2, h3⟩ := h
  refine List.ext_getElem (by simp [← h1, ← h2]) fun m hx hy => ?_
  have := h3 m hx
  rw [List.getD_eq_getElem _ _ hx, List.getD_eq_getElem _ _ (by omega), List.getD_eq_getElem _ _ (by omega)] at this
  rw [this]
  simp

theorem superposed_of_eq {a b : F} {x y z : List F} (hl : y.length = z.length)
    (h : x = List.zipWith (· + ·) (y.map (a * ·)) (z.map (b * ·))) : Superposed a b x y z := by
  subst h
  refine ⟨by simp [hl], by simp [hl], fun m hm => ?_⟩
  have hm' : m < y.length ∧ m < z.length := by simpa using hm
  rw [List.getD_eq_getElem _ _ hm, List.getD_eq_getElem _ _ hm'.1, List.getD_eq_getElem _ _ hm'.2]
  simp

/-- Beyond the ends the arrays count as zero. -/
theorem superposed_get {a b : F} {x y z : List F} (h : Superposed a b x y z) (m : ℕ) :
    x.getD m 0 = a * y.getD m 0 + b * z.getD m 0 := by
  obtain ⟨h1, h2, h3⟩ := h
  by_cases hm : m < x.length
  · exact h3 m hm
  · rw [List.getD_eq_default _ _ (by omega), List.getD_eq_default _ _ (by omega),
      List.getD_eq_default _ _ (by omega)]
    ring

/-- A common factor. -/
theorem superposed_scale {a b : F} {x y z : List F} (c : F) (h : Superposed a b x y z) :
    Superposed a b (x.map (· * c)) (y.map (· * c)) (z.map (· * c)) := by
  obtain ⟨h1, h2, h3⟩ := h
  refine ⟨by simp [h1], by simp [h2], fun m hm => ?_⟩
  have hm : m < x.length := by simpa using hm
  have := h3 m hm
  rw [List.getD_eq_getElem _ _ hm, List.getD_eq_getElem _ _ (by omega), List.getD_eq_getElem _ _ (by omega)] at this
  rw [List.getD_eq_getElem _ _ (by simpa using hm), List.getD_eq_getElem _ _ (by rw [List.length_map]; omega),
    List.getD_eq_getElem _ _ (by rw [List.length_map]; omega), List.getElem_map, List.getElem_map, List.getElem_map, this]
  ring

theorem getItem_congr_map {α β : Type} (f : α → β) (l l' : List α) (n : ℤ) (h : getItem l n = getItem l' n) :
    getItem (l.map f) n = getItem (l'.map f) n := by
  rw [getItem_map, getItem_map, h]

end general

section time
variable {K : Type} [Field K] [LinearOrder K] [IsStrictOrderedRing K]

/-- **C172, time domain.**  A superposition of two responses gives the superposition of the results, with or without
normalisation to a response which is the same in the three calls. -/
theorem C172_time_partial (solve : List K → List K → Res (List K)) (hsolve : ExactSolver solve)
    (src : List K) (hE : ∃ v ∈ src, v ≠ 0) (lam : K) (hlam : 0 < lam) (N : ℕ) (hN : 1 ≤ N) (shift : ℤ)
    (norm : Option ℤ) (rsp rsp1 rsp2 rf rf1 rf2 : List (List K))
    (h : deconvTime solve rsp src shift lam (some N) norm = .ok rf)
    (h1 : deconvTime solve rsp1 src shift lam (some N) norm = .ok rf1)
    (h2 : deconvTime solve rsp2 src shift lam (some N) norm = .ok rf2)
    (hnorm : ∀ n, norm = some n → getItem rsp1 n = getItem rsp n ∧ getItem rsp2 n = getItem rsp n)
    (i : ℕ) (r r1 r2 : List K) (hr : rsp[i]? = some r) (hr1 : rsp1[i]? = some r1) (hr2 : rsp2[i]? = some r2)
    (a b : K) (hlin : Superposed a b r r1 r2) :
    ∃ x x1 x2, rf[i]? = some x ∧ rf1[i]? = some x1 ∧ rf2[i]? = some x2 ∧ x.length = N ∧ Superposed a b x x1 x2 := by
  obtain ⟨G, hG, hlen, hs, ha⟩ := C13_linear solve hsolve src hE lam hlam N hN shift
  have key : Superposed a b (G r) (G r1) (G r2) := by
    refine superposed_of_eq (by rw [hlen, hlen]) ?_
    rw [superposed_eq hlin, ha _ _ (by simp [← hlin.1, ← hlin.2.1]), hs, hs]
  have hraw : ∀ q, deconvTime solve q src shift lam (some N) norm
      = match norm with | none => .ok (q.map G) | some n => normalizeAll (q.map G) n := by
    intro q
    cases norm with
    | none => exact hG q
    | some n =>
      have := hG q
      unfold deconvTime at this ⊢
      simp only [bind, Except.bind] at this ⊢
      split at this
      · cases this
      · rename_i sts hsts
        split at this
        · cases this
        · rename_i rf' hrf'
          injection this with this
          rw [← this]
  rw [hraw] at h h1 h2
  cases norm with
  | none =>
    simp only [Except.ok.injEq] at h h1 h2
    subst h h1 h2
    exact ⟨_, _, _, by rw [List.getElem?_map, hr]; rfl, by rw [List.getElem?_map, hr1]; rfl,
      by rw [List.getElem?_map, hr2]; rfl, hlen _, key⟩
  | some n =>
    obtain ⟨e1, e2⟩ := hnorm n rfl
    simp only [normalizeAll, bind, Except.bind] at h h1 h2
    rw [getItem_congr_map G _ _ n e1] at h1
    rw [getItem_congr_map G _ _ n e2] at h2
    cases hx : getItem (rsp.map G) n with
    | error e => rw [hx] at h; cases h
    | ok y =>
      rw [hx] at h h1 h2
      simp only at h h1 h2
      cases hm : maxAbs y with
      | error e => rw [hm] at h; cases h
      | ok m =>
        rw [hm] at h h1 h2
        simp only at h h1 h2
        split at h
        · cases h
        · rename_i hm0
          rw [if_neg hm0] at h1 h2
          simp only [Except.ok.injEq] at h h1 h2
          subst h h1 h2
          exact ⟨_, _, _, by rw [List.getElem?_map, List.getElem?_map, hr]; rfl,
            by rw [List.getElem?_map, List.getElem?_map, hr1]; rfl,
            by rw [List.getElem?_map, List.getElem?_map, hr2]; rfl, by simp [hlen], superposed_scale _ key⟩

/-- C172, time domain: `[3, 4]` is the sum of `[1, 1]` and twice `[1, 3 / 2]`. -/
example : ∃ rf rf1 rf2 x x1 x2, deconvTime uniqueSolve [[3, 4]] [2, 1] 0 1 (some 2) none = .ok rf ∧
    deconvTime uniqueSolve [[1, 1]] [2, 1] 0 1 (some 2) none = .ok rf1 ∧
    deconvTime uniqueSolve [[1, 3 / 2]] [2, 1] 0 1 (some 2) none = .ok rf2 ∧
    rf[0]? = some x ∧ rf1[0]? = some x1 ∧ rf2[0]? = some x2 ∧ x.length = 2 ∧ Superposed 1 2 x x1 x2 := by
  obtain ⟨G, hG, -⟩ := C13_linear uniqueSolve uniqueSolve_exact [2, 1] ⟨2, by simp, by norm_num⟩ 1 one_pos 2 (by norm_num) 0
  obtain ⟨x, x1, x2, e⟩ := C172_time_partial uniqueSolve uniqueSolve_exact [2, 1] ⟨2, by simp, by norm_num⟩ 1 one_pos 2 (by norm_num) 0
    none [[3, 4]] [[1, 1]] [[1, 3 / 2]] _ _ _ (hG _) (hG _) (hG _) (by simp) 0 _ _ _ rfl rfl rfl 1 2 (by
      refine ⟨rfl, rfl, fun m hm => ?_⟩
      have hm : m < 2 := hm
      interval_cases m <;> norm_num)
  exact ⟨_, _, _, x, x1, x2, hG _, hG _, hG _, e⟩

end time

section water

theorem rawRf_superposed (src : List ℝ) (sr wl T : ℝ) (gauss : Option ℝ) (n N : ℕ) (a b : ℝ) (r r1 r2 : List ℝ)
    (hlin : ∀ j < n, r.getD j 0 = a * r1.getD j 0 + b * r2.getD j 0) :
    Superposed (a : ℂ) (b : ℂ) (rawRf src sr wl T gauss n N r) (rawRf src sr wl T gauss n N r1)
      (rawRf src sr wl T gauss n N r2) := by
  refine ⟨by simp [rawRf_length], by simp [rawRf_length], fun m hm => ?_⟩
  rw [rawRf_length, lt_min_iff] at hm
  rw [rawRf_get _ _ _ _ _ _ _ _ _ hm.1 hm.2, rawRf_get _ _ _ _ _ _ _ _ _ hm.1 hm.2,
    rawRf_get _ _ _ _ _ _ _ _ _ hm.1 hm.2, ← mul_div_assoc, ← mul_div_assoc, ← add_div, mul_sum, mul_sum,
    ← sum_add_distrib]
  congr 1
  refine sum_congr rfl fun k _ => ?_
  rw [dft_lin r r1 r2 a b _ k hlin]
  ring

/-- **C172, water level.**  With or without normalisation to a response which is the same in the three calls. -/
theorem C172_waterlevel_partial (fastLen : ℕ → ℕ) (src : List ℝ) (sr wl T : ℝ) (gauss : Option ℝ) (N : ℕ) (nfft : Option ℕ)
    (norm : Option ℤ) (rsp rsp1 rsp2 : List (List ℝ)) (rf rf1 rf2 : List (List ℂ))
    (h : deconvWaterlevel fastLen rsp src sr wl gauss T (some N) (norm.elim .none .idx) nfft = .ok rf)
    (h1 : deconvWaterlevel fastLen rsp1 src sr wl gauss T (some N) (norm.elim .none .idx) nfft = .ok rf1)
    (h2 : deconvWaterlevel fastLen rsp2 src sr wl gauss T (some N) (norm.elim .none .idx) nfft = .ok rf2)
    (hnorm : ∀ n, norm = some n → getItem rsp1 n = getItem rsp n ∧ getItem rsp2 n = getItem rsp n)
    (i : ℕ) (r r1 r2 : List ℝ) (hr : rsp[i]? = some r) (hr1 : rsp1[i]? = some r1) (hr2 : rsp2[i]? = some r2)
    (a b : ℝ) (hlin : Superposed a b r r1 r2) :
    ∃ x x1 x2, rf[i]? = some x ∧ rf1[i]? = some x1 ∧ rf2[i]? = some x2 ∧
      x.length = min N (nfft.getD (fastLen N)) ∧ Superposed (a : ℂ) (b : ℂ) x x1 x2 := by
  have key := rawRf_superposed src sr wl T gauss (nfft.getD (fastLen N)) N a b r r1 r2
    fun j _ => superposed_get hlin j
  cases norm with
  | none =>
    obtain ⟨-, -, -, rfl⟩ := water_raw _ _ _ _ _ _ _ _ _ N rfl _ h
    obtain ⟨-, -, -, rfl⟩ := water_raw _ _ _ _ _ _ _ _ _ N rfl _ h1
    obtain ⟨-, -, -, rfl⟩ := water_raw _ _ _ _ _ _ _ _ _ N rfl _ h2
    exact ⟨_, _, _, by rw [List.getElem?_map, hr]; rfl, by rw [List.getElem?_map, hr1]; rfl,
      by rw [List.getElem?_map, hr2]; rfl, by simp [rawRf_length], key⟩
  | some n =>
    obtain ⟨e1, e2⟩ := hnorm n rfl
    obtain ⟨-, -, -, x, m, hx, hm, -, rfl⟩ := water_idx _ _ _ _ _ _ _ _ _ N rfl _ _ h
    obtain ⟨-, -, -, x1, m1, hx1, hm1, -, rfl⟩ := water_idx _ _ _ _ _ _ _ _ _ N rfl _ _ h1
    obtain ⟨-, -, -, x2, m2, hx2, hm2, -, rfl⟩ := water_idx _ _ _ _ _ _ _ _ _ N rfl _ _ h2
    rw [getItem_congr_map _ _ _ n e1, hx, Except.ok.injEq] at hx1
    rw [getItem_congr_map _ _ _ n e2, hx, Except.ok.injEq] at hx2
    subst hx1 hx2
    rw [hm, Except.ok.injEq] at hm1 hm2
    subst hm1 hm2
    refine ⟨_, _, _, by rw [scaleAll, List.getElem?_map, List.getElem?_map, hr]; rfl,
      by rw [scaleAll, List.getElem?_map, List.getElem?_map, hr1]; rfl,
      by rw [scaleAll, List.getElem?_map, List.getElem?_map, hr2]; rfl, by simp [rawRf_length],
      superposed_scale _ key⟩

/-- C172, water level: `[3, 4, 5]` is the sum of `[1, 0, 1]` and twice `[1, 2, 2]`. -/
example : ∃ rf rf1 rf2 x x1 x2, deconvWaterlevel id [[3, 4, 5]] [2, 1] 1 (1 / 20) none 1 (some 3) .none none = .ok rf ∧
    deconvWaterlevel id [[1, 0, 1]] [2, 1] 1 (1 / 20) none 1 (some 3) .none none = .ok rf1 ∧
    deconvWaterlevel id [[1, 2, 2]] [2, 1] 1 (1 / 20) none 1 (some 3) .none none = .ok rf2 ∧
    rf[0]? = some x ∧ rf1[0]? = some x1 ∧ rf2[0]? = some x2 ∧ x.length = 3 ∧
    Superposed ((1 : ℝ) : ℂ) ((2 : ℝ) : ℂ) x x1 x2 := by
  have run : ∀ rsp, ∃ rf, deconvWaterlevel id rsp [2, 1] 1 (1 / 20) none 1 (some 3) .none none = .ok rf := fun rsp => by
    obtain ⟨rf, h, -⟩ := C15_succeeds id rsp [2, 1] 1 (1 / 20) 1 none (some 3) none 3 rfl (by decide)
      one_ne_zero (by norm_num) ⟨0, by decide, by simp⟩
    exact ⟨rf, h⟩
  obtain ⟨rf, h⟩ := run [[3, 4, 5]]
  obtain ⟨rf1, h1⟩ := run [[1, 0, 1]]
  obtain ⟨rf2, h2⟩ := run [[1, 2, 2]]
  obtain ⟨x, x1, x2, e⟩ := C172_waterlevel_partial id [2, 1] 1 (1 / 20) 1 none 3 none none _ _ _ rf rf1 rf2 h h1 h2 (by simp) 0 _ _ _
    rfl rfl rfl 1 2 (by
      refine ⟨rfl, rfl, fun m hm => ?_⟩
      have hm : m < 3 := hm
      interval_cases m <;> norm_num)
  exact ⟨rf, rf1, rf2, x, x1, x2, h, h1, h2, e⟩

end water

section multitaper

/-- A linear operation on arrays. -/
def Superposes (d : List ℝ → List ℝ) : Prop :=
  ∀ (a b : ℝ) (x y z : List ℝ), Superposed a b x y z → Superposed a b (d x) (d y) (d z)

theorem mtSum_superposed (nft ntap nwin : ℕ) (ofac : ℝ) (taps : List (List ℝ)) (a b : ℝ) (x y z : List ℝ)
    (hlin : ∀ n, x.getD n 0 = a * y.getD n 0 + b * z.getD n 0) (A B C : List (List ℂ))
    (hA : mtSum true nft ntap nwin ofac taps x = .ok A) (hB : mtSum true nft ntap nwin ofac taps y = .ok B)
    (hC : mtSum true nft ntap nwin ofac taps z = .ok C) :
    ∀ k < taps.length, ∀ m < nft, (A.getD k []).getD m 0 = a * (B.getD k []).getD m 0 + b * (C.getD k []).getD m 0 := by
  intro k hk m hm
  rw [((mtSum_get _ _ _ _ _ _ _ _ hA).2 k hk).2 m hm, ((mtSum_get _ _ _ _ _ _ _ _ hB).2 k hk).2 m hm,
    ((mtSum_get _ _ _ _ _ _ _ _ hC).2 k hk).2 m hm]
  refine dft_lin _ _ _ a b _ _ fun j hj => ?_
  rw [weighted_get _ _ _ _ hj, weighted_get _ _ _ _ hj, weighted_get _ _ _ _ hj, hlin]
  ring

theorem mtScale_get (fac : ℝ) (A : List (List ℂ)) (k m : ℕ) :
    ((mtScale fac A).getD k []).getD m 0 = (A.getD k []).getD m 0 * fac := by
  unfold mtScale
  simp only [List.getD_eq_getElem?_getD, List.getElem?_map]
  cases A[k]? with
  | none => simp
  | some x =>
    simp only [Option.map_some, Option.getD_some, List.getElem?_map]
    cases x[m]? <;> simp

theorem mtQuot_superposed (n : ℕ) (S A B C : List (List ℂ)) (s0 : List ℝ) (a b : ℝ) (hA : S.length = A.length)
    (hB : S.length = B.length) (hC : S.length = C.length)
    (hlin : ∀ k < S.length, ∀ m < n, (A.getD k []).getD m 0 = a * (B.getD k []).getD m 0 + b * (C.getD k []).getD m 0)
    (m : ℕ) (hm : m < n) :
    (mtQuot n S A s0).getD m 0 = a * (mtQuot n S B s0).getD m 0 + b * (mtQuot n S C s0).getD m 0 := by
  unfold mtQuot
  rw [getD_map_range_c _ _ _ _ hm, getD_map_range_c _ _ _ _ hm, getD_map_range_c _ _ _ _ hm,
    mtNum_get n S A hA m hm, mtNum_get n S B hB m hm, mtNum_get n S C hC m hm, ← mul_div_assoc, ← mul_div_assoc,
    ← add_div, mul_sum, mul_sum, ← sum_add_distrib]
  congr 1
  refine sum_congr rfl fun k hk => ?_
  rw [hlin k (mem_range.1 hk) m hm, map_add, map_mul, map_mul, Complex.conj_ofReal, Complex.conj_ofReal]
  ring

theorem mtOut_superposed (n : ℕ) (dt t : ℝ) (hdt : dt ≠ 0) (gauss : Option ℝ) (P Q R : List ℂ) (a b : ℝ)
    (hP : P.length = n) (hQ : Q.length = n) (hR : R.length = n)
    (hlin : ∀ m < n, P.getD m 0 = a * Q.getD m 0 + b * R.getD m 0) :
    Superposed a b (mtOut n dt t gauss P) (mtOut n dt t gauss Q) (mtOut n dt t gauss R) := by
  refine ⟨by simp, by simp, fun m hm => ?_⟩
  rw [mtOut_length] at hm
  rw [C25_reversal_and_shift n dt t hdt gauss P hP m hm, C25_reversal_and_shift n dt t hdt gauss Q hQ m hm,
    C25_reversal_and_shift n dt t hdt gauss R hR m hm, ← Complex.re_ofReal_mul, ← Complex.re_ofReal_mul,
    ← Complex.add_re]
  congr 1
  rw [← mul_div_assoc, ← mul_div_assoc, ← add_div, mul_sum, mul_sum, ← sum_add_distrib]
  congr 1
  refine sum_congr rfl fun k hk => ?_
  rw [hlin k (mem_range.1 hk), map_add, map_mul, map_mul, Complex.conj_ofReal, Complex.conj_ofReal]
  ring

/-- A successful call for one component. -/
theorem mtComp_ok (env : MtEnv) (nft ntap nwav : ℕ) (dt ofac tshift : ℝ) (gauss : Option ℝ) (taps : List (List ℝ))
    (el : List ℝ) (S : List (List ℂ)) (dat nos x : List ℝ)
    (h : mtComp env nft ntap nwav dt ofac tshift gauss taps el S dat nos = .ok x) :
    ∃ pad N fac D fac2, mtPad nft (env.detrend nos) = .ok pad ∧
      mtSum true nft ntap (mtNwin ofac (env.detrend nos).length ntap).toNat ofac taps pad = .ok N ∧
      mtFac nwav (mtNwin ofac (env.detrend nos).length ntap) nft = .ok fac ∧
      mtSum true nft ntap (mtNwin ofac nft ntap - 1).toNat ofac taps (env.detrend dat) = .ok D ∧
      mtFac nft (mtNwin ofac nft ntap - 1) nft = .ok fac2 ∧
      x = mtOut nft dt tshift gauss (mtQuot nft S (mtScale fac2 D) (mtNoise nft (mtScale fac N) el)) := by
  unfold mtComp at h
  simp only [bind, Except.bind] at h
  split at h
  · cases h
  rename_i pad hpad
  split at h
  · cases h
  rename_i N hN
  split at h
  · cases h
  rename_i fac hfac
  split at h
  · cases h
  rename_i D hD
  split at h
  · cases h
  rename_i fac2 hfac2
  split at h
  · cases h
  injection h with h
  exact ⟨pad, N, fac, D, fac2, hpad, hN, hfac, hD, hfac2, h.symm⟩

theorem mtComp_superposed (env : MtEnv) (hd : Superposes env.detrend) (nft ntap nwav : ℕ) (dt ofac tshift : ℝ)
    (hdt : dt ≠ 0) (gauss : Option ℝ) (taps : List (List ℝ)) (el : List ℝ) (S : List (List ℂ))
    (hS : S.length = taps.length) (dat dat1 dat2 nos x x1 x2 : List ℝ) (a b : ℝ) (hlin : Superposed a b dat dat1 dat2)
    (h : mtComp env nft ntap nwav dt ofac tshift gauss taps el S dat nos = .ok x)
    (h1 : mtComp env nft ntap nwav dt ofac tshift gauss taps el S dat1 nos = .ok x1)
    (h2 : mtComp env nft ntap nwav dt ofac tshift gauss taps el S dat2 nos = .ok x2) :
    x.length = nft ∧ Superposed a b x x1 x2 := by
  obtain ⟨pad, N, fac, D, f, p1, p2, p3, p4, p5, rfl⟩ := mtComp_ok _ _ _ _ _ _ _ _ _ _ _ _ _ _ h
  obtain ⟨pad1, N1, fac1, D1, f1, q1, q2, q3, q4, q5, rfl⟩ := mtComp_ok _ _ _ _ _ _ _ _ _ _ _ _ _ _ h1
  obtain ⟨pad2, N2, fac2, D2, f2, r1, r2, r3, r4, r5, rfl⟩ := mtComp_ok _ _ _ _ _ _ _ _ _ _ _ _ _ _ h2
  rw [p1, Except.ok.injEq] at q1 r1
  subst q1 r1
  rw [p2, Except.ok.injEq] at q2 r2
  subst q2 r2
  rw [p3, Except.ok.injEq] at q3 r3
  subst q3 r3
  rw [p5, Except.ok.injEq] at q5 r5
  subst q5 r5
  refine ⟨by simp, mtOut_superposed nft dt tshift hdt gauss _ _ _ a b (by simp [mtQuot]) (by simp [mtQuot])
    (by simp [mtQuot]) fun m hm => mtQuot_superposed nft S _ _ _ _ a b ?_ ?_ ?_ ?_ m hm⟩
  · rw [hS, mtScale, List.length_map, mtSum_length _ _ _ _ _ _ _ _ p4]
  · rw [hS, mtScale, List.length_map, mtSum_length _ _ _ _ _ _ _ _ q4]
  · rw [hS, mtScale, List.length_map, mtSum_length _ _ _ _ _ _ _ _ r4]
  · intro k hk m hm
    rw [mtScale_get, mtScale_get, mtScale_get, mtSum_superposed nft ntap _ ofac taps a b _ _ _
      (superposed_get (hd a b _ _ _ hlin)) D D1 D2 p4 q4 r4 k (by omega) m hm]
    ring

/-- A successful call: the components are treated one by one, then scaled. -/
theorem multitaper_ok (env : MtEnv) (rsp : List (List ℝ)) (src : List ℝ) (nse : List (List ℝ)) (sr tshift : ℝ)
    (gauss : Option ℝ) (K : ℕ) (T olap : ℝ) (norm : Option ℤ) (rf : List (List ℝ)) (nft : ℕ)
    (hn : ∃ r0, rsp[0]? = some r0 ∧ r0.length = nft)
    (h : deconvMultitaper env rsp src nse sr tshift gauss K T olap norm = .ok rf) :
    sr ≠ 0 ∧ ∃ pad S fac raw, mtPad nft (env.detrend src) = .ok pad ∧
      mtSum false nft (pyRound (T / (1 / sr))).toNat
        (mtNwin (1 / (1 - olap)) (env.detrend src).length (pyRound (T / (1 / sr))).toNat).toNat (1 / (1 - olap))
        (env.tapers (pyRound (T / (1 / sr))).toNat K).1 pad = .ok S ∧
      mtFac (env.detrend src).length
        (mtNwin (1 / (1 - olap)) (env.detrend src).length (pyRound (T / (1 / sr))).toNat) nft = .ok fac ∧
      ((List.range rsp.length).mapM fun (c : ℕ) => do
        let nos ← getItem nse c
        mtComp env nft (pyRound (T / (1 / sr))).toNat (env.detrend src).length (1 / sr) (1 / (1 - olap)) tshift gauss
          (env.tapers (pyRound (T / (1 / sr))).toNat K).1 (env.tapers (pyRound (T / (1 / sr))).toNat K).2
          (mtScale fac S) (rsp.getD c []) nos) = .ok raw ∧
      (norm = none → rf = raw) ∧ ∀ i, norm = some i → ∃ x m, getItem raw i = .ok x ∧ maxAbsR x = .ok m ∧
        rf = raw.map (·.map (· * (1 / m))) := by
  obtain ⟨r0, h0, rfl⟩ := hn
  unfold deconvMultitaper at h
  have hg : getItem rsp 0 = .ok r0 := by
    unfold getItem
    simp [h0]
  rw [hg] at h
  simp only [bind, Except.bind] at h
  split at h
  · cases h
  split at h
  · cases h
  split at h
  · cases h
  split at h
  · cases h
  rename_i hsr
  split at h
  · cases h
  split at h
  · cases h
  split at h
  · cases h
  rename_i pad hpad
  split at h
  · cases h
  rename_i S hS
  split at h
  · cases h
  rename_i fac hfac
  split at h
  · cases h
  rename_i raw hraw
  refine ⟨hsr, pad, S, fac, raw, hpad, hS, hfac, hraw, ?_, ?_⟩
  · rintro rfl
    injection h with h
    exact h.symm
  · rintro i rfl
    simp only at h
    split at h
    · cases h
    rename_i x hx
    split at h
    · cases h
    rename_i m hm
    split at h
    · cases h
    injection h with h
    exact ⟨x, m, hx, hm, h.symm⟩

theorem getItem_natCast {α : Type} (l : List α) (i : ℕ) :
    getItem l (i : ℤ) = match l[i]? with | some x => .ok x | none => .error .indexError := by
  unfold getItem
  have h : ¬ ((i : ℤ) < 0) := by omega
  simp only [if_neg h, Int.toNat_natCast]
  rw [if_pos (by omega)]
  cases l[i]? <;> rfl

theorem get_of_getItem {α : Type} (l : List α) (i : ℕ) (x : α) (h : getItem l i = .ok x) : l[i]? = some x := by
  rw [getItem_natCast] at h
  cases hx : l[i]? with
  | none => rw [hx] at h; cases h
  | some y => rw [hx] at h; injection h with h; rw [h]

/-- **C172, multitaper.**  For given source and noise, with or without normalisation to a response which is the same
in the three calls. -/
theorem C172_multitaper_partial (env : MtEnv) (hd : Superposes env.detrend) (src : List ℝ)
    (nse : List (List ℝ)) (sr tshift : ℝ) (gauss : Option ℝ) (K : ℕ) (T olap : ℝ) (norm : Option ℕ)
    (rsp rsp1 rsp2 rf rf1 rf2 : List (List ℝ)) (nft : ℕ)
    (hn : ∃ r0, rsp[0]? = some r0 ∧ r0.length = nft) (hn1 : ∃ r0, rsp1[0]? = some r0 ∧ r0.length = nft)
    (hn2 : ∃ r0, rsp2[0]? = some r0 ∧ r0.length = nft)
    (h : deconvMultitaper env rsp src nse sr tshift gauss K T olap (norm.map (↑)) = .ok rf)
    (h1 : deconvMultitaper env rsp1 src nse sr tshift gauss K T olap (norm.map (↑)) = .ok rf1)
    (h2 : deconvMultitaper env rsp2 src nse sr tshift gauss K T olap (norm.map (↑)) = .ok rf2)
    (hnorm : ∀ n, norm = some n → rsp1[n]? = rsp[n]? ∧ rsp2[n]? = rsp[n]?)
    (i : ℕ) (r r1 r2 : List ℝ) (hr : rsp[i]? = some r) (hr1 : rsp1[i]? = some r1) (hr2 : rsp2[i]? = some r2)
    (a b : ℝ) (hlin : Superposed a b r r1 r2) :
    ∃ x x1 x2, rf[i]? = some x ∧ rf1[i]? = some x1 ∧ rf2[i]? = some x2 ∧ x.length = nft ∧ Superposed a b x x1 x2 := by
  obtain ⟨hsr, pad, S, fac, raw, p1, p2, p3, p4, p5, p6⟩ := multitaper_ok _ _ _ _ _ _ _ _ _ _ _ _ nft hn h
  obtain ⟨-, pad1, S1, fac1, raw1, q1, q2, q3, q4, q5, q6⟩ := multitaper_ok _ _ _ _ _ _ _ _ _ _ _ _ nft hn1 h1
  obtain ⟨-, pad2, S2, fac2, raw2, s1, s2, s3, s4, s5, s6⟩ := multitaper_ok _ _ _ _ _ _ _ _ _ _ _ _ nft hn2 h2
  rw [p1, Except.ok.injEq] at q1 s1
  subst q1 s1
  rw [p2, Except.ok.injEq] at q2 s2
  subst q2 s2
  rw [p3, Except.ok.injEq] at q3 s3
  subst q3 s3
  -- the result of one component
  have one : ∀ (q rawq : List (List ℝ)), ((List.range q.length).mapM fun (c : ℕ) => do
        let nos ← getItem nse c
        mtComp env nft (pyRound (T / (1 / sr))).toNat (env.detrend src).length (1 / sr) (1 / (1 - olap)) tshift gauss
          (env.tapers (pyRound (T / (1 / sr))).toNat K).1 (env.tapers (pyRound (T / (1 / sr))).toNat K).2
          (mtScale fac S) (q.getD c []) nos) = .ok rawq → ∀ (c : ℕ) (d : List ℝ), q[c]? = some d →
      ∃ nos y, getItem nse c = .ok nos ∧ rawq[c]? = some y ∧
        mtComp env nft (pyRound (T / (1 / sr))).toNat (env.detrend src).length (1 / sr) (1 / (1 - olap)) tshift gauss
          (env.tapers (pyRound (T / (1 / sr))).toNat K).1 (env.tapers (pyRound (T / (1 / sr))).toNat K).2
          (mtScale fac S) d nos = .ok y := by
    intro q rawq hq c d hc
    obtain ⟨hlt, -⟩ := List.getElem?_eq_some_iff.1 hc
    obtain ⟨y, hy, hy2⟩ := (mapM_ok _ _ _ hq).2 c c (by rw [List.getElem?_range hlt])
    simp only [bind, Except.bind] at hy
    split at hy
    · cases hy
    rename_i nos hnos
    refine ⟨nos, y, hnos, hy2, ?_⟩
    rw [List.getD_eq_getElem?_getD, hc] at hy
    exact hy
  obtain ⟨nos, y, c1, c2, c3⟩ := one rsp raw p4 i r hr
  obtain ⟨nos1, y1, d1, d2, d3⟩ := one rsp1 raw1 q4 i r1 hr1
  obtain ⟨nos2, y2, e1, e2, e3⟩ := one rsp2 raw2 s4 i r2 hr2
  rw [c1, Except.ok.injEq] at d1 e1
  subst d1 e1
  obtain ⟨hl, key⟩ := mtComp_superposed env hd nft _ _ _ _ tshift (one_div_ne_zero hsr) gauss _ _ (mtScale fac S) (by
    rw [mtScale, List.length_map, mtSum_length _ _ _ _ _ _ _ _ p2]) r r1 r2 nos y y1 y2 a b hlin c3 d3 e3
  cases norm with
  | none =>
    rw [p5 rfl, q5 rfl, s5 rfl]
    exact ⟨y, y1, y2, c2, d2, e2, hl, key⟩
  | some n =>
    obtain ⟨g1, g2⟩ := hnorm n rfl
    obtain ⟨x, m, t1, t2, rfl⟩ := p6 n rfl
    obtain ⟨x1, m1, u1, u2, rfl⟩ := q6 n rfl
    obtain ⟨x2, m2, v1, v2, rfl⟩ := s6 n rfl
    have t1 := get_of_getItem _ _ _ t1
    have u1 := get_of_getItem _ _ _ u1
    have v1 := get_of_getItem _ _ _ v1
    obtain ⟨z, hz⟩ : ∃ z, rsp[n]? = some z := by
      have hlt : n < raw.length := (List.getElem?_eq_some_iff.1 t1).1
      rw [(mapM_ok _ _ _ p4).1, List.length_range] at hlt
      exact ⟨_, List.getElem?_eq_getElem hlt⟩
    obtain ⟨w, k, f1, f2, f3⟩ := one rsp raw p4 n z hz
    obtain ⟨w1, k1, f1', f2', f3'⟩ := one rsp1 raw1 q4 n z (by rw [g1, hz])
    obtain ⟨w2, k2, f1'', f2'', f3''⟩ := one rsp2 raw2 s4 n z (by rw [g2, hz])
    rw [f1, Except.ok.injEq] at f1' f1''
    subst f1' f1''
    rw [f3, Except.ok.injEq] at f3' f3''
    subst f3' f3''
    rw [t1, Option.some.injEq] at f2
    rw [u1, Option.some.injEq] at f2'
    rw [v1, Option.some.injEq] at f2''
    subst f2
    rw [f2', t2, Except.ok.injEq] at u2
    rw [f2'', t2, Except.ok.injEq] at v2
    subst u2 v2
    exact ⟨_, _, _, by rw [List.getElem?_map, c2]; rfl, by rw [List.getElem?_map, d2]; rfl,
      by rw [List.getElem?_map, e2]; rfl, by simp [hl], superposed_scale _ key⟩

theorem sum_superposed (f : ℕ → ℝ) {a b : ℝ} {x y z : List ℝ} (h : Superposed a b x y z) :
    (x.zipIdx.map fun (p : ℝ × ℕ) => p.1 * f p.2).sum = a * (y.zipIdx.map fun (p : ℝ × ℕ) => p.1 * f p.2).sum
      + b * (z.zipIdx.map fun (p : ℝ × ℕ) => p.1 * f p.2).sum := by
  have key : ∀ x : List ℝ, (x.zipIdx.map fun (p : ℝ × ℕ) => p.1 * f p.2).sum = ∑ n ∈ range x.length, x.getD n 0 * f n := by
    intro x
    induction x using List.reverseRecOn with
    | nil => simp
    | append_singleton x v ih =>
      rw [List.zipIdx_append, List.map_append, List.sum_append, ih, List.length_append, List.length_singleton,
        sum_range_succ]
      congr 1
      · refine sum_congr rfl fun n hn => ?_
        have hn := mem_range.1 hn
        rw [List.getD_append _ _ _ _ hn]
      · simp
  rw [key, key, key, ← h.1, ← h.2.1, mul_sum, mul_sum, ← sum_add_distrib]
  refine sum_congr rfl fun n _ => ?_
  rw [superposed_get h]
  ring

/-- The removal of a regression line meets the hypothesis of `C172_multitaper_partial`. -/
theorem lineDetrend_superposes : Superposes lineDetrend := by
  intro a b x y z h
  have h0 : x.sum = a * y.sum + b * z.sum := by
    have := sum_superposed (fun _ => 1) h
    simpa [List.zipIdx_map_fst] using this
  have h1 := sum_superposed (fun n => (n : ℝ)) h
  refine ⟨by simp [lineDetrend_length, h.1], by simp [lineDetrend_length, h.2.1], fun m hm => ?_⟩
  rw [lineDetrend_length] at hm
  have hv := superposed_get h m
  rw [List.getD_eq_getElem _ _ hm, List.getD_eq_getElem _ _ (h.1 ▸ hm), List.getD_eq_getElem _ _ (h.2.1 ▸ hm)] at hv
  rw [List.getD_eq_getElem _ _ (by rw [lineDetrend_length]; exact hm),
    List.getD_eq_getElem _ _ (by rw [lineDetrend_length]; exact h.1 ▸ hm),
    List.getD_eq_getElem _ _ (by rw [lineDetrend_length]; exact h.2.1 ▸ hm)]
  unfold lineDetrend
  simp only [List.getElem_map, List.getElem_zipIdx, hv, h0, h1, ← h.1, ← h.2.1]
  ring

/-- Example: one taper of one sample, no detrending. -/
noncomputable def oneTap : MtEnv := { tapers := fun _ _ => ([[1]], [1]), detrend := id }

theorem oneTap_sum (guard : Bool) (x : List ℝ) (hx : x.length = 2) :
    ∃ A, mtSum guard 2 1 1 1 [[1]] x = .ok A := by
  have h0 : mtStart 1 1 0 = 0 := by simp [mtStart, pyIntR]
  obtain ⟨A, hA⟩ : ∃ A, mtWindow 2 0 [[1]] x [List.replicate 2 0] = .ok A := by
    unfold mtWindow mtBit
    simp [hx, bind, Except.bind, pure, Except.pure]
  refine ⟨A, ?_⟩
  unfold mtSum
  rw [List.range_one, List.foldlM_cons]
  simp only [h0]
  rw [if_neg (by simp), List.map_singleton, hA]
  rfl

theorem oneTap_runs (p n : ℝ × ℝ) : ∃ rf, deconvMultitaper oneTap [[p.1, p.2]] [1] [[n.1]] 1 0 none 1 1 0 none = .ok rf := by
  have hr : pyRound ((1 : ℝ) / (1 / 1)) = 1 := by
    have := pyRound_int (K := ℝ) 1
    norm_num at this ⊢
    exact this
  have hw : mtNwin 1 1 1 = 1 := by simp [mtNwin, pyIntR]
  have hw2 : mtNwin 1 2 1 = 2 := by norm_num [mtNwin, pyIntR]
  have ho : (1 : ℝ) / (1 - 0) = 1 := by norm_num
  have hpad : ∀ v : ℝ, mtPad 2 [v] = .ok [v, 0] := fun v => by simp [mtPad]
  have hf : ∀ v : ℝ, mtFac v 1 2 = .ok (v / 2) := fun v => by simp [mtFac]
  obtain ⟨S, hS⟩ := oneTap_sum false [1, 0] rfl
  obtain ⟨N, hN⟩ := oneTap_sum true [n.1, 0] rfl
  obtain ⟨D, hD⟩ := oneTap_sum true [p.1, p.2] rfl
  unfold deconvMultitaper
  rw [show getItem [[p.1, p.2]] 0 = .ok [p.1, p.2] from rfl, show getItem [[n.1]] 0 = .ok [n.1] from rfl]
  simp only [bind, Except.bind]
  rw [if_neg (by simp), if_neg (by simp), if_neg one_ne_zero, hr, ho]
  simp only [oneTap, id, List.length_cons, List.length_nil, Int.toNat_one, zero_add, one_add_one_eq_two]
  rw [if_neg (by norm_num), if_neg one_ne_zero, hpad]
  simp only []
  rw [hw]
  simp only [Int.toNat_one]
  rw [hS]
  simp only []
  rw [hf]
  simp only [List.range_one, List.mapM_cons, List.mapM_nil, bind, Except.bind]
  rw [show getItem [[n.1]] ((0 : ℕ) : ℤ) = .ok [n.1] from rfl]
  simp only [mtComp, bind, Except.bind, id, List.length_cons, List.length_nil, zero_add]
  rw [hpad]
  simp only []
  rw [hw, hw2]
  simp only [Int.toNat_one, show ((2 : ℤ) - 1) = 1 from rfl]
  rw [hN]
  simp only [hf]
  rw [show ([[p.1, p.2]] : List (List ℝ)).getD 0 [] = [p.1, p.2] from rfl, hD]
  simp only []
  rw [if_neg]
  · exact ⟨_, rfl⟩
  · rintro ⟨m, hm, h0⟩
    obtain ⟨g1, g2⟩ := mtSum_get _ _ _ _ _ _ _ _ hS
    have hl : (mtScale (((1 : ℕ) : ℝ) / 2) S).length = 1 := by
      simpa [mtScale] using g1
    have hpos := (C26_damped 2 (mtScale (((1 : ℕ) : ℝ) / 2) S) (mtScale (((1 : ℕ) : ℝ) / 2) S) rfl _ m hm
      (C26_noise_nonneg 2 (mtScale (((1 : ℕ) : ℝ) / 2) N) [1] (by simp) m hm)).1
    rw [hpos] at h0
    have h0 := Complex.ofReal_eq_zero.1 h0
    have hn := C26_noise_nonneg 2 (mtScale (((1 : ℕ) : ℝ) / 2) N) [1] (by simp) m hm
    rw [hl, sum_range_one, mtScale_get, (g2 0 (by simp)).2 m hm] at h0
    have hdft : dft (weighted 2 (coverage (mtStart 1 1) (usedWindows false (mtStart 1 1) 2 1 1)
        (([[1]] : List (List ℝ)).getD 0 [])) [1, 0]) 2 m = 1 := by
      unfold dft
      rw [sum_range_succ, sum_range_one, weighted_get _ _ _ _ (by omega), weighted_get _ _ _ _ (by omega)]
      have h0 : mtStart 1 1 0 = 0 := by simp [mtStart, pyIntR]
      have hc : coverage (mtStart 1 1) (usedWindows false (mtStart 1 1) 2 1 1)
          (([[1]] : List (List ℝ)).getD 0 []) 0 = 1 := by
        have hu : usedWindows false (mtStart 1 1) 2 1 1 = {0} := by simp [usedWindows]
        unfold coverage
        rw [hu, sum_singleton, h0]
        simp
      rw [hc, chr_eq]
      simp [W]
    rw [hdft] at h0
    generalize (mtNoise 2 (mtScale (((1 : ℕ) : ℝ) / 2) N) [1]).getD m 0 = z at h0 hn
    norm_num at h0
    linarith

/-- C172, multitaper: `[3, 4]` is the sum of `[1, 1]` and twice `[1, 3 / 2]`. -/
example : ∃ rf rf1 rf2 x x1 x2, deconvMultitaper oneTap [[3, 4]] [1] [[1]] 1 0 none 1 1 0 none = .ok rf ∧
    deconvMultitaper oneTap [[1, 1]] [1] [[1]] 1 0 none 1 1 0 none = .ok rf1 ∧
    deconvMultitaper oneTap [[1, 3 / 2]] [1] [[1]] 1 0 none 1 1 0 none = .ok rf2 ∧
    rf[0]? = some x ∧ rf1[0]? = some x1 ∧ rf2[0]? = some x2 ∧ x.length = 2 ∧ Superposed 1 2 x x1 x2 := by
  obtain ⟨rf, h⟩ := oneTap_runs (3, 4) (1, 0)
  obtain ⟨rf1, h1⟩ := oneTap_runs (1, 1) (1, 0)
  obtain ⟨rf2, h2⟩ := oneTap_runs (1, 3 / 2) (1, 0)
  obtain ⟨x, x1, x2, e⟩ := C172_multitaper_partial oneTap (fun _ _ _ _ _ h => h) [1] [[1]] 1 0 none 1 1 0 none _ _ _ rf rf1 rf2 2
    ⟨_, rfl, rfl⟩ ⟨_, rfl, rfl⟩ ⟨_, rfl, rfl⟩ h h1 h2 (by simp) 0 _ _ _ rfl rfl rfl 1 2 (by
      refine ⟨rfl, rfl, fun m hm => ?_⟩
      have hm : m < 2 := hm
      interval_cases m <;> norm_num)
  exact ⟨rf, rf1, rf2, x, x1, x2, h, h1, h2, e⟩

end multitaper

section iterative

/-- After one pass the spike train has at most one spike. -/
theorem iterComp_one (fastLen : ℕ → ℕ) (r0 src : List ℝ) (sr tshift gauss minderr : ℝ) (mute : Bool) (st : ItState)
    (h : iterComp fastLen r0 src sr tshift gauss 1 minderr mute = .ok st) :
    ∃ (j : ℕ) (v : ℝ), st.p0 = (List.replicate (fastLen (2 * r0.length)) 0).set j v := by
  unfold iterComp at h
  simp only [] at h
  split at h
  · cases h
  unfold iterLoop at h
  split at h
  · simp only [bind, Except.bind] at h
    split at h
    · cases h
    rename_i st' hst'
    unfold iterStep at hst'
    split at hst'
    · cases hst'
    simp only [Except.ok.injEq] at hst'
    unfold iterLoop at h
    simp only [Except.ok.injEq] at h
    subst h
    rw [← hst']
    exact ⟨_, _, rfl⟩
  · simp only [Except.ok.injEq] at h
    subst h
    refine ⟨fastLen (2 * r0.length), 0, ?_⟩
    rw [List.set_eq_of_length_le (by simp)]
    rfl

/-- The pulses of the example: a transform of four samples. -/
theorem pulse_four (t : ℝ) : gaussPulse 4 (1 / 1) 1 t
    = (1 + 2 * Real.exp (-(1 / 32)) * Real.cos (Real.pi / 2 * t)
      + Real.exp (-(1 / 8)) * Real.cos (Real.pi * t)) / 4 := by
  unfold gaussPulse freqAt
  simp only [sum_range_succ, sum_range_zero]
  norm_num
  rw [show 2 * Real.pi * (1 / 2) * t = Real.pi * t by ring]
  ring_nf

theorem pulse_values : ∃ A B C : ℝ, B < A ∧ C ≠ B ∧ 0 < B ∧ gaussPulse 4 (1 / 1) 1 0 = A ∧
    gaussPulse 4 (1 / 1) 1 1 = B ∧ gaussPulse 4 (1 / 1) 1 (-1) = B ∧ gaussPulse 4 (1 / 1) 1 (-2) = C ∧
    gaussPulse 4 (1 / 1) 1 (-3) = B := by
  set e1 := Real.exp (-(1 / 32)) with h1
  set e2 := Real.exp (-(1 / 8)) with h2
  have p1 : 0 < e1 := Real.exp_pos _
  have p2 : 0 < e2 := Real.exp_pos _
  have p3 : e2 < e1 := Real.exp_lt_exp.2 (by norm_num)
  have p4 : e2 < 1 := by
    rw [h2, Real.exp_lt_one_iff]
    norm_num
  have c2 : Real.cos (Real.pi / 2 * (-2)) = -1 := by
    rw [show Real.pi / 2 * (-2) = -Real.pi by ring, Real.cos_neg, Real.cos_pi]
  have c2' : Real.cos (Real.pi * (-2)) = 1 := by
    rw [show Real.pi * (-2) = -(2 * Real.pi) by ring, Real.cos_neg, Real.cos_two_pi]
  have c3 : Real.cos (Real.pi / 2 * (-3)) = 0 := by
    rw [show Real.pi / 2 * (-3) = -(Real.pi / 2 + Real.pi) by ring, Real.cos_neg, Real.cos_add_pi, Real.cos_pi_div_two,
      neg_zero]
  have c3' : Real.cos (Real.pi * (-3)) = -1 := by
    rw [show Real.pi * (-3) = -(Real.pi + 2 * Real.pi) by ring, Real.cos_neg, Real.cos_add_two_pi, Real.cos_pi]
  refine ⟨(1 + 2 * e1 + e2) / 4, (1 - e2) / 4, (1 - 2 * e1 + e2) / 4, by linarith, ?_, by linarith, ?_, ?_, ?_, ?_, ?_⟩
  · intro h
    linarith
  · rw [pulse_four, mul_zero, mul_zero, Real.cos_zero, ← h1, ← h2]; ring
  · rw [pulse_four, mul_one, mul_one, Real.cos_pi_div_two, Real.cos_pi, ← h1, ← h2]; ring
  · rw [pulse_four, mul_neg_one, mul_neg_one, Real.cos_neg, Real.cos_neg, Real.cos_pi_div_two, Real.cos_pi, ← h1, ← h2]
    ring
  · rw [pulse_four, c2, c2', ← h1, ← h2]; ring
  · rw [pulse_four, c3, c3', ← h1, ← h2]; ring

/-- **C172 is false for the iterative method.**  Source `[1]`, one pass: the responses `[1, 0]` and `[0, 1]` give one
pulse each, their sum `[1, 1]` gives a single pulse too. -/
theorem C172_counterexample : Superposed (1 : ℝ) 1 [1, 1] [1, 0] [0, 1] ∧ ∃ rf its rmss x x1 x2,
    deconvIterative id [[1, 1], [1, 0], [0, 1]] [1] 1 0 1 1 0 false none = .ok (rf, its, rmss) ∧
    rf[0]? = some x ∧ rf[1]? = some x1 ∧ rf[2]? = some x2 ∧ ¬ Superposed 1 1 x x1 x2 := by
  constructor
  · refine ⟨rfl, rfl, fun m hm => ?_⟩
    have hm : m < 2 := hm
    interval_cases m <;> norm_num
  obtain ⟨⟨rf, its, rmss⟩, h⟩ := C21_succeeds id [[1, 1], [1, 0], [0, 1]] [1] 1 0 1 1 0 false (by norm_num) le_rfl (by
    intro r0 hr0
    refine ⟨0, ?_, by simp⟩
    simp only [List.mem_cons, List.not_mem_nil, or_false] at hr0
    rcases hr0 with rfl | rfl | rfl <;> simp)
  have hs : samplesIn (0 : ℝ) 1 = 0 := by simp [samplesIn]
  obtain ⟨x1, hx1, hl1, hv1⟩ := C136_pulse id [1] 1 0 1 1 0 false _ one_pos le_rfl (by norm_num) rf its rmss h 1 [1, 0]
    rfl 0 (by simp) (by simp [Admissible]) (by simp [hs]) 1 (by
      intro m hm
      have hm : m < 4 := hm
      interval_cases m <;> simp) ⟨0, by simp, by simp⟩ (by
      intro i hi b hb
      have hi : i < 4 := hi
      have := hb 0 (by simp)
      interval_cases i <;> simp at this ⊢)
  obtain ⟨x2, hx2, hl2, hv2⟩ := C136_pulse id [1] 1 0 1 1 0 false _ one_pos le_rfl (by norm_num) rf its rmss h 2 [0, 1]
    rfl 1 (by simp) (by simp [Admissible]) (by simp [hs]) 1 (by
      intro m hm
      have hm : m < 4 := hm
      interval_cases m <;> simp) ⟨1, by simp, by simp⟩ (by
      intro i hi b hb
      have hi : i < 4 := hi
      have := hb 1 (by simp)
      interval_cases i <;> simp at this ⊢)
  obtain ⟨st, hst, hx, -, -⟩ := C22_admissible_spikes id _ [1] 1 0 1 1 0 false rf its rmss h 0 [1, 1] rfl
  obtain ⟨hl, hv⟩ := C22_output id 1 0 1 [1, 1] st.p0 one_ne_zero
  refine ⟨rf, its, rmss, _, x1, x2, h, hx, hx1, hx2, ?_⟩
  rintro ⟨-, -, hsup⟩
  obtain ⟨A, B, C, q1, q2, q3, g0, g1, g2, g3, g4⟩ := pulse_values
  obtain ⟨j, v, hp⟩ := iterComp_one id [1, 1] [1] 1 0 1 0 false st hst
  have hl : (iterOut id [1, 1] 1 0 1 st.p0).length = 2 := by rw [hl]; simp
  have hl1 : x1.length = 2 := by rw [hl1]; simp
  have hl2 : x2.length = 2 := by rw [hl2]; simp
  have s0 := hsup 0 (by omega)
  have s1 := hsup 1 (by omega)
  rw [hv 0 (by omega), hv1 0 (by omega), hv2 0 (by omega)] at s0
  rw [hv 1 (by omega), hv1 1 (by omega), hv2 1 (by omega)] at s1
  have e4 : id (2 * [(1 : ℝ), 1].length) = 4 := rfl
  have e4' : id (2 * [(1 : ℝ), 0].length) = 4 := rfl
  have e4'' : id (2 * [(0 : ℝ), 1].length) = 4 := rfl
  rw [e4, e4', e4''] at s0 s1
  rw [hp, e4] at s0 s1
  have hk : ∀ f : ℕ → ℝ, ∑ k ∈ range 4, ((List.replicate 4 (0 : ℝ)).set j v).getD k 0 * f k
      = if j < 4 then v * f j else 0 := by
    intro f
    split
    · rename_i hj
      rw [sum_eq_single j]
      · rw [List.getD_eq_getElem _ _ (by simpa using hj)]
        simp
      · intro k hk hkj
        rw [List.getD_eq_getElem _ _ (by simpa using hk), List.getElem_set_ne hkj.symm, List.getElem_replicate, zero_mul]
      · intro hn
        exact absurd (mem_range.2 hj) hn
    · rename_i hj
      refine sum_eq_zero fun k hk => ?_
      rw [List.getD_eq_getElem _ _ (by simpa using hk), List.getElem_set_ne (by have := mem_range.1 hk; omega),
        List.getElem_replicate, zero_mul]
  rw [hk] at s0 s1
  rw [show (((0 : ℕ) : ℝ) - (0 : ℕ)) * (1 / 1) - 0 = 0 by norm_num,
    show (((0 : ℕ) : ℝ) - (1 : ℕ)) * (1 / 1) - 0 = -1 by norm_num, g0, g2] at s0
  rw [show (((1 : ℕ) : ℝ) - (0 : ℕ)) * (1 / 1) - 0 = 1 by norm_num,
    show (((1 : ℕ) : ℝ) - (1 : ℕ)) * (1 / 1) - 0 = 0 by norm_num, g0, g1] at s1
  rcases Nat.lt_or_ge j 4 with hj | hj
  · rw [if_pos hj] at s0 s1
    have hab : ∀ P Q : ℝ, v * P = A + B → v * Q = A + B → P = Q := by
      intro P Q hP hQ
      have hv0 : v ≠ 0 := by
        rintro rfl
        linarith
      exact mul_left_cancel₀ hv0 (hP.trans hQ.symm)
    interval_cases j
    · rw [show (((0 : ℕ) : ℝ) - (0 : ℕ)) * (1 / 1) - 0 = 0 by norm_num, g0] at s0
      rw [show (((1 : ℕ) : ℝ) - (0 : ℕ)) * (1 / 1) - 0 = 1 by norm_num, g1] at s1
      exact q1.ne' (hab A B (by linarith) (by linarith))
    · rw [show (((0 : ℕ) : ℝ) - (1 : ℕ)) * (1 / 1) - 0 = -1 by norm_num, g2] at s0
      rw [show (((1 : ℕ) : ℝ) - (1 : ℕ)) * (1 / 1) - 0 = 0 by norm_num, g0] at s1
      exact q1.ne' (hab A B (by linarith) (by linarith))
    · rw [show (((0 : ℕ) : ℝ) - (2 : ℕ)) * (1 / 1) - 0 = -2 by norm_num, g3] at s0
      rw [show (((1 : ℕ) : ℝ) - (2 : ℕ)) * (1 / 1) - 0 = -1 by norm_num, g2] at s1
      exact q2 (hab C B (by linarith) (by linarith))
    · rw [show (((0 : ℕ) : ℝ) - (3 : ℕ)) * (1 / 1) - 0 = -3 by norm_num, g4] at s0
      rw [show (((1 : ℕ) : ℝ) - (3 : ℕ)) * (1 / 1) - 0 = -2 by norm_num, g3] at s1
      exact q2 (hab C B (by linarith) (by linarith))
  · rw [if_neg (by omega)] at s0
    linarith

end iterative

end Verif.Props
