import Verif.Spec.SingleArray
import Verif.Model.SingleArray
import Verif.Props.WaterNorm

/-!
# Kernels called with a single array (C133) and with `return_info` (C134)
-/

set_option linter.unusedSimpArgs false
set_option linter.unusedSectionVars false

namespace Verif.Props
open Verif.Py Verif.Model Verif.Spec

section time
variable {K : Type} [Field K] [LinearOrder K]

theorem timeLoop_one (solve : List K → List K → Res (List K)) (sts src : List K) (length : Nat) (shift : Int)
    (x : List K) (rf : List (List K)) (h : timeLoop solve sts src length shift [x] = .ok rf) :
    ∃ y, rf = [y] := by
  unfold timeLoop at h
  simp only [bind, Except.bind] at h
  split at h
  · cases h
  · cases hs : solve sts (xcorrt x src length shift) with
    | error e => rw [hs] at h; cases h
    | ok y =>
      rw [hs] at h
      simp only [timeLoop] at h
      injection h with h
      exact ⟨y, h.symm⟩

theorem normalizeAll_length (rf rf' : List (List K)) (i : Int) (h : normalizeAll rf i = .ok rf') :
    rf'.length = rf.length := by
  unfold normalizeAll at h
  simp only [bind, Except.bind] at h
  cases hg : getItem rf i with
  | error e => rw [hg] at h; cases h
  | ok x =>
    rw [hg] at h
    simp only at h
    cases hm : maxAbs x with
    | error e => rw [hm] at h; cases h
    | ok m =>
      rw [hm] at h
      simp only at h
      split at h
      · cases h
      · injection h with h
        rw [← h, List.length_map]

theorem deconvTime_one (solve : List K → List K → Res (List K)) (x src : List K) (shift : Int) (spiking : K)
    (length : Option Nat) (normalize : Option Int) (rf : List (List K))
    (h : deconvTime solve [x] src shift spiking length normalize = .ok rf) : ∃ y, rf = [y] := by
  have key : ∀ n : Nat, deconvTime solve [x] src shift spiking (some n) normalize = .ok rf → ∃ y, rf = [y] := by
    intro n h
    unfold deconvTime at h
    simp only [bind, Except.bind] at h
    cases hs : stsVec src n spiking with
    | error e => rw [hs] at h; cases h
    | ok sts =>
      rw [hs] at h
      simp only at h
      cases ht : timeLoop solve sts src n shift [x] with
      | error e => rw [ht] at h; cases h
      | ok v =>
        rw [ht] at h
        obtain ⟨y, rfl⟩ := timeLoop_one _ _ _ _ _ _ _ ht
        cases normalize with
        | none => simp only at h; injection h with h; exact ⟨y, h.symm⟩
        | some i =>
          simp only at h
          have := normalizeAll_length _ _ _ h
          rw [List.length_singleton] at this
          exact List.length_eq_one_iff.1 this
  cases length with
  | some n => exact key n h
  | none => exact key x.length h

/-- C133 for `deconv_time`: a single array is deconvolved like a list with this array. -/
theorem C133_time (solve : List K → List K → Res (List K)) (src : List K) (shift : Int) (spiking : K)
    (length : Option Nat) (normalize : Option Int) (x : List K) :
    SameForSingle (fun rsp => deconvTimeArg solve rsp src shift spiking length normalize) x := by
  unfold SameForSingle deconvTimeArg
  simp only
  cases h : deconvTime solve [x] src shift spiking length normalize with
  | error e => exact .inl ⟨e, rfl, rfl⟩
  | ok rf =>
    obtain ⟨y, rfl⟩ := deconvTime_one _ _ _ _ _ _ _ _ h
    exact .inr ⟨y, rfl, rfl⟩

/-- C133 is not vacuous: an array is deconvolved successfully. -/
example : deconvTimeArg (K := ℚ) (fun _ b => .ok b) (.one [2, 4]) [1, 0] 0 1 none (some 0)
    = .ok (.one [0, 1]) := by
  decide +kernel

end time

section water
variable (fastLen : ℕ → ℕ) (src : List ℝ) (sr wl : ℝ) (gauss : Option ℝ) (T : ℝ) (length nfft : Option ℕ)

theorem scaleAll_length (c : ℂ) (rf : List (List ℂ)) : (scaleAll c rf).length = rf.length := by
  simp [scaleAll]

theorem water_length (rsp : List (List ℝ)) (N : ℕ) (hN : outLen rsp length = some N) (norm : Norm)
    (rf : List (List ℂ))
    (h : deconvWaterlevel fastLen rsp src sr wl gauss T length norm nfft = .ok rf) :
    rf.length = rsp.length := by
  rw [water_eq _ _ _ _ _ _ _ _ _ _ N hN] at h
  simp only [bind, Except.bind] at h
  split at h
  · cases h
  split at h
  · cases h
  split at h
  · cases h
  cases norm with
  | none => injection h with h; rw [← h]; simp
  | src =>
    simp only at h
    split at h
    · cases h
    · split at h
      · cases h
      · injection h with h; rw [← h, scaleAll_length]; simp
  | idx i =>
    simp only at h
    split at h
    · cases h
    split at h
    · cases h
    · split at h
      · cases h
      · injection h with h; rw [← h, scaleAll_length]; simp

/-- C133 for `deconv_waterlevel` with normalisation: a single array is deconvolved like a list with this
array.  The missing case `normalize=None` is false, see `C133_waterlevel_counterexample`. -/
theorem C133_waterlevel_partial (norm : Norm) (hnorm : norm ≠ .none) (x : List ℝ) :
    SameForSingle (fun rsp => deconvWaterArg fastLen rsp src sr wl gauss T length norm nfft) x := by
  unfold SameForSingle deconvWaterArg
  simp only
  cases h : deconvWaterlevel fastLen [x] src sr wl gauss T length norm nfft with
  | error e => exact .inl ⟨e, rfl, rfl⟩
  | ok rf =>
    have hl : rf.length = 1 := by
      cases length with
      | some n => exact water_length fastLen src sr wl gauss T _ nfft [x] n rfl norm rf h
      | none => exact water_length fastLen src sr wl gauss T _ nfft [x] x.length rfl norm rf h
    obtain ⟨y, rfl⟩ := List.length_eq_one_iff.1 hl
    refine .inr ⟨y, ?_, rfl⟩
    simp only [if_neg hnorm]
    rfl

/-- C133 is false for `deconv_waterlevel` without normalisation: with an array that is deconvolved
successfully inside a list, the call ends with an unbound variable. -/
theorem C133_waterlevel_counterexample (x : List ℝ) (rf : List (List ℂ))
    (h : deconvWaterlevel fastLen [x] src sr wl gauss T length .none nfft = .ok rf) :
    deconvWaterArg fastLen (.many [x]) src sr wl gauss T length .none nfft = .ok (.many rf) ∧
      deconvWaterArg fastLen (.one x) src sr wl gauss T length .none nfft = .error .nameError := by
  unfold deconvWaterArg
  simp only [h, if_true]
  exact ⟨rfl, trivial⟩

/-- The hypothesis of the counterexample holds for every array that is not empty, if the
source does not vanish. -/
example : ∃ rf, deconvWaterlevel id [[3, 4]] [1, 2] 1 (1/20) (some 1) 0 none .none none = .ok rf := by
  obtain ⟨rf, h, -⟩ := C15_succeeds id [[3, 4]] [1, 2] 1 (1/20) 0 (some 1) none none 2 rfl (by decide) one_ne_zero
    (by norm_num) ⟨0, by decide, by simp⟩
  exact ⟨rf, h⟩

/-- C134, results.  With `return_info` the results are the same as without. -/
theorem C134_results (rsp : List (List ℝ)) (norm : Norm) (rf : List (List ℂ)) (info : WaterInfo)
    (h : deconvWaterInfo fastLen rsp src sr wl gauss T length norm nfft = .ok (rf, info)) :
    deconvWaterlevel fastLen rsp src sr wl gauss T length norm nfft = .ok rf := by
  unfold deconvWaterInfo at h
  cases hd : deconvWaterlevel fastLen rsp src sr wl gauss T length norm nfft with
  | error e => rw [hd] at h; cases h
  | ok rf' =>
    rw [hd] at h
    cases norm with
    | none => cases h
    | src | idx =>
      simp only at h
      split at h
      · cases h
      · split at h
        · cases h
        · injection h with h
          rw [(Prod.mk.inj h).1]

/-- C134, normalisation for the source: `norm` is the factor between the results without and with normalisation,
and `rf_src` is the source deconvolved from itself with the same factor.  For an index as `normalize`
the first claim is false, see `C134_counterexample`. -/
theorem C134_src_partial (rsp : List (List ℝ)) (N : ℕ) (hN : outLen rsp length = some N)
    (rf : List (List ℂ)) (info : WaterInfo)
    (h : deconvWaterInfo fastLen rsp src sr wl gauss T length .src nfft = .ok (rf, info)) :
    ∃ rf0 x0, deconvWaterlevel fastLen rsp src sr wl gauss T length .none nfft = .ok rf0 ∧
      deconvWaterlevel fastLen [src] src sr wl gauss T (some N) .none nfft = .ok [x0] ∧
      rf = rf0.map (·.map (info.norm * ·)) ∧ info.rfSrc = x0.map (info.norm * ·) := by
  have hd := C134_results _ _ _ _ _ _ _ _ _ _ _ _ h
  have hd' := hd
  unfold deconvWaterInfo at h
  rw [hd] at h
  simp only at h
  rw [water_eq _ _ _ _ _ _ _ _ _ _ N hN] at hd
  simp only [bind, Except.bind] at hd
  split at hd
  · cases hd
  rename_i h1
  split at hd
  · cases hd
  rename_i h2
  split at hd
  · cases hd
  rename_i h3
  cases hm : maxC (rawRf src sr wl T gauss (nfft.getD (fastLen N)) N src) with
  | error e => rw [hm] at hd; cases hd
  | ok m =>
    rw [hm] at hd
    simp only at hd
    split at hd
    · cases hd
    rename_i h0
    injection hd with hd
    have hinfo : info = ⟨(rawRf src sr wl T gauss (nfft.getD (fastLen N)) N src).map (1 / m * ·), 1 / m⟩ := by
      have e : maxC ((ifft (waterSpec (waterFilter (nfft.getD (fastLen N)) (1 / sr) T gauss)
          (fft (toC src) (nfft.getD (fastLen N))) (fft (toC src) (nfft.getD (fastLen N)))
          (waterPower (fft (toC src) (nfft.getD (fastLen N))) wl)) (nfft.getD (fastLen N))).take N) = .ok m := hm
      cases length with
      | some l =>
        have hNe' : l = N := by simpa [outLen] using hN
        simp only at h
        subst hNe'
        rw [e] at h
        simp only at h
        rw [if_neg h0] at h
        injection h with h
        exact (Prod.mk.inj h).2.symm
      | none =>
        have hNe' : (rsp.headD []).length = N := by
          cases rsp with
          | nil => simp [outLen] at hN
          | cons r rs => simpa [outLen] using hN
        simp only at h
        subst hNe'
        rw [e] at h
        simp only at h
        rw [if_neg h0] at h
        injection h with h
        exact (Prod.mk.inj h).2.symm
    subst hinfo
    refine ⟨rsp.map (rawRf src sr wl T gauss (nfft.getD (fastLen N)) N),
      rawRf src sr wl T gauss (nfft.getD (fastLen N)) N src, ?_, ?_, ?_, rfl⟩
    · rw [water_eq _ _ _ _ _ _ _ _ _ _ N hN]
      simp only
      rw [if_neg h1, if_neg h2, if_neg h3]
    · rw [water_eq _ _ _ _ _ _ _ _ _ _ N rfl]
      simp only
      rw [if_neg h1, if_neg h2, if_neg h3]
      rfl
    · rw [← hd]
      unfold scaleAll
      simp only [mul_comm]

end water

theorem delta_raw_two : rawRf [1] 1 (1 / 20) 0 none 1 1 [2] = [2] := by
  refine listC_ext _ _ (by simp [rawRf_length]) fun m hm => ?_
  rw [rawRf_length, lt_min_iff] at hm
  rw [delta_raw _ (by norm_num) _ _ _ _ hm.1 hm.2]
  obtain ⟨h, -⟩ := hm
  interval_cases m
  simp

theorem delta_raw_one : rawRf [1] 1 (1 / 20) 0 none 1 1 [1] = [1] := by
  refine listC_ext _ _ (by simp [rawRf_length]) fun m hm => ?_
  rw [rawRf_length, lt_min_iff] at hm
  rw [delta_raw _ (by norm_num) _ _ _ _ hm.1 hm.2]
  obtain ⟨h, -⟩ := hm
  interval_cases m
  simp

theorem delta_info (norm : Norm) (hn : norm ≠ .none) (rf : List (List ℂ))
    (h : deconvWaterlevel id [[2]] [1] 1 (1 / 20) none 0 none norm none = .ok rf) :
    deconvWaterInfo id [[2]] [1] 1 (1 / 20) none 0 none norm none = .ok (rf, ⟨[1], 1⟩) := by
  unfold deconvWaterInfo
  rw [h]
  have e : (ifft (waterSpec (waterFilter 1 (1 / 1) 0 none) (fft (toC [1]) 1) (fft (toC [1]) 1)
      (waterPower (fft (toC [1]) 1) (1 / 20))) 1).take 1 = [1] := delta_raw_one
  cases norm with
  | none => exact absurd rfl hn
  | src | idx =>
    simp only [Option.getD_none, id, List.headD_cons, List.length_singleton, e]
    simp [maxC]

/-- C134 is false for an index as `normalize`: the response `[2]` and the source `[1]` give `[2]` without
normalisation and `[1]` with `normalize=0`, but `norm` is 1. -/
theorem C134_counterexample :
    deconvWaterlevel id [[2]] [1] 1 (1 / 20) none 0 none .none none = .ok [[2]] ∧
    deconvWaterInfo id [[2]] [1] 1 (1 / 20) none 0 none (.idx 0) none = .ok ([[1]], ⟨[1], 1⟩) := by
  constructor
  · rw [water_eq _ _ _ _ _ _ _ _ _ _ 1 rfl]
    simp only [Option.getD_none, id]
    rw [if_neg (by norm_num), if_neg (by norm_num), if_neg (delta_ok _ (by norm_num) 1)]
    simp only [List.map_cons, List.map_nil, delta_raw_two]
  · apply delta_info _ (by simp)
    rw [water_eq _ _ _ _ _ _ _ _ _ _ 1 rfl]
    simp only [Option.getD_none, id]
    rw [if_neg (by norm_num), if_neg (by norm_num), if_neg (delta_ok _ (by norm_num) 1)]
    simp only [List.map_cons, List.map_nil, delta_raw_two]
    rw [show getItem [[(2 : ℂ)]] 0 = .ok [2] from rfl]
    simp [bind, Except.bind, maxC, scaleAll]

/-- C134 is false for `normalize=None`: the call ends with an unbound variable for every input that is
deconvolved successfully without `return_info`. -/
theorem C134_counterexample_none (fastLen : ℕ → ℕ) (rsp : List (List ℝ)) (src : List ℝ) (sr wl : ℝ)
    (gauss : Option ℝ) (T : ℝ) (length nfft : Option ℕ) (rf : List (List ℂ))
    (h : deconvWaterlevel fastLen rsp src sr wl gauss T length .none nfft = .ok rf) :
    deconvWaterInfo fastLen rsp src sr wl gauss T length .none nfft = .error .nameError := by
  unfold deconvWaterInfo
  rw [h]

/-- C134_src_partial is not vacuous. -/
example : deconvWaterInfo id [[2]] [1] 1 (1 / 20) none 0 none .src none = .ok ([[2]], ⟨[1], 1⟩) := by
  apply delta_info _ (by simp)
  rw [water_eq _ _ _ _ _ _ _ _ _ _ 1 rfl]
  simp only [Option.getD_none, id]
  rw [if_neg (by norm_num), if_neg (by norm_num), if_neg (delta_ok _ (by norm_num) 1)]
  simp only [List.map_cons, List.map_nil, delta_raw_two, delta_raw_one]
  simp [bind, Except.bind, maxC, scaleAll]

/-- C133 is false for `deconv_iterative`: every single array (of positive length) raises `TypeError`. -/
theorem C133_iterative_counterexample (fastLen : ℕ → ℕ) (x src : List ℝ) (hx : x ≠ []) (sr tshift gauss : ℝ)
    (hsr : sr ≠ 0) (itmax : ℕ) (minderr : ℝ) (muteShift : Bool) (normalize : Option ℤ) :
    deconvIterArg fastLen (.one x) src sr tshift gauss itmax minderr muteShift normalize
      = .error .typeError := by
  cases x with
  | nil => exact absurd rfl hx
  | cons v x =>
    unfold deconvIterArg
    simp only
    rw [if_neg hsr]

end Verif.Props
