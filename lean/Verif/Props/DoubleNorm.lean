import Verif.Model.DoubleNorm
import Verif.Props.DoubleDelay
import Verif.Props.DeconvTime

/-!
# C216: the normalised maximum in double precision
-/

set_option linter.unusedSimpArgs false
set_option linter.unusedSectionVars false

namespace Verif.Props
open Verif.Py Verif.Model Verif.Model.DoubleNorm Verif.Spec

theorem roundEven_neg (q : ℚ) : roundEven (-q) = -roundEven q := by
  by_cases hq : (⌊q⌋ : ℚ) = q
  · rw [← hq, ← Int.cast_neg, roundEven_int, roundEven_int]
  have h1 := Int.floor_le q
  have h2 := Int.lt_floor_add_one q
  have h1' : (⌊q⌋ : ℚ) < q := lt_of_le_of_ne h1 hq
  have hf : ⌊-q⌋ = -⌊q⌋ - 1 := by
    rw [Int.floor_eq_iff]
    push_cast
    constructor <;> linarith
  unfold roundEven
  rw [hf]
  push_cast
  rcases lt_trichotomy (q - ⌊q⌋) (1 / 2) with h | h | h
  · split_ifs <;> first | omega | (exfalso; linarith)
  · split_ifs <;> first | omega | (exfalso; linarith)
  · split_ifs <;> first | omega | (exfalso; linarith)

theorem fl64_neg (x : ℚ) : fl64 (-x) = -fl64 x := by
  have e : ulpExp (-x) = ulpExp x := by unfold ulpExp; rw [abs_neg]
  unfold fl64
  rw [e, neg_div, roundEven_neg]
  push_cast
  ring

theorem fl64_nonneg (x : ℚ) (h : 0 ≤ x) : 0 ≤ fl64 x := le_fl64 _ _ double_zero h

theorem fl64_abs (x : ℚ) : |fl64 x| = fl64 |x| := by
  rcases le_total 0 x with h | h
  · rw [abs_of_nonneg h, abs_of_nonneg (fl64_nonneg x h)]
  · rw [abs_of_nonpos h, fl64_neg, abs_of_nonpos (fl64_le _ _ double_zero h)]

/-- Rounding commutes with powers of two. -/
theorem fl64_zpow (k : ℤ) (x : ℚ) : fl64 (2 ^ k * x) = 2 ^ k * fl64 x := by
  by_cases hx : x = 0
  · rw [hx, mul_zero, fl64_zero, mul_zero]
  have hk : (0 : ℚ) < 2 ^ k := zpow_pos (by norm_num) _
  have hpos : 0 < |x| := abs_pos.2 hx
  have hpos' : 0 < |2 ^ k * x| := abs_pos.2 (mul_ne_zero hk.ne' hx)
  have habs : |2 ^ k * x| = 2 ^ k * |x| := by rw [abs_mul, abs_of_pos hk]
  have hlog : Int.log 2 |2 ^ k * x| = Int.log 2 |x| + k := by
    have a1 := Int.zpow_log_le_self (R := ℚ) (b := 2) (by norm_num) hpos
    have a2 := Int.lt_zpow_succ_log_self (R := ℚ) (b := 2) (by norm_num) |x|
    apply le_antisymm
    · have := (Int.lt_zpow_iff_log_lt (R := ℚ) (b := 2) (by norm_num) (x := Int.log 2 |x| + k + 1) hpos').1 (by
        rw [habs, show Int.log 2 |x| + k + 1 = k + (Int.log 2 |x| + 1) by ring, zpow_add₀ (by norm_num)]
        push_cast at a2 ⊢
        exact mul_lt_mul_of_pos_left a2 hk)
      omega
    · refine (Int.zpow_le_iff_le_log (R := ℚ) (b := 2) (by norm_num) hpos').1 ?_
      rw [habs, add_comm, zpow_add₀ (by norm_num)]
      push_cast at a1 ⊢
      exact mul_le_mul_of_nonneg_left a1 hk.le
  have he : ulpExp (2 ^ k * x) = k + ulpExp x := by
    unfold ulpExp
    rw [hlog]
    ring
  unfold fl64
  rw [he, zpow_add₀ (by norm_num), mul_div_mul_left _ _ hk.ne']
  ring

/-- Doubles next to 1. -/
theorem double_near_one (y : ℚ) (hy : Double y) (h1 : 1 - 1 / 2 ^ 53 ≤ y) (h2 : y ≤ 1) : y = 1 ∨ y = 1 - 1 / 2 ^ 53 := by
  obtain ⟨m, e, hm, rfl⟩ := hy
  have he0 : (0 : ℚ) < 2 ^ e := zpow_pos (by norm_num) _
  have hm' : |(m : ℚ)| < 2 ^ 53 := by
    have := (Int.cast_lt (R := ℚ)).2 hm
    rw [Int.cast_abs] at this
    push_cast at this
    exact this
  by_cases he : -53 ≤ e
  · obtain ⟨k, hk⟩ := Int.eq_ofNat_of_zero_le (show 0 ≤ e + 53 by omega)
    have e1 : (m : ℚ) * 2 ^ e = ((m * 2 ^ k : ℤ) : ℚ) / 2 ^ 53 := by
      have : e = (k : ℤ) - 53 := by
        have : e + 53 = (k : ℤ) := hk
        omega
      rw [this, zpow_sub₀ (by norm_num), zpow_natCast]
      push_cast
      rw [mul_div_assoc]
      norm_cast
    rw [e1] at h1 h2 ⊢
    generalize m * 2 ^ k = n at h1 h2 ⊢
    rw [div_le_one (by norm_num)] at h2
    have h1' : (2 ^ 53 - 1 : ℚ) ≤ n := by
      have := mul_le_mul_of_nonneg_right h1 (show (0 : ℚ) ≤ 2 ^ 53 by norm_num)
      rw [div_mul_cancel₀ _ (by norm_num)] at this
      linarith
    have g2 : n ≤ 2 ^ 53 := by exact_mod_cast h2
    have g1 : (2 ^ 53 - 1 : ℤ) ≤ n := by exact_mod_cast h1'
    have : n = 2 ^ 53 ∨ n = 2 ^ 53 - 1 := by omega
    rcases this with rfl | rfl
    · left; norm_num
    · right; norm_num
  · exfalso
    have : (2 : ℚ) ^ e ≤ 2 ^ (-54 : ℤ) := zpow_le_zpow_right₀ (by norm_num) (by omega)
    have h3 : (m : ℚ) * 2 ^ e ≤ 2 ^ 53 * 2 ^ (-54 : ℤ) :=
      mul_le_mul ((le_abs_self _).trans hm'.le) this he0.le (by norm_num)
    norm_num at h3 h1
    linarith

/-- A number times its rounded inverse. -/
theorem mul_inv64 (M : ℚ) (h : 0 < M) : fl64 (M * fl64 (1 / M)) = 1 ∨ fl64 (M * fl64 (1 / M)) = 1 - 1 / 2 ^ 53 := by
  have h1 := fl64_rel (1 / M)
  rw [abs_of_pos (show 0 < 1 / M by positivity), abs_le] at h1
  have e : M * (1 / M / 2 ^ 53) = 1 / 2 ^ 53 := by field_simp
  have e' : M * (1 / M) = 1 := by field_simp
  have l := mul_le_mul_of_nonneg_left h1.1 h.le
  have u := mul_le_mul_of_nonneg_left h1.2 h.le
  rw [mul_sub, e'] at l u
  rw [mul_neg, e] at l
  rw [e] at u
  refine double_near_one _ (double_fl64 _) ?_ ?_
  · have := fl64_mono (1 - 1 / 2 ^ 53) (M * fl64 (1 / M)) (by linarith)
    have c : fl64 (1 - 1 / 2 ^ 53) = 1 - 1 / 2 ^ 53 := by decide +kernel
    rwa [c] at this
  · have := fl64_mono (M * fl64 (1 / M)) (1 + 1 / 2 ^ 53) (by linarith)
    have c : fl64 (1 + 1 / 2 ^ 53) = 1 := by decide +kernel
    rwa [c] at this

theorem foldl_max_mono (h : ℚ → ℚ) (hm : ∀ a b, a ≤ b → h a ≤ h b) (g : ℚ → ℚ) (hg : ∀ v, |g v| = h |v|) (xs : List ℚ) (m : ℚ) :
    (xs.map g).foldl (fun m y => max m |y|) (h m) = h (xs.foldl (fun m y => max m |y|) m) := by
  induction xs generalizing m with
  | nil => rfl
  | cons x xs ih =>
    simp only [List.map_cons, List.foldl_cons]
    have : max (h m) |g x| = h (max m |x|) := by
      rw [hg]
      rcases le_total m |x| with hle | hle
      · rw [max_eq_right hle, max_eq_right (hm _ _ hle)]
      · rw [max_eq_left hle, max_eq_left (hm _ _ hle)]
    rw [this, ih]

theorem maxAbs_map_mono (h : ℚ → ℚ) (hm : ∀ a b, a ≤ b → h a ≤ h b) (g : ℚ → ℚ) (hg : ∀ v, |g v| = h |v|) (x : List ℚ) (M : ℚ)
    (hM : maxAbs x = .ok M) : maxAbs (x.map g) = .ok (h M) := by
  cases x with
  | nil => cases hM
  | cons a xs =>
    simp only [maxAbs, Except.ok.injEq] at hM
    subst hM
    simp only [List.map_cons, maxAbs]
    rw [hg, foldl_max_mono h hm g hg]

theorem maxAbs_pos (x : List ℚ) (M : ℚ) (hM : maxAbs x = .ok M) (h0 : M ≠ 0) : 0 < M := by
  obtain ⟨-, v, -, hv⟩ := maxAbs_spec x M hM
  exact lt_of_le_of_ne (by rw [← hv]; exact abs_nonneg v) h0.symm

/-- The largest absolute value of the trace used for normalisation afterwards. -/
theorem normalize_max (x : List ℚ) (M : ℚ) (hM : maxAbs x = .ok M) (h0 : M ≠ 0) :
    maxAbs (x.map fun v => fl64 (v * fl64 (1 / M))) = .ok (fl64 (M * fl64 (1 / M))) := by
  have hn : 0 ≤ fl64 (1 / M) := fl64_nonneg _ (by have := maxAbs_pos x M hM h0; positivity)
  refine maxAbs_map_mono (fun a => fl64 (a * fl64 (1 / M))) (fun a b hab => fl64_mono _ _ (mul_le_mul_of_nonneg_right hab hn)) _
    (fun v => ?_) x M hM
  rw [fl64_abs, abs_mul, abs_of_nonneg hn]

/-- **C216.**  After normalisation in double precision the largest absolute value of the chosen trace is 1 or the double just below 1. -/
theorem C216_max_partial (rf : List (List ℚ)) (i : ℤ) (x : List ℚ) (M : ℚ) (hx : getItem rf i = .ok x) (hM : maxAbs x = .ok M) (h0 : M ≠ 0) :
    ∃ res y m, normalizeAll64 rf i = .ok res ∧ getItem res i = .ok y ∧ y.length = x.length ∧ maxAbs y = .ok m ∧ (m = 1 ∨ m = 1 - 1 / 2 ^ 53) := by
  refine ⟨rf.map (·.map fun v => fl64 (v * fl64 (1 / M))), x.map fun v => fl64 (v * fl64 (1 / M)), fl64 (M * fl64 (1 / M)), ?_, ?_, by simp, ?_,
    mul_inv64 M (maxAbs_pos x M hM h0)⟩
  · unfold normalizeAll64
    simp only [hx, hM, bind, Except.bind]
    rw [if_neg h0]
  · rw [getItem_map, hx]
    rfl
  · exact normalize_max x M hM h0

/-- **C216, negation.**  A trace with the maximum 49: the normalised maximum is not 1. -/
theorem C216_counterexample : normalizeAll64 [[3, 49, -7]] 0 = .ok [[fl64 (3 * fl64 (1 / 49)), 1 - 1 / 2 ^ 53, -fl64 (7 * fl64 (1 / 49))]] ∧
    maxAbs [fl64 (3 * fl64 (1 / 49)), 1 - 1 / 2 ^ 53, -fl64 (7 * fl64 (1 / 49))] = .ok (1 - 1 / 2 ^ 53 : ℚ) := by
  decide +kernel

/-- **C216** (order and accuracy).  Normalisation keeps the order of all samples of all traces, so that largest samples stay largest, and it
changes no ratio of a sample to the maximum by more than a relative error of 2^-51. -/
theorem C216_samples (rf : List (List ℚ)) (i : ℤ) (x : List ℚ) (M : ℚ) (hx : getItem rf i = .ok x) (hM : maxAbs x = .ok M) (h0 : M ≠ 0) :
    ∃ g : ℚ → ℚ, normalizeAll64 rf i = .ok (rf.map (·.map g)) ∧ (∀ v w, v ≤ w → g v ≤ g w) ∧ (∀ v, g (-v) = -g v) ∧
      ∀ v, |g v - v / M| ≤ |v / M| / 2 ^ 51 := by
  have hp := maxAbs_pos x M hM h0
  have hn : 0 ≤ fl64 (1 / M) := fl64_nonneg _ (by positivity)
  refine ⟨fun v => fl64 (v * fl64 (1 / M)), ?_, fun v w h => fl64_mono _ _ (mul_le_mul_of_nonneg_right h hn), fun v => ?_, fun v => ?_⟩
  · unfold normalizeAll64
    simp only [hx, hM, bind, Except.bind]
    rw [if_neg h0]
  · simp only
    rw [neg_mul, fl64_neg]
  · have h1 := fl64_rel (1 / M)
    have h2 := fl64_rel (v * fl64 (1 / M))
    have e1 : |v * fl64 (1 / M) - v / M| ≤ |v / M| / 2 ^ 53 := by
      have : v * fl64 (1 / M) - v / M = v * (fl64 (1 / M) - 1 / M) := by ring
      rw [this, abs_mul]
      refine (mul_le_mul_of_nonneg_left h1 (abs_nonneg v)).trans_eq ?_
      rw [abs_div, abs_div, abs_one]
      ring
    have e2 : |v * fl64 (1 / M)| ≤ |v / M| + |v / M| / 2 ^ 53 := by
      have := abs_sub_abs_le_abs_sub (v * fl64 (1 / M)) (v / M)
      linarith
    have e3 : |fl64 (v * fl64 (1 / M)) - v / M| ≤ |fl64 (v * fl64 (1 / M)) - v * fl64 (1 / M)| + |v * fl64 (1 / M) - v / M| := abs_sub_le _ _ _
    have h3 : |fl64 (v * fl64 (1 / M)) - v * fl64 (1 / M)| ≤ (|v / M| + |v / M| / 2 ^ 53) / 2 ^ 53 :=
      h2.trans (div_le_div_of_nonneg_right e2 (by positivity))
    have := abs_nonneg (v / M)
    simp only
    generalize |v / M| = a at *
    norm_num at *
    linarith

/-- **C216** (again).  Normalised traces with maximum 1 are not changed by a second normalisation, bit by bit; otherwise the maximum is 1 after it. -/
theorem C216_again (rf : List (List ℚ)) (i : ℤ) (x : List ℚ) (M : ℚ) (hx : getItem rf i = .ok x) (hM : maxAbs x = .ok M) (h0 : M ≠ 0) :
    ∃ res, normalizeAll64 rf i = .ok res ∧ ∃ res2 y, normalizeAll64 res i = .ok res2 ∧ getItem res2 i = .ok y ∧ maxAbs y = .ok 1 ∧
      normalizeAll64 res2 i = .ok res2 := by
  have fix : ∀ (rf : List (List ℚ)) (x : List ℚ), getItem rf i = .ok x → maxAbs x = .ok 1 → (∀ l ∈ rf, ∀ v ∈ l, Double v) →
      normalizeAll64 rf i = .ok rf := by
    intro rf x h1 h2 h3
    unfold normalizeAll64
    simp only [h1, h2, bind, Except.bind]
    rw [if_neg (by norm_num)]
    congr 1
    conv_rhs => rw [← List.map_id rf]
    refine List.map_congr_left fun l hl => ?_
    conv_rhs => rw [id, ← List.map_id l]
    refine List.map_congr_left fun v hv => ?_
    have : fl64 (1 / 1 : ℚ) = 1 := by decide +kernel
    rw [this, mul_one, fl64_double v (h3 l hl v hv)]
    rfl
  have hd : ∀ (rf : List (List ℚ)) (n : ℚ), ∀ l ∈ rf.map (·.map fun v => fl64 (v * n)), ∀ v ∈ l, Double v := by
    intro rf n l hl v hv
    obtain ⟨k, -, rfl⟩ := List.mem_map.1 hl
    obtain ⟨w, -, rfl⟩ := List.mem_map.1 hv
    exact double_fl64 _
  have step : ∀ (rf : List (List ℚ)) (x : List ℚ) (M : ℚ), getItem rf i = .ok x → maxAbs x = .ok M → M ≠ 0 →
      normalizeAll64 rf i = .ok (rf.map (·.map fun v => fl64 (v * fl64 (1 / M)))) ∧
      getItem (rf.map (·.map fun v => fl64 (v * fl64 (1 / M)))) i = .ok (x.map fun v => fl64 (v * fl64 (1 / M))) ∧
      maxAbs (x.map fun v => fl64 (v * fl64 (1 / M))) = .ok (fl64 (M * fl64 (1 / M))) := by
    intro rf x M hx hM h0
    refine ⟨?_, ?_, normalize_max x M hM h0⟩
    · unfold normalizeAll64
      simp only [hx, hM, bind, Except.bind]
      rw [if_neg h0]
    · rw [getItem_map, hx]
      rfl
  obtain ⟨a1, a2, a3⟩ := step rf x M hx hM h0
  refine ⟨_, a1, ?_⟩
  rcases mul_inv64 M (maxAbs_pos x M hM h0) with h | h
  · rw [h] at a3
    exact ⟨_, _, fix _ _ a2 a3 (hd _ _), a2, a3, fix _ _ a2 a3 (hd _ _)⟩
  · rw [h] at a3
    obtain ⟨b1, b2, b3⟩ := step _ _ _ a2 a3 (by norm_num)
    have c : fl64 ((1 - 1 / 2 ^ 53) * fl64 (1 / (1 - 1 / 2 ^ 53))) = (1 : ℚ) := by decide +kernel
    rw [c] at b3
    exact ⟨_, _, b1, b2, b3, fix _ _ b2 b3 (hd _ _)⟩

/-- **C216** (units).  Data in units which differ by a power of two give the same normalised data, bit by bit. -/
theorem C216_units (rf : List (List ℚ)) (i k : ℤ) : normalizeAll64 (rf.map (·.map (2 ^ k * ·))) i = normalizeAll64 rf i := by
  have hk : (0 : ℚ) < 2 ^ k := zpow_pos (by norm_num) _
  unfold normalizeAll64
  rw [getItem_map]
  cases hx : getItem rf i with
  | error e => rfl
  | ok x =>
    simp only [Except.map, bind, Except.bind]
    cases hM : maxAbs x with
    | error e =>
      cases x with
      | nil => simp only [List.map_nil]; rw [hM]
      | cons a xs => simp [maxAbs] at hM
    | ok M =>
      rw [maxAbs_smul (2 ^ k) hk x M hM]
      simp only
      by_cases h0 : M = 0
      · rw [if_pos h0, if_pos (by rw [h0, mul_zero])]
      · rw [if_neg h0, if_neg (mul_ne_zero hk.ne' h0)]
        congr 1
        rw [List.map_map]
        refine List.map_congr_left fun l _ => ?_
        simp only [Function.comp, List.map_map]
        refine List.map_congr_left fun v _ => ?_
        have e : (1 : ℚ) / (2 ^ k * M) = 2 ^ (-k) * (1 / M) := by
          rw [zpow_neg]
          field_simp
        simp only [Function.comp]
        rw [e, fl64_zpow]
        congr 1
        rw [zpow_neg]
        field_simp

/-! ## Cases -/

/-- Three components with the source at index 1; the second normalisation makes the maximum 1. -/
example : (normalizeAll64 [[1, 2], [98, -49], [5, 0]] 1).map (fun r => r.map (·.length)) = .ok [2, 2, 2] ∧
    ((normalizeAll64 [[1, 2], [98, -49], [5, 0]] 1).bind fun r => (normalizeAll64 r 1).bind fun r => (getItem r 1).bind maxAbs) = .ok 1 ∧
    normalizeAll64 [[1, 2], [4, -4], [5, 0]] 1 = .ok [[1 / 4, 1 / 2], [1, -1], [5 / 4, 0]] ∧
    normalizeAll64 [[0, 0], [1]] 0 = .error .other ∧ normalizeAll64 [[1]] 2 = .error .indexError := by decide +kernel

end Verif.Props
