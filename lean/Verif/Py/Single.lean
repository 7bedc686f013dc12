import Verif.Py.Double

/-!
# Single precision (IEEE 754 binary32)

A number is rounded to 24 significant bits, to nearest, ties to even; the range of exponents is not bounded here.
-/

namespace Verif.Py

/-- Exponent of the last of 24 bits of `x`. -/
def ulpExp32 (x : ℚ) : ℤ := Int.log 2 |x| - 23

/-- The single precision number next to `x`. -/
def fl32 (x : ℚ) : ℚ := roundEven (x / 2 ^ ulpExp32 x) * 2 ^ ulpExp32 x

theorem fl32_zero : fl32 0 = 0 := by
  unfold fl32
  rw [zero_div]
  have := roundEven_int 0
  rw [Int.cast_zero] at this
  rw [this, Int.cast_zero, zero_mul]

/-- The relative error of rounding is at most 2^-24. -/
theorem fl32_rel (x : ℚ) : |fl32 x - x| ≤ |x| / 2 ^ 24 := by
  by_cases hx : x = 0
  · rw [hx, fl32_zero]
    simp
  · have hpos : 0 < |x| := abs_pos.2 hx
    have hlog := Int.zpow_log_le_self (R := ℚ) (b := 2) (by norm_num) hpos
    have hu : (0 : ℚ) < 2 ^ ulpExp32 x := zpow_pos (by norm_num) _
    have h := roundEven_err (x / 2 ^ ulpExp32 x)
    have e : fl32 x - x = ((roundEven (x / 2 ^ ulpExp32 x) : ℚ) - x / 2 ^ ulpExp32 x) * 2 ^ ulpExp32 x := by
      unfold fl32
      field_simp
    rw [e, abs_mul, abs_of_pos hu]
    have h2 : (2 : ℚ) ^ ulpExp32 x = 2 ^ (Int.log 2 |x|) / 2 ^ 23 := by
      unfold ulpExp32
      rw [zpow_sub₀ (by norm_num)]
      norm_cast
    have h3 : (2 : ℚ) ^ ulpExp32 x ≤ |x| / 2 ^ 23 := by
      rw [h2]
      apply div_le_div_of_nonneg_right _ (by positivity)
      exact_mod_cast hlog
    calc _ ≤ 1 / 2 * 2 ^ ulpExp32 x := mul_le_mul_of_nonneg_right h hu.le
      _ ≤ 1 / 2 * (|x| / 2 ^ 23) := by linarith
      _ = |x| / 2 ^ 24 := by ring

/-- Numbers with at most 24 significant bits are not changed. -/
theorem fl32_exact (m : ℤ) (e : ℤ) (hm : |m| < 2 ^ 24) : fl32 (m * 2 ^ e) = m * 2 ^ e := by
  by_cases h0 : m = 0
  · rw [h0, Int.cast_zero, zero_mul, fl32_zero]
  · set x : ℚ := m * 2 ^ e with hx
    have he : (0 : ℚ) < 2 ^ e := zpow_pos (by norm_num) _
    have hm0 : (0 : ℚ) < |(m : ℚ)| := abs_pos.2 (by exact_mod_cast h0)
    have hxa : |x| = |(m : ℚ)| * 2 ^ e := by rw [hx, abs_mul, abs_of_pos he]
    have hlt : |x| < 2 ^ (e + 24) := by
      rw [hxa, zpow_add₀ (by norm_num), mul_comm]
      have : |(m : ℚ)| < 2 ^ (24 : ℤ) := by
        have h := (Int.cast_lt (R := ℚ)).2 hm
        rw [Int.cast_abs] at h
        refine h.trans_eq ?_
        norm_num
      exact mul_lt_mul_of_pos_left this he
    have hpos : 0 < |x| := by rw [hxa]; positivity
    have hle : ulpExp32 x ≤ e := by
      have hlog := Int.zpow_log_le_self (R := ℚ) (b := 2) (by norm_num) hpos
      have h1 : (2 : ℚ) ^ (Int.log 2 |x|) < 2 ^ (e + 24) := by
        refine lt_of_le_of_lt ?_ hlt
        exact_mod_cast hlog
      have := (zpow_lt_zpow_iff_right₀ (by norm_num : (1 : ℚ) < 2)).1 h1
      unfold ulpExp32
      omega
    have hq : x / 2 ^ ulpExp32 x = ((m * 2 ^ (e - ulpExp32 x).toNat : ℤ) : ℚ) := by
      have hn : ((e - ulpExp32 x).toNat : ℤ) = e - ulpExp32 x := Int.toNat_of_nonneg (by omega)
      generalize ulpExp32 x = u at hn ⊢
      push_cast
      rw [hx, mul_div_assoc, ← zpow_sub₀ (by norm_num), ← zpow_natCast, hn]
    unfold fl32
    rw [hq, roundEven_int, ← hq]
    field_simp

end Verif.Py
