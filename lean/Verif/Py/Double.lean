import Mathlib.Data.Int.Log
import Mathlib.Algebra.Order.Floor.Ring
import Mathlib.Data.Rat.Floor
import Mathlib.Tactic.Linarith
import Mathlib.Tactic.Ring
import Mathlib.Tactic.NormNum
import Mathlib.Tactic.FieldSimp
import Mathlib.Tactic.Positivity

/-!
# Double precision arithmetic (IEEE 754 binary64)

A number is rounded to 53 significant bits, to nearest, ties to even.  Numbers outside of the range of exponents
(below 2^-1022 or from 2^1024 on) are not treated: the exponent is unbounded here.  Python's `float` operations return
the rounded exact result of the operation.
-/

namespace Verif.Py

/-- Nearest integer, ties to even. -/
def roundEven (q : ℚ) : ℤ :=
  if q - ⌊q⌋ < 1 / 2 then ⌊q⌋
  else if 1 / 2 < q - ⌊q⌋ then ⌊q⌋ + 1
  else if ⌊q⌋ % 2 = 0 then ⌊q⌋ else ⌊q⌋ + 1

/-- Exponent of the last of 53 bits of `x`. -/
def ulpExp (x : ℚ) : ℤ := Int.log 2 |x| - 52

/-- The double next to `x`. -/
def fl64 (x : ℚ) : ℚ := roundEven (x / 2 ^ ulpExp x) * 2 ^ ulpExp x

theorem roundEven_err (q : ℚ) : |(roundEven q : ℚ) - q| ≤ 1 / 2 := by
  have h1 := Int.floor_le q
  have h2 := Int.lt_floor_add_one q
  unfold roundEven
  rw [abs_le]
  split
  · constructor <;> linarith
  · rename_i h3
    split
    · rename_i h4
      push_cast
      constructor <;> linarith
    · rename_i h4
      have h3 := not_lt.1 h3
      have h4 := not_lt.1 h4
      split
      · constructor <;> linarith
      · push_cast
        constructor <;> linarith

theorem roundEven_int (n : ℤ) : roundEven n = n := by
  unfold roundEven
  rw [Int.floor_intCast, sub_self, if_pos (by norm_num)]

theorem fl64_zero : fl64 0 = 0 := by
  unfold fl64
  rw [zero_div]
  have := roundEven_int 0
  rw [Int.cast_zero] at this
  rw [this, Int.cast_zero, zero_mul]

/-- The relative error of rounding is at most 2^-53. -/
theorem fl64_rel (x : ℚ) : |fl64 x - x| ≤ |x| / 2 ^ 53 := by
  by_cases hx : x = 0
  · rw [hx, fl64_zero]
    simp
  · have hpos : 0 < |x| := abs_pos.2 hx
    have hlog := Int.zpow_log_le_self (R := ℚ) (b := 2) (by norm_num) hpos
    have hu : (0 : ℚ) < 2 ^ ulpExp x := zpow_pos (by norm_num) _
    have h := roundEven_err (x / 2 ^ ulpExp x)
    have e : fl64 x - x = ((roundEven (x / 2 ^ ulpExp x) : ℚ) - x / 2 ^ ulpExp x) * 2 ^ ulpExp x := by
      unfold fl64
      field_simp
    rw [e, abs_mul, abs_of_pos hu]
    have h2 : (2 : ℚ) ^ ulpExp x = 2 ^ (Int.log 2 |x|) / 2 ^ 52 := by
      unfold ulpExp
      rw [zpow_sub₀ (by norm_num)]
      norm_cast
    have h3 : (2 : ℚ) ^ ulpExp x ≤ |x| / 2 ^ 52 := by
      rw [h2]
      apply div_le_div_of_nonneg_right _ (by positivity)
      exact_mod_cast hlog
    calc _ ≤ 1 / 2 * 2 ^ ulpExp x := mul_le_mul_of_nonneg_right h hu.le
      _ ≤ 1 / 2 * (|x| / 2 ^ 52) := by linarith
      _ = |x| / 2 ^ 53 := by ring

/-- Numbers with at most 53 significant bits are not changed. -/
theorem fl64_exact (m : ℤ) (e : ℤ) (hm : |m| < 2 ^ 53) : fl64 (m * 2 ^ e) = m * 2 ^ e := by
  by_cases h0 : m = 0
  · rw [h0, Int.cast_zero, zero_mul, fl64_zero]
  · set x : ℚ := m * 2 ^ e with hx
    have he : (0 : ℚ) < 2 ^ e := zpow_pos (by norm_num) _
    have hm0 : (0 : ℚ) < |(m : ℚ)| := abs_pos.2 (by exact_mod_cast h0)
    have hxa : |x| = |(m : ℚ)| * 2 ^ e := by rw [hx, abs_mul, abs_of_pos he]
    have hlt : |x| < 2 ^ (e + 53) := by
      rw [hxa, zpow_add₀ (by norm_num), mul_comm]
      have : |(m : ℚ)| < 2 ^ (53 : ℤ) := by
        have h := (Int.cast_lt (R := ℚ)).2 hm
        rw [Int.cast_abs] at h
        refine h.trans_eq ?_
        norm_num
      exact mul_lt_mul_of_pos_left this he
    have hpos : 0 < |x| := by rw [hxa]; positivity
    have hle : ulpExp x ≤ e := by
      have hlog := Int.zpow_log_le_self (R := ℚ) (b := 2) (by norm_num) hpos
      have h1 : (2 : ℚ) ^ (Int.log 2 |x|) < 2 ^ (e + 53) := by
        refine lt_of_le_of_lt ?_ hlt
        exact_mod_cast hlog
      have := (zpow_lt_zpow_iff_right₀ (by norm_num : (1 : ℚ) < 2)).1 h1
      unfold ulpExp
      omega
    have hq : x / 2 ^ ulpExp x = ((m * 2 ^ (e - ulpExp x).toNat : ℤ) : ℚ) := by
      have hn : ((e - ulpExp x).toNat : ℤ) = e - ulpExp x := Int.toNat_of_nonneg (by omega)
      generalize ulpExp x = u at hn ⊢
      push_cast
      rw [hx, mul_div_assoc, ← zpow_sub₀ (by norm_num), ← zpow_natCast, hn]
    unfold fl64
    rw [hq, roundEven_int, ← hq]
    field_simp

/-- Integers below 2^53 are exact. -/
theorem fl64_int (m : ℤ) (hm : |m| < 2 ^ 53) : fl64 m = m := by
  have := fl64_exact m 0 hm
  simpa using this

end Verif.Py
