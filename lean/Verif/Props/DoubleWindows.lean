import Verif.Model.DoubleWindows
import Verif.Props.DoubleIndex
import Verif.Props.Multitaper

/-!
# The windows of the multitaper method in double precision (C191)

The property expected: with tapers of `ntap` samples and the overlap `o` the window `j` starts at the sample
`⌊j * ntap * (1 - o)⌋`, and `⌊n / (ntap * (1 - o))⌋` windows are used for `n` samples.  It holds for the default overlap and
all overlaps `1 - 2^-k`; it is false for the overlap 0.9: the windows of 100 samples start at 0, 9, 19, ...
-/

set_option linter.unusedSimpArgs false
set_option linter.unusedSectionVars false

namespace Verif.Props
open Verif.Py Verif.Model Verif.Model.DoubleWindows

/-- The quotient of two integers, rounded to a double and cut off. -/
theorem floor_fl_div (a b : ℕ) (hb : 0 < b) (hab : a < 2 ^ 53) : ⌊fl64 ((a : ℚ) / b)⌋ = ((a / b : ℕ) : ℤ) := by
  have hbq : (0 : ℚ) < b := by exact_mod_cast hb
  have hdm := Nat.div_add_mod a b
  have hlt := Nat.mod_lt a hb
  generalize hm : a / b = m at *
  generalize hr : a % b = r at *
  have haq : (a : ℚ) = b * m + r := by rw [← hdm]; push_cast; ring
  have hx : (a : ℚ) / b = m + r / b := by rw [haq]; field_simp
  have herr := fl64_rel ((a : ℚ) / b)
  rw [abs_of_nonneg (show (0 : ℚ) ≤ (a : ℚ) / b by positivity)] at herr
  have hsmall : (a : ℚ) / b / 2 ^ 53 < 1 / b := by
    rw [div_div, div_lt_div_iff₀ (by positivity) hbq]
    have : (a : ℚ) < 2 ^ 53 := by exact_mod_cast hab
    nlinarith
  rcases Nat.eq_zero_or_pos r with h0 | h0
  · have hmlt : m < 2 ^ 53 := by
      have : m ≤ a := by rw [← hm]; exact Nat.div_le_self a b
      omega
    have : (a : ℚ) / b = ((m : ℤ) : ℚ) := by rw [hx, h0]; simp
    rw [this, fl64_int _ (by rw [abs_of_nonneg (by positivity)]; exact_mod_cast hmlt), Int.floor_intCast]
  · have hr1 : 1 / (b : ℚ) ≤ r / b := by
      rw [div_le_div_iff_of_pos_right hbq]; exact_mod_cast h0
    have hr2 : (r : ℚ) / b + 1 / b ≤ 1 := by
      rw [← add_div, div_le_one hbq]; exact_mod_cast hlt
    rw [abs_le] at herr
    rw [Int.floor_eq_iff]
    push_cast
    rw [hx] at herr hsmall ⊢
    constructor <;> linarith

theorem fl64_pow (e : ℤ) : fl64 (2 ^ e) = 2 ^ e := by
  have := fl64_exact 1 e (by norm_num)
  simpa using this

theorem overlapFactor_dyadic (k : ℕ) : overlapFactor (1 - 1 / 2 ^ k) = 2 ^ k := by
  unfold overlapFactor
  rw [show (1 : ℚ) - (1 - 1 / 2 ^ k) = 2 ^ (-(k : ℤ)) by rw [zpow_neg, zpow_natCast]; ring, fl64_pow]
  rw [show (1 : ℚ) / 2 ^ (-(k : ℤ)) = 2 ^ (k : ℤ) by rw [zpow_neg]; simp, fl64_pow, zpow_natCast]

/-- **C191** for the overlaps 0, 1/2, 3/4 (the default), 7/8, ...: in double precision the windows start and end where the
exact calculation says, and their number is right. -/
theorem C191_dyadic_partial (k : ℕ) (n ntap : ℕ) (hnt : 0 < ntap) (hn : 2 ^ k * n < 2 ^ 53) :
    windowCount (1 - 1 / 2 ^ k) n ntap = ⌊(n : ℚ) / (ntap * (1 - (1 - 1 / 2 ^ k)))⌋ ∧
    ∀ j : ℕ, j * ntap < 2 ^ 53 → windowStart (1 - 1 / 2 ^ k) ntap j = ⌊(j * ntap : ℚ) * (1 - (1 - 1 / 2 ^ k))⌋ := by
  have hntq : (0 : ℚ) < ntap := by exact_mod_cast hnt
  constructor
  · unfold windowCount
    rw [overlapFactor_dyadic k]
    have e1 : (2 : ℚ) ^ k * n = (((2 ^ k * n : ℕ) : ℤ) : ℚ) := by push_cast; ring
    rw [e1, fl64_int _ (by rw [abs_of_nonneg (by positivity)]; exact_mod_cast hn)]
    have e2 : (((2 ^ k * n : ℕ) : ℤ) : ℚ) = ((2 ^ k * n : ℕ) : ℚ) := by push_cast; ring
    rw [e2, floor_fl_div _ _ hnt hn, Int.natCast_ediv, ← Rat.floor_natCast_div_natCast]
    congr 1
    push_cast
    field_simp
    ring
  · intro j hj
    unfold windowStart
    rw [overlapFactor_dyadic k]
    have e1 : ((j * ntap : ℕ) : ℚ) / 2 ^ k = ((j * ntap : ℕ) : ℤ) * 2 ^ (-(k : ℤ)) := by
      rw [zpow_neg, zpow_natCast]; push_cast; ring
    rw [e1, fl64_exact _ _ (by rw [abs_of_nonneg (by positivity)]; exact_mod_cast hj), ← e1]
    congr 1
    push_cast
    ring

/-- The model in exact arithmetic with the default overlap has the windows of the program in double precision. -/
theorem C191_default_partial (n ntap : ℕ) (hnt : 0 < ntap) (hn : n < 2 ^ 51) :
    mtNwin (1 / (1 - 3 / 4)) n ntap = windowCount (3 / 4) n ntap ∧
    ∀ j : ℕ, j * ntap < 2 ^ 53 → (mtStart ntap (1 / (1 - 3 / 4)) j : ℤ) = windowStart (3 / 4) ntap j := by
  have h := C191_dyadic_partial 2 n ntap hnt (by omega)
  have e : (1 : ℚ) - 1 / 2 ^ 2 = 3 / 4 := by norm_num
  rw [e] at h
  have hc : ∀ x : ℚ, ⌊(x : ℝ)⌋ = ⌊x⌋ := fun x => Rat.floor_cast x
  refine ⟨?_, fun j hj => ?_⟩
  · rw [h.1]
    unfold mtNwin
    rw [pyIntR_nonneg _ (by positivity), ← hc]
    congr 1
    push_cast
    field_simp
  · rw [h.2 j hj]
    unfold mtStart
    rw [pyIntR_nonneg _ (by norm_num; positivity), Int.toNat_of_nonneg (Int.floor_nonneg.2 (by norm_num; positivity)), ← hc]
    congr 1
    push_cast
    ring

/-- Nearly the same number, and the double next to it. -/
theorem near_fl (x y η : ℚ) (hx : 0 ≤ x) (hη : 1 / 2 ^ 52 ≤ η) (hη1 : η ≤ 1) (h : |y - x| ≤ η * x) :
    |fl64 y - x| ≤ 2 * η * x := by
  have h1 := fl64_rel y
  have h2 : |y| ≤ x + η * x := by
    have := abs_sub_abs_le_abs_sub y x
    rw [abs_of_nonneg hx] at this
    linarith
  have h3 : |y| / 2 ^ 53 ≤ η * x := by
    rw [div_le_iff₀ (by positivity)]
    have : x + η * x ≤ 2 * x := by nlinarith
    have h4 : 2 * x ≤ η * x * 2 ^ 53 := by
      have : 1 ≤ η * 2 ^ 52 := by
        rw [div_le_iff₀ (by positivity)] at hη; exact hη
      nlinarith
    linarith
  calc |fl64 y - x| = |(fl64 y - y) + (y - x)| := by ring_nf
    _ ≤ |fl64 y - y| + |y - x| := abs_add_le _ _
    _ ≤ η * x + η * x := by linarith
    _ = 2 * η * x := by ring

/-- Nearly the same quotient. -/
theorem near_div (c x y η : ℚ) (hc : 0 ≤ c) (hx : 0 < x) (hη : η ≤ 1 / 2) (h : |y - x| ≤ η * x) :
    |c / y - c / x| ≤ 2 * η * (c / x) := by
  have hy : x / 2 ≤ y := by
    rw [abs_le] at h
    nlinarith
  have hy0 : 0 < y := by linarith
  have e : c / y - c / x = c / x * ((x - y) / y) := by field_simp
  rw [e, abs_mul, abs_of_nonneg (div_nonneg hc hx.le), abs_div, abs_of_pos hy0, abs_sub_comm, mul_comm]
  refine mul_le_mul_of_nonneg_right ?_ (div_nonneg hc hx.le)
  rw [div_le_iff₀ hy0]
  have hη0 : 0 ≤ η := by
    by_contra hn
    have := abs_nonneg (y - x)
    nlinarith
  nlinarith

/-- The overlap factor for the double next to the overlap `o`. -/
theorem overlapFactor_near (o : ℚ) (h0 : 0 ≤ o) (h1 : o ≤ 1 - 1 / 2 ^ 10) :
    |overlapFactor (fl64 o) - 1 / (1 - o)| ≤ 1 / 2 ^ 40 * (1 / (1 - o)) := by
  have hd : 0 < 1 - o := by
    have : (0 : ℚ) < 1 / 2 ^ 10 := by norm_num
    linarith
  have e1 : |(1 - fl64 o) - (1 - o)| ≤ 1 / 2 ^ 43 * (1 - o) := by
    have := fl64_rel o
    rw [abs_of_nonneg h0] at this
    rw [show (1 - fl64 o) - (1 - o) = -(fl64 o - o) by ring, abs_neg]
    refine this.trans ?_
    rw [div_le_iff₀ (by positivity)]
    linarith
  have e2 := near_fl (1 - o) _ _ hd.le (by norm_num) (by norm_num) e1
  have e3 := near_div 1 (1 - o) _ _ zero_le_one hd (by norm_num) e2
  have e4 := near_fl (1 / (1 - o)) _ _ (by positivity) (by norm_num) (by norm_num) e3
  refine e4.trans (le_of_eq ?_)
  norm_num

/-- **C191** for all overlaps up to 0.999: the start of a window and the number of windows differ by at most 1 from
those of the exact calculation with the decimal number `o`, and they are right if the exact value is not within 10^-4 of an
integer. -/
theorem C191_near_partial (o : ℚ) (h0 : 0 ≤ o) (h1 : o ≤ 1 - 1 / 2 ^ 10) (ntap : ℕ) (hnt : 0 < ntap) :
    (∀ j : ℕ, (j * ntap : ℚ) * (1 - o) ≤ 2 ^ 24 →
      |windowStart (fl64 o) ntap j - ⌊(j * ntap : ℚ) * (1 - o)⌋| ≤ 1 ∧
      (1 / 10 ^ 4 ≤ Int.fract ((j * ntap : ℚ) * (1 - o)) → Int.fract ((j * ntap : ℚ) * (1 - o)) < 1 - 1 / 10 ^ 4 →
        windowStart (fl64 o) ntap j = ⌊(j * ntap : ℚ) * (1 - o)⌋)) ∧
    ∀ n : ℕ, (n : ℚ) / (ntap * (1 - o)) ≤ 2 ^ 24 →
      |windowCount (fl64 o) n ntap - ⌊(n : ℚ) / (ntap * (1 - o))⌋| ≤ 1 ∧
      (1 / 10 ^ 4 ≤ Int.fract ((n : ℚ) / (ntap * (1 - o))) → Int.fract ((n : ℚ) / (ntap * (1 - o))) < 1 - 1 / 10 ^ 4 →
        windowCount (fl64 o) n ntap = ⌊(n : ℚ) / (ntap * (1 - o))⌋) := by
  have hd : 0 < 1 - o := by
    have : (0 : ℚ) < 1 / 2 ^ 10 := by norm_num
    linarith
  have hntq : (0 : ℚ) < ntap := by exact_mod_cast hnt
  have hof := overlapFactor_near o h0 h1
  have key : ∀ x y : ℚ, 0 ≤ x → x ≤ 2 ^ 24 → |y - x| ≤ 1 / 2 ^ 38 * x →
      |⌊y⌋ - ⌊x⌋| ≤ 1 ∧ (1 / 10 ^ 4 ≤ Int.fract x → Int.fract x < 1 - 1 / 10 ^ 4 → ⌊y⌋ = ⌊x⌋) := by
    intro x y hx hx2 hy
    have hε : |y - x| ≤ 1 / 2 ^ 14 := hy.trans (by
      calc 1 / 2 ^ 38 * x ≤ 1 / 2 ^ 38 * 2 ^ 24 := mul_le_mul_of_nonneg_left hx2 (by norm_num)
        _ = 1 / 2 ^ 14 := by norm_num)
    obtain ⟨k1, k2, -⟩ := floor_near x y _ hε (by norm_num)
    refine ⟨by rw [abs_le]; omega, fun f1 f2 => k2 ?_ ?_⟩
    · rw [← Int.fract]
      refine le_trans ?_ f1
      norm_num
    · have : (⌊x⌋ : ℚ) + 1 - x = 1 - Int.fract x := by unfold Int.fract; ring
      rw [this]
      have : (1 : ℚ) / 2 ^ 14 ≤ 1 / 10 ^ 4 := by norm_num
      linarith
  refine ⟨fun j hj => ?_, fun n hn => ?_⟩
  · have hJ : (0 : ℚ) ≤ ((j * ntap : ℕ) : ℚ) := Nat.cast_nonneg _
    have e1 := near_div ((j * ntap : ℕ) : ℚ) (1 / (1 - o)) _ _ hJ (by positivity) (by norm_num) hof
    have e2 : ((j * ntap : ℕ) : ℚ) / (1 / (1 - o)) = (j * ntap : ℚ) * (1 - o) := by push_cast; field_simp
    rw [e2] at e1
    have e3 := near_fl _ _ _ (by positivity) (by norm_num) (by norm_num) e1
    exact key _ _ (by positivity) hj (e3.trans (le_of_eq (by ring)))
  · have hx : (0 : ℚ) ≤ n := Nat.cast_nonneg _
    have e1 : |overlapFactor (fl64 o) * n - 1 / (1 - o) * n| ≤ 1 / 2 ^ 40 * (1 / (1 - o) * n) := by
      rw [← sub_mul, abs_mul, abs_of_nonneg hx, ← mul_assoc]
      exact mul_le_mul_of_nonneg_right hof hx
    have e2 := near_fl _ _ _ (by positivity) (by norm_num) (by norm_num) e1
    have e3 : |fl64 (overlapFactor (fl64 o) * n) / ntap - (n : ℚ) / (ntap * (1 - o))| ≤
        2 * (1 / 2 ^ 40) * ((n : ℚ) / (ntap * (1 - o))) := by
      have : (n : ℚ) / (ntap * (1 - o)) = 1 / (1 - o) * n / ntap := by field_simp
      rw [this, ← sub_div, abs_div, abs_of_pos hntq, ← mul_div_assoc, div_le_div_iff_of_pos_right hntq]
      exact e2
    have e4 := near_fl _ _ _ (by positivity) (by norm_num) (by norm_num) e3
    exact key _ _ (by positivity) hn (e4.trans (le_of_eq (by ring)))

/-- **C191**, length of the tapers: if `T` seconds are `N` samples, the tapers have `N` points, whatever the sampling rate. -/
theorem C191_taper (T sr : ℚ) (hsr : 0 < sr) (N : ℕ) (hN : N < 2 ^ 48) (hT : T * sr = N) : taperPoints T sr = N := by
  unfold taperPoints
  have hT0 : 0 ≤ T := by
    by_contra h
    have : T * sr < 0 := mul_neg_of_neg_of_pos (by linarith) hsr
    rw [hT] at this
    have := Nat.cast_nonneg (α := ℚ) N
    linarith
  have e1 : |fl64 (1 / sr) - 1 / sr| ≤ 1 / 2 ^ 52 * (1 / sr) := by
    have := fl64_rel (1 / sr)
    rw [abs_of_nonneg (show (0 : ℚ) ≤ 1 / sr by positivity)] at this
    refine this.trans ?_
    rw [div_eq_mul_one_div, mul_comm]
    exact mul_le_mul_of_nonneg_right (by norm_num) (by positivity)
  have e2 := near_div T (1 / sr) _ _ hT0 (by positivity) (by norm_num) e1
  have e3 : T / (1 / sr) = N := by rw [← hT]; field_simp
  rw [e3] at e2
  have e4 := near_fl _ _ _ (Nat.cast_nonneg N) (by norm_num) (by norm_num) e2
  have hNq : (N : ℚ) < 2 ^ 48 := by exact_mod_cast hN
  have e5 : |fl64 (T / fl64 (1 / sr)) - N| < 1 / 2 := by
    refine e4.trans_lt ?_
    linarith
  generalize fl64 (T / fl64 (1 / sr)) = y at e5
  rw [abs_lt] at e5
  unfold pyRound
  simp only
  by_cases hy : (N : ℚ) ≤ y
  · have hf : ⌊y⌋ = (N : ℤ) := by
      rw [Int.floor_eq_iff]; push_cast; constructor <;> linarith
    rw [hf]
    push_cast
    rw [if_pos (by linarith)]
  · have hf : ⌊y⌋ = (N : ℤ) - 1 := by
      rw [Int.floor_eq_iff]; push_cast; constructor <;> linarith
    rw [hf]
    push_cast
    rw [if_neg (by linarith), if_pos (by linarith)]
    ring

/-- C191 as stated is false: with the overlap 0.9 and tapers of 100 samples the second window starts at sample 9 instead
of 10, with the overlap 0.8 at sample 19 instead of 20. -/
theorem C191_counterexample :
    windowStart (fl64 (9 / 10)) 100 1 = 9 ∧ ⌊(1 * 100 : ℚ) * (1 - 9 / 10)⌋ = 10 ∧
    windowStart (fl64 (8 / 10)) 100 1 = 19 ∧ ⌊(1 * 100 : ℚ) * (1 - 8 / 10)⌋ = 20 := by
  decide +kernel

/-- Defaults, 100 Hz: tapers of 1000 samples, 16 windows for the source of 40 s, the second one starts at sample 250. -/
example : taperPoints 10 100 = 1000 ∧ windowCount (3 / 4) 4001 1000 = 16 ∧ windowStart (3 / 4) 1000 1 = 250 := by
  decide +kernel

end Verif.Props
