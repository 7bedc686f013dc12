import Verif.Model.DoubleOnset
import Verif.Props.DoubleSnap

/-!
# C221: onsets of mirrored and stacked records in double precision
-/

set_option linter.unusedSimpArgs false
set_option linter.unusedSectionVars false

namespace Verif.Props
open Verif.Py Verif.Model Verif.Model.DoubleSnap Verif.Model.DoubleOnset

/-- A whole number of microseconds as seconds in double precision is the same number in nanoseconds again. -/
theorem micro_back (m : ℤ) (hm : |(m : ℚ)| ≤ 2 ^ 40) :
    roundEven (fl64 (fl64 ((m : ℚ) / 10 ^ 6) * 10 ^ 9)) = 1000 * m := by
  apply roundEven_near
  set x := fl64 ((m : ℚ) / 10 ^ 6) with hx
  have e1 := fl64_rel ((m : ℚ) / 10 ^ 6)
  rw [← hx] at e1
  have e2 := fl64_rel (x * 10 ^ 9)
  have p9 : |(10 : ℚ) ^ 9| = 10 ^ 9 := abs_of_pos (by norm_num)
  have p6 : |(10 : ℚ) ^ 6| = 10 ^ 6 := abs_of_pos (by norm_num)
  rw [abs_div, p6] at e1
  have a1 : |x * 10 ^ 9 - 1000 * m| ≤ 1000 * |(m : ℚ)| / 2 ^ 53 := by
    have e : x * 10 ^ 9 - 1000 * m = (x - m / 10 ^ 6) * 10 ^ 9 := by ring
    rw [e, abs_mul, p9]
    refine (mul_le_mul_of_nonneg_right e1 (by norm_num)).trans (le_of_eq ?_)
    ring
  have a2 : |x * 10 ^ 9| ≤ 1000 * |(m : ℚ)| + 1000 * |(m : ℚ)| / 2 ^ 53 := by
    have e : x * 10 ^ 9 = (x * 10 ^ 9 - 1000 * m) + 1000 * m := by ring
    rw [e]
    refine (abs_add_le _ _).trans ?_
    have e' : |1000 * (m : ℚ)| = 1000 * |(m : ℚ)| := by rw [abs_mul]; norm_num
    rw [e']
    linarith
  push_cast
  have e : fl64 (x * 10 ^ 9) - 1000 * m = (fl64 (x * 10 ^ 9) - x * 10 ^ 9) + (x * 10 ^ 9 - 1000 * m) := by ring
  rw [e]
  refine lt_of_le_of_lt ((abs_add_le _ _).trans (add_le_add e2 a1)) ?_
  have a3 : |x * 10 ^ 9| / 2 ^ 53 ≤ (1000 * |(m : ℚ)| + 1000 * |(m : ℚ)| / 2 ^ 53) / 2 ^ 53 := by gcongr
  have hm0 := abs_nonneg (m : ℚ)
  norm_num at a3 hm ⊢
  linarith

/-- Rounding a difference of times to microseconds. -/
theorem round6_err (d : ℚ) (hd : |d| ≤ 2 ^ 19) :
    |(roundEven (fl64 d * 10 ^ 6) : ℚ) / 10 ^ 6 - d| ≤ 501 / 10 ^ 9 ∧ |(roundEven (fl64 d * 10 ^ 6) : ℚ)| ≤ 2 ^ 40 := by
  set m := roundEven (fl64 d * 10 ^ 6) with hm
  have e1 := fl64_rel d
  have e2 := roundEven_err (fl64 d * 10 ^ 6)
  rw [← hm] at e2
  have p6 : |(10 : ℚ) ^ 6| = 10 ^ 6 := abs_of_pos (by norm_num)
  have a1 : |(m : ℚ) - d * 10 ^ 6| ≤ 501 / 1000 := by
    have e : (m : ℚ) - d * 10 ^ 6 = ((m : ℚ) - fl64 d * 10 ^ 6) + (fl64 d - d) * 10 ^ 6 := by ring
    rw [e]
    refine (abs_add_le _ _).trans ?_
    rw [abs_mul (fl64 d - d), p6]
    have : |fl64 d - d| * 10 ^ 6 ≤ |d| / 2 ^ 53 * 10 ^ 6 := mul_le_mul_of_nonneg_right e1 (by norm_num)
    norm_num at this hd e2 ⊢
    linarith
  constructor
  · have e : (m : ℚ) / 10 ^ 6 - d = ((m : ℚ) - d * 10 ^ 6) / 10 ^ 6 := by ring
    rw [e, abs_div, p6, div_le_iff₀ (by norm_num)]
    refine a1.trans (le_of_eq (by norm_num))
  · have e : (m : ℚ) = ((m : ℚ) - d * 10 ^ 6) + d * 10 ^ 6 := by ring
    rw [e]
    refine (abs_add_le _ _).trans ?_
    rw [abs_mul d, p6]
    norm_num at a1 hd ⊢
    linarith

/-- Adding the rounded difference of two times. -/
theorem addSeconds_between (start a b : ℚ) (hd : |a - b| ≤ 2 ^ 19) :
    addSeconds start (secondsBetween6 a b) = start + (roundEven (fl64 (a - b) * 10 ^ 6) : ℚ) / 10 ^ 6 := by
  unfold addSeconds secondsBetween6
  rw [micro_back _ (round6_err _ hd).2]
  push_cast
  ring

/-- A difference of whole microseconds is not changed. -/
theorem round6_exact (d : ℚ) (hd : |d| ≤ 2 ^ 19) (m : ℤ) (h : d = m / 10 ^ 6) :
    (roundEven (fl64 d * 10 ^ 6) : ℚ) / 10 ^ 6 = d := by
  have e1 := fl64_rel d
  have : roundEven (fl64 d * 10 ^ 6) = m := by
    apply roundEven_near
    have e : fl64 d * 10 ^ 6 - m = (fl64 d - d) * 10 ^ 6 := by rw [h]; ring
    rw [e, abs_mul, abs_of_pos (show (0 : ℚ) < 10 ^ 6 by norm_num)]
    have : |fl64 d - d| * 10 ^ 6 ≤ |d| / 2 ^ 53 * 10 ^ 6 := mul_le_mul_of_nonneg_right e1 (by norm_num)
    norm_num at this hd ⊢
    linarith
  rw [this, h]

/-- The end time differs from the time of the last sample by less than a nanosecond. -/
theorem endTime64_err (start sr : ℚ) (hsr : 0 < sr) (npts : ℕ) (hn : 0 < npts)
    (hd : ((npts - 1 : ℕ) : ℚ) / sr ≤ 2 ^ 19) :
    |endTime64 start sr npts - (start + ((npts - 1 : ℕ) : ℚ) / sr)| ≤ 1 / 10 ^ 9 := by
  unfold endTime64 addSeconds
  rw [if_neg hn.ne']
  set k : ℚ := ((npts - 1 : ℕ) : ℚ) with hk
  have hk0 : 0 ≤ k := Nat.cast_nonneg _
  set d := fl64 (1 / sr) with hd'
  set y := fl64 (k * d) with hy
  set z := fl64 (y * 10 ^ 9) with hz
  have e1 := fl64_rel (1 / sr)
  rw [← hd', abs_of_nonneg (show (0 : ℚ) ≤ 1 / sr by positivity)] at e1
  have e2 := fl64_rel (k * d)
  rw [← hy] at e2
  have e3 := fl64_rel (y * 10 ^ 9)
  rw [← hz] at e3
  have e4 := roundEven_err z
  set T := k / sr with hT
  have hT0 : 0 ≤ T := by positivity
  have p9 : |(10 : ℚ) ^ 9| = 10 ^ 9 := abs_of_pos (by norm_num)
  have a1 : |k * d - T| ≤ T / 2 ^ 53 := by
    have e : k * d - T = k * (d - 1 / sr) := by rw [hT]; ring
    rw [e, abs_mul, abs_of_nonneg hk0]
    refine (mul_le_mul_of_nonneg_left e1 hk0).trans (le_of_eq ?_)
    rw [hT]; ring
  have b1 := abs_le.1 a1
  have c1 : |k * d| ≤ T + T / 2 ^ 53 := by
    rw [abs_le]
    constructor
    · norm_num at b1 ⊢; linarith
    · linarith
  have a2 : |y - T| ≤ (T + T / 2 ^ 53) / 2 ^ 53 + T / 2 ^ 53 := by
    have e : y - T = (y - k * d) + (k * d - T) := by ring
    rw [e]
    refine (abs_add_le _ _).trans (add_le_add (e2.trans ?_) a1)
    gcongr
  have b2 := abs_le.1 a2
  have c2 : |y * 10 ^ 9| ≤ (T + (T + T / 2 ^ 53) / 2 ^ 53 + T / 2 ^ 53) * 10 ^ 9 := by
    rw [abs_mul, p9]
    apply mul_le_mul_of_nonneg_right _ (by norm_num)
    rw [abs_le]
    constructor
    · norm_num at b2 ⊢; linarith
    · linarith
  have a3 : |z - y * 10 ^ 9| ≤ (T + (T + T / 2 ^ 53) / 2 ^ 53 + T / 2 ^ 53) * 10 ^ 9 / 2 ^ 53 := by
    refine e3.trans ?_
    gcongr
  have b3 := abs_le.1 a3
  have b4 := abs_le.1 e4
  rw [abs_le]
  norm_num at b2 b3 b4 hd ⊢
  constructor <;> linarith

/-- The mirrored onset (method 'S') lies on a whole microsecond after the start of the record and differs from the exact
mirrored time by at most 0.501 microseconds. -/
theorem C221_mirror (start sr : ℚ) (npts : ℕ) (onset : ℚ) (hd : |endTime64 start sr npts - onset| ≤ 2 ^ 19) :
    (∃ m : ℤ, mirrorOnset64 start sr npts onset = start + m / 10 ^ 6) ∧
      |mirrorOnset64 start sr npts onset - (start + (endTime64 start sr npts - onset))| ≤ 501 / 10 ^ 9 := by
  unfold mirrorOnset64
  rw [addSeconds_between _ _ _ hd]
  refine ⟨⟨_, rfl⟩, ?_⟩
  have := (round6_err _ hd).1
  rwa [show ∀ a b c : ℚ, a + b - (a + c) = b - c by intros; ring]

/-- The mirrored onset is exact, and mirroring twice restores the onset, if the time between the onset and the end of the
record and the length of the record are whole microseconds. -/
theorem C221_exact (start sr : ℚ) (npts : ℕ) (onset : ℚ) (hd : |endTime64 start sr npts - onset| ≤ 2 ^ 19) (m : ℤ)
    (hm : endTime64 start sr npts - onset = m / 10 ^ 6) :
    mirrorOnset64 start sr npts onset = start + (endTime64 start sr npts - onset) ∧
      ∀ l : ℤ, endTime64 start sr npts - start = l / 10 ^ 6 → |onset - start| ≤ 2 ^ 19 →
        mirrorOnset64 start sr npts (mirrorOnset64 start sr npts onset) = onset := by
  have h1 : mirrorOnset64 start sr npts onset = start + (endTime64 start sr npts - onset) := by
    unfold mirrorOnset64
    rw [addSeconds_between _ _ _ hd, round6_exact _ hd m hm]
  refine ⟨h1, fun l hl ho => ?_⟩
  rw [h1]
  unfold mirrorOnset64
  have e : endTime64 start sr npts - (start + (endTime64 start sr npts - onset)) = onset - start := by ring
  rw [addSeconds_between _ _ _ (by rw [e]; exact ho), e, round6_exact _ ho (l - m) (by push_cast; linarith)]
  ring

/-- The mirrored onset of a record whose onset lies within `ε` of sample `k` lies within `ε` and 0.502 microseconds of
sample `npts - 1 - k`, to which the reversed data move the former sample `k`. -/
theorem C221_sample (start sr : ℚ) (hsr : 0 < sr) (npts k : ℕ) (hk : k < npts) (onset ε : ℚ)
    (ho : |onset - (start + (k : ℚ) / sr)| ≤ ε) (hε : ε ≤ 1) (hn : ((npts - 1 : ℕ) : ℚ) / sr ≤ 2 ^ 18) :
    |mirrorOnset64 start sr npts onset - (start + ((npts - 1 - k : ℕ) : ℚ) / sr)| ≤ ε + 502 / 10 ^ 9 := by
  have h1 := endTime64_err start sr hsr npts (by omega) (hn.trans (by norm_num))
  have e : ((npts - 1 - k : ℕ) : ℚ) / sr = ((npts - 1 : ℕ) : ℚ) / sr - (k : ℚ) / sr := by
    rw [Nat.cast_sub (by omega)]; ring
  have h0 : (0 : ℚ) ≤ ((npts - 1 - k : ℕ) : ℚ) / sr := by positivity
  have hk0 : (0 : ℚ) ≤ (k : ℚ) / sr := by positivity
  rw [e] at h0
  have b1 := abs_le.1 h1
  have b2 := abs_le.1 ho
  have hd : |endTime64 start sr npts - onset| ≤ 2 ^ 19 := by
    rw [abs_le]
    norm_num at b1 hn ⊢
    constructor <;> linarith
  have b3 := abs_le.1 (C221_mirror start sr npts onset hd).2
  rw [e, abs_le]
  norm_num at b1 b3 ⊢
  constructor <;> linarith

/-- The onset of a stack has the same distance from the start as the onset of the record, rounded to microseconds. -/
theorem C221_stack (start onset start2 : ℚ) (hd : |onset - start| ≤ 2 ^ 19) :
    |stackOnset64 start onset start2 - start2 - (onset - start)| ≤ 501 / 10 ^ 9 ∧
      ∀ m : ℤ, onset - start = m / 10 ^ 6 → stackOnset64 start onset start2 - start2 = onset - start := by
  unfold stackOnset64
  rw [addSeconds_between _ _ _ hd]
  refine ⟨?_, fun m hm => ?_⟩
  · have := (round6_err _ hd).1
    rwa [show ∀ a b c : ℚ, a + b - a - c = b - c by intros; ring]
  · rw [round6_exact _ hd m hm]; ring

/-- Onsets which are not on whole microseconds change: two samples at 30 Hz end 33333333 ns after the start, the onset at
the end is mirrored to the start, and mirrored again to 33333000 ns after the start. -/
theorem C221_moved : mirrorOnset64 100 30 2 (100 + 33333333 / 10 ^ 9) = 100 ∧
    mirrorOnset64 100 30 2 100 = 100 + 33333 / 10 ^ 6 := by
  constructor <;> decide +kernel

-- 601 samples at 10 Hz, onset after 25 s: mirrored to 35 s after the start
example : endTime64 1000 10 601 = 1060 ∧ mirrorOnset64 1000 10 601 1025 = 1035 ∧
    mirrorOnset64 1000 10 601 1035 = 1025 ∧ stackOnset64 1000 1025 0 = 25 := by
  decide +kernel

-- the hypotheses of `C221_exact` and `C221_sample`
example : |endTime64 1000 10 601 - 1025| ≤ 2 ^ 19 ∧ endTime64 1000 10 601 - 1025 = (35000000 : ℤ) / 10 ^ 6 ∧
    |(1025 : ℚ) - (1000 + (250 : ℕ) / 10)| ≤ 0 ∧ ((601 - 1 : ℕ) : ℚ) / 10 ≤ 2 ^ 18 := by
  decide +kernel

-- empty data end at their start
example : endTime64 1000 10 0 = 1000 := by decide +kernel

end Verif.Props
