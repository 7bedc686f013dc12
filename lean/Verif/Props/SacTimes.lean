import Verif.Model.SacTimes
import Verif.Props.DoubleSnap

/-!
# C199: onsets in SAC files
-/

set_option linter.unusedSimpArgs false
set_option linter.unusedSectionVars false

namespace Verif.Props
open Verif.Py Verif.Model Verif.Model.DoubleIndex Verif.Model.DoubleSnap Verif.Model.SacTimes

/-- The product is rounded to single precision or better. -/
def RoundsSingle (rnd : ℚ → ℚ) : Prop := ∀ x, |rnd x - x| ≤ |x| / 2 ^ 24

theorem roundsSingle_fl32 : RoundsSingle fl32 := fl32_rel

theorem roundsSingle_fl64 : RoundsSingle fl64 := fun x => by
  refine (fl64_rel x).trans ?_
  have h := abs_nonneg x
  apply div_le_div_of_nonneg_left h (by norm_num) (by norm_num)

theorem fromSac_eq (rnd : ℚ → ℚ) (reftime value : ℚ) :
    fromSac rnd reftime value = reftime + (roundEven (rnd (value * 10 ^ 9)) : ℚ) / 10 ^ 9 := by
  unfold fromSac
  norm_num

/-- **C199** A time read back from a SAC header differs by at most a part in four millions of its distance to the
reference time, and half a nanosecond. -/
theorem C199_time (rnd : ℚ → ℚ) (hr : RoundsSingle rnd) (reftime time : ℚ) :
    |sacTime rnd reftime time - time| ≤ |time - reftime| / 2 ^ 22 + 1 / (2 * 10 ^ 9) := by
  unfold sacTime
  rw [fromSac_eq]
  unfold toSac secondsBetween
  set d := time - reftime with hd
  set a := fl64 d with ha
  set b := fl32 a with hb
  set p := rnd (b * 10 ^ 9) with hp
  have h1 : |a - d| ≤ |d| / 2 ^ 53 := fl64_rel d
  have h2 : |b - a| ≤ |a| / 2 ^ 24 := fl32_rel a
  have h3 : |p - b * 10 ^ 9| ≤ |b * 10 ^ 9| / 2 ^ 24 := hr _
  have h4 := roundEven_err p
  have e9 : |b * 10 ^ 9| = |b| * 10 ^ 9 := by rw [abs_mul, abs_of_pos (by norm_num : (0 : ℚ) < 10 ^ 9)]
  rw [e9] at h3
  have a1 : |a| ≤ |d| + |d| / 2 ^ 53 := by
    have := abs_sub_abs_le_abs_sub a d
    linarith
  have a2 : |b| ≤ |a| + |a| / 2 ^ 24 := by
    have := abs_sub_abs_le_abs_sub b a
    linarith
  have e : reftime + (roundEven p : ℚ) / 10 ^ 9 - time
      = ((roundEven p : ℚ) - p) / 10 ^ 9 + ((p - b * 10 ^ 9) / 10 ^ 9 + ((b - a) + (a - d))) := by
    rw [hd]; ring
  rw [e]
  have t1 : |((roundEven p : ℚ) - p) / 10 ^ 9| ≤ 1 / (2 * 10 ^ 9) := by
    rw [abs_div, abs_of_pos (by norm_num : (0 : ℚ) < 10 ^ 9), div_le_div_iff₀ (by norm_num) (by norm_num)]
    linarith
  have t2 : |(p - b * 10 ^ 9) / 10 ^ 9| ≤ |b| / 2 ^ 24 := by
    rw [abs_div, abs_of_pos (by norm_num : (0 : ℚ) < 10 ^ 9), div_le_div_iff₀ (by norm_num) (by norm_num)]
    rw [le_div_iff₀ (by norm_num)] at h3
    linarith
  have hd0 := abs_nonneg d
  calc _ ≤ 1 / (2 * 10 ^ 9) + (|b| / 2 ^ 24 + (|a| / 2 ^ 24 + |d| / 2 ^ 53)) :=
        (abs_add_le _ _).trans (add_le_add t1 ((abs_add_le _ _).trans (add_le_add t2
          ((abs_add_le _ _).trans (add_le_add h2 h1)))))
    _ ≤ |d| / 2 ^ 22 + 1 / (2 * 10 ^ 9) := by linarith

/-- **C199** The sample at which the onset is: the nearest sample to the onset read back is that of the onset, for
records of a million samples and sampling rates up to 100 MHz. -/
theorem C199_sample (rnd : ℚ → ℚ) (hr : RoundsSingle rnd) (t : Trace ℚ) (hsr : 0 < t.sr) (hsr' : t.sr ≤ 10 ^ 8)
    (reftime : ℚ) (k : ℕ) (hlen : |t.start + k * t.delta - reftime| * t.sr ≤ 2 ^ 20) :
    |(sacTime rnd reftime (t.start + k * t.delta) - t.start) * t.sr - k| ≤ 3 / 10 ∧
    roundEven ((sacTime rnd reftime (t.start + k * t.delta) - t.start) * t.sr) = k := by
  have h := C199_time rnd hr reftime (t.start + k * t.delta)
  set y := sacTime rnd reftime (t.start + k * t.delta) with hy
  set D := |t.start + k * t.delta - reftime| with hD
  have e : (y - t.start) * t.sr - k = (y - (t.start + k * t.delta)) * t.sr := by
    unfold Trace.delta
    field_simp
    ring
  have h1 : |(y - t.start) * t.sr - k| ≤ 3 / 10 := by
    rw [e, abs_mul, abs_of_pos hsr]
    have h2 := mul_le_mul_of_nonneg_right h hsr.le
    have e2 : (D / 2 ^ 22 + 1 / (2 * 10 ^ 9)) * t.sr = D * t.sr / 2 ^ 22 + t.sr / (2 * 10 ^ 9) := by ring
    rw [e2] at h2
    have h3 : D * t.sr / 2 ^ 22 ≤ 1 / 4 := by
      rw [div_le_iff₀ (by norm_num)]
      linarith
    have h4 : t.sr / (2 * 10 ^ 9) ≤ 1 / 20 := by
      rw [div_le_iff₀ (by norm_num)]
      linarith
    linarith
  refine ⟨h1, roundEven_near _ k ?_⟩
  have : |(y - t.start) * t.sr - ((k : ℤ) : ℚ)| ≤ 3 / 10 := by exact_mod_cast h1
  linarith

/-- **C199** Deconvolution of records which were stored in SAC files between: the source is cut at the same sample and the
onset is again exactly that of the records, although the onset read from the file is not. -/
theorem C199_deconvolve (rnd : ℚ → ℚ) (hr : RoundsSingle rnd) (t : Trace ℚ) (hsr : 0 < t.sr) (hsr' : t.sr ≤ 10 ^ 8)
    (hn : t.npts ≤ 2 ^ 40) (reftime : ℚ) (k : ℕ) (hk : k + 1 < t.npts)
    (hlen : |t.start + k * t.delta - reftime| * t.sr ≤ 2 ^ 20) :
    snapIndex t (sacTime rnd reftime (t.start + k * t.delta)) = snapIndex t (t.start + k * t.delta) ∧
    snapIndex t (sacTime rnd reftime (t.start + k * t.delta)) = .ok k ∧
    ∀ N : ℕ, (k : ℚ) / t.sr * 10 ^ 9 = N → N ≤ 2 ^ 50 →
      snapOnset t (sacTime rnd reftime (t.start + k * t.delta)) = .ok (t.start + k * t.delta) := by
  have h := (C199_sample rnd hr t hsr hsr' reftime k hlen).1
  have hx : |(sacTime rnd reftime (t.start + k * t.delta) - t.start) * t.sr - k| ≤ 1 / 2 - 1 / 2 ^ 10 := by linarith
  have h1 := (C197_index t hsr _ hn k (by omega) hx (.inl hk)).1
  have e0 : (t.start + k * t.delta - t.start) * t.sr = k := by
    unfold Trace.delta
    field_simp
    ring
  have h2 := (C197_index t hsr (t.start + k * t.delta) hn k (by omega) (by rw [e0, sub_self, abs_zero]; norm_num)
    (.inl hk)).1
  exact ⟨h1.trans h2.symm, h1, fun N hN hN' => C197_onset t hsr _ hn k (by omega) hx (.inl hk) N hN hN'⟩

/-- **C199** The onset itself is restored if its distance to the reference time has 24 bits and is a number of
nanoseconds below 2^53, with products in double precision. -/
theorem C199_exact (reftime time : ℚ) (m e N : ℤ) (hm : |m| < 2 ^ 24) (hd : time - reftime = m * 2 ^ e)
    (hN : (time - reftime) * 10 ^ 9 = N) (hN' : |N| < 2 ^ 53) : sacTime fl64 reftime time = time := by
  unfold sacTime
  rw [fromSac_eq]
  unfold toSac secondsBetween
  have hm' : |m| < 2 ^ 53 := hm.trans (by norm_num)
  have h1 : fl64 (time - reftime) = time - reftime := by rw [hd, fl64_exact m e hm']
  have h2 : fl32 (time - reftime) = time - reftime := by rw [hd, fl32_exact m e hm]
  rw [h1, h2, hN, fl64_int N hN', roundEven_int, ← hN]
  ring

/-- An onset 25 seconds after the first sample, 20 samples per second, reference time at the first sample: restored. -/
example : sacTime fl64 7 (7 + 25) = 7 + 25 :=
  C199_exact 7 (7 + 25) 25 0 25000000000 (by norm_num) (by norm_num) (by norm_num) (by norm_num)

/-- An onset a tenth of a second after the reference time is read a nanosecond late with products in double precision,
although the sample is found. -/
example : sacTime fl64 0 (1 / 10) = 100000001 / 1000000000 ∧ sacTime fl32 0 (1 / 10) = 1 / 10 ∧
    snapIndex ⟨[], [], [], [], 0, 10, [1, 2, 3, 4], []⟩ (sacTime fl64 0 (1 / 10)) = .ok 1 := by
  decide +kernel

end Verif.Props
