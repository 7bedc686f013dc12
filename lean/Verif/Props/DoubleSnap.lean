import Verif.Model.DoubleSnap
import Verif.Props.Deconvolve
import Verif.Props.DoubleIndex

/-!
# C197: onset and shift of `deconvolve` in double precision
-/

set_option linter.unusedSimpArgs false
set_option linter.unusedSectionVars false

namespace Verif.Props
open Verif.Py Verif.Spec Verif.Model Verif.Model.DoubleIndex Verif.Model.DoubleSnap

/-- Rounding gives the whole number which is nearer than one half. -/
theorem roundEven_near (y : ℚ) (n : ℤ) (h : |y - n| < 1 / 2) : roundEven y = n := by
  have h1 := roundEven_err y
  have h2 : |((roundEven y - n : ℤ) : ℚ)| < 1 := by
    push_cast
    calc |(roundEven y : ℚ) - n| = |((roundEven y : ℚ) - y) + (y - n)| := by ring_nf
      _ ≤ |(roundEven y : ℚ) - y| + |y - n| := abs_add_le _ _
      _ < 1 := by linarith
  have h3 : |roundEven y - n| < 1 := by exact_mod_cast h2
  have := Int.abs_lt_one_iff.1 h3
  omega

/-- On an axis whose samples are nearly equidistant, `__find_nearest` returns the sample which is nearer than one half of
the interval. -/
theorem findNearest_near (a : List ℚ) (v sr ε : ℚ) (hsr : 0 < sr) (k : ℕ) (hk : k < a.length)
    (ha : ∀ j (hj : j < a.length), |a[j] * sr - j| ≤ ε) (hv : |v * sr - k| + ε < 1 / 2)
    (hin : v ≤ a[k] ∨ k + 1 < a.length) : findNearest a v = .ok k := by
  have hε : ε < 1 / 2 := by linarith [abs_nonneg (v * sr - k)]
  have hstep : ∀ i j (hi : i < a.length) (hj : j < a.length), i < j → a[i] < a[j] := by
    intro i j hi hj hij
    have h1 := abs_le.1 (ha i hi)
    have h2 := abs_le.1 (ha j hj)
    have h3 : (i : ℚ) + 1 ≤ j := by exact_mod_cast hij
    have : a[i] * sr < a[j] * sr := by linarith
    exact lt_of_mul_lt_mul_right this hsr.le
  have hs : a.Pairwise (· ≤ ·) := List.pairwise_iff_getElem.2 fun i j hi hj hij => (hstep i j hi hj hij).le
  have hex : ∃ x ∈ a, v ≤ x := by
    rcases hin with h | h
    · exact ⟨_, List.getElem_mem hk, h⟩
    · refine ⟨_, List.getElem_mem h, ?_⟩
      have h1 := abs_le.1 (ha (k + 1) h)
      have h2 := abs_le.1 (le_of_lt (show |v * sr - k| < 1 / 2 - ε by linarith))
      have : v * sr ≤ a[k + 1] * sr := by push_cast at h1; linarith
      exact le_of_mul_le_mul_right this hsr
  obtain ⟨i, hi, x, hx, hmin⟩ := findNearest_ok a v hs hex
  obtain ⟨hil, rfl⟩ := List.getElem?_eq_some_iff.1 hx
  rw [hi]
  by_contra hne
  have hne : i ≠ k := fun h => hne (by rw [h])
  have h1 := hmin _ (List.getElem_mem hk)
  have h2 : |v - a[i]| * sr ≤ |v - a[k]| * sr := mul_le_mul_of_nonneg_right h1 hsr.le
  rw [← abs_of_pos hsr, ← abs_mul, ← abs_mul, sub_mul, sub_mul] at h2
  have h3 : |v * sr - a[k] * sr| ≤ |v * sr - k| + ε := by
    calc |v * sr - a[k] * sr| = |(v * sr - k) - (a[k] * sr - k)| := by ring_nf
      _ ≤ |v * sr - k| + |a[k] * sr - k| := abs_sub _ _
      _ ≤ _ := by linarith [ha k hk]
  have h4 : 1 ≤ |(i : ℚ) - k| := by
    have : (1 : ℤ) ≤ |(i : ℤ) - k| := Int.one_le_abs (by omega)
    exact_mod_cast this
  have h5 : |(i : ℚ) - k| ≤ |v * sr - a[i] * sr| + (|v * sr - k| + ε) := by
    calc |(i : ℚ) - k| = |(v * sr - k) - ((v * sr - a[i] * sr) + (a[i] * sr - i))| := by ring_nf
      _ ≤ |v * sr - k| + |(v * sr - a[i] * sr) + (a[i] * sr - i)| := abs_sub _ _
      _ ≤ |v * sr - k| + (|v * sr - a[i] * sr| + |a[i] * sr - i|) := by linarith [abs_add_le (v * sr - a[i] * sr) (a[i] * sr - i)]
      _ ≤ _ := by linarith [ha i hil]
  linarith

theorem times64_length (t : Trace ℚ) : (times64 t).length = t.npts := by
  unfold times64
  rw [List.length_map, List.length_range]

theorem times64_get (t : Trace ℚ) (j : ℕ) (hj : j < (times64 t).length) : (times64 t)[j] = fl64 ((j : ℚ) / t.sr) := by
  simp [times64]

theorem times64_err (t : Trace ℚ) (hsr : 0 < t.sr) (j : ℕ) (hj : j < (times64 t).length) :
    |(times64 t)[j] * t.sr - j| ≤ (t.npts : ℚ) / 2 ^ 53 := by
  rw [times64_get]
  have h := fl64_rel ((j : ℚ) / t.sr)
  have h0 : (0 : ℚ) ≤ (j : ℚ) / t.sr := by positivity
  rw [abs_of_nonneg h0] at h
  have e : fl64 ((j : ℚ) / t.sr) * t.sr - j = (fl64 ((j : ℚ) / t.sr) - (j : ℚ) / t.sr) * t.sr := by
    rw [sub_mul, div_mul_cancel₀ _ hsr.ne']
  rw [e, abs_mul, abs_of_pos hsr]
  have h1 := mul_le_mul_of_nonneg_right h hsr.le
  have e2 : (j : ℚ) / t.sr / 2 ^ 53 * t.sr = (j : ℚ) / 2 ^ 53 := by field_simp
  rw [e2] at h1
  have h2 : (j : ℚ) ≤ t.npts := by
    rw [times64_length] at hj
    exact_mod_cast hj.le
  refine h1.trans ?_
  exact div_le_div_of_nonneg_right h2 (by norm_num)

theorem times_err (t : Trace ℚ) (hsr : 0 < t.sr) (j : ℕ) (hj : j < (times t).length) : |(times t)[j] * t.sr - j| ≤ 0 := by
  have e : (times t)[j] = (j : ℚ) * t.delta := by simp [times]
  rw [e]
  unfold Trace.delta
  rw [mul_assoc, one_div, inv_mul_cancel₀ hsr.ne', mul_one, sub_self, abs_zero]

/-- **C197** The index of the sample to which the onset is shifted is the same in double precision and in exact
arithmetic, if the onset is not about halfway between two samples: at most `1/2 - 2^-10` samples from sample `k`, which
is not the last one or at or after the onset. -/
theorem C197_index (t : Trace ℚ) (hsr : 0 < t.sr) (onset : ℚ) (hn : t.npts ≤ 2 ^ 40) (k : ℕ) (hk : k < t.npts)
    (hx : |(onset - t.start) * t.sr - k| ≤ 1 / 2 - 1 / 2 ^ 10) (hlast : k + 1 < t.npts ∨ (onset - t.start) * t.sr = k) :
    snapIndex t onset = .ok k ∧ findNearest (times t) (onset - t.start) = .ok k := by
  have hlen : (times t).length = t.npts := by simp [times]
  set x := (onset - t.start) * t.sr with hxdef
  have ex : onset - t.start = x / t.sr := by rw [hxdef, mul_div_cancel_right₀ _ hsr.ne']
  have hn' : (t.npts : ℚ) ≤ 2 ^ 40 := by exact_mod_cast hn
  have hkn : (k : ℚ) ≤ t.npts := by exact_mod_cast hk.le
  have hkn0 : (0 : ℚ) ≤ k := Nat.cast_nonneg k
  constructor
  · unfold snapIndex secondsBetween
    have hv : |fl64 (onset - t.start) * t.sr - k| ≤ |x - k| + |x| / 2 ^ 53 := by
      have h := fl64_rel (onset - t.start)
      have e : fl64 (onset - t.start) * t.sr - k = (x - k) + (fl64 (onset - t.start) - (onset - t.start)) * t.sr := by
        rw [hxdef]; ring
      rw [e]
      refine (abs_add_le _ _).trans ?_
      rw [abs_mul, abs_of_pos hsr]
      have h1 := mul_le_mul_of_nonneg_right h hsr.le
      have e2 : |onset - t.start| / 2 ^ 53 * t.sr = |x| / 2 ^ 53 := by
        rw [hxdef, abs_mul, abs_of_pos hsr]; ring
      rw [e2] at h1
      linarith
    have hxa : |x| ≤ 2 ^ 41 := by
      have : |x| ≤ |x - k| + |(k : ℚ)| := by
        calc |x| = |(x - k) + k| := by ring_nf
          _ ≤ _ := abs_add_le _ _
      rw [abs_of_nonneg hkn0] at this
      have h2 : (2 : ℚ) ^ 41 = 2 ^ 40 + 2 ^ 40 := by norm_num
      have h3 : (1 : ℚ) / 2 - 1 / 2 ^ 10 ≤ 2 ^ 40 := by norm_num
      linarith
    refine findNearest_near _ _ t.sr (t.npts / 2 ^ 53) hsr k (by rw [times64_length]; exact hk)
      (fun j hj => times64_err t hsr j hj) ?_ ?_
    · have h1 : |x| / 2 ^ 53 ≤ 1 / 2 ^ 12 := by
        rw [div_le_iff₀ (by norm_num)]
        refine hxa.trans (by norm_num)
      have h2 : (t.npts : ℚ) / 2 ^ 53 ≤ 1 / 2 ^ 13 := by
        rw [div_le_iff₀ (by norm_num)]
        refine hn'.trans (by norm_num)
      have h3 : (1 : ℚ) / 2 ^ 12 + 1 / 2 ^ 13 < 1 / 2 ^ 10 := by norm_num
      linarith
    · rcases hlast with h | h
      · right
        rw [times64_length]; exact h
      · left
        rw [times64_get, ex, h]
  · refine findNearest_near _ _ t.sr 0 hsr k (by rw [hlen]; exact hk) (fun j hj => times_err t hsr j hj) ?_ ?_
    · rw [← hxdef, add_zero]
      refine lt_of_le_of_lt hx (by norm_num)
    · rcases hlast with h | h
      · right
        rw [hlen]; exact h
      · left
        have e : (times t)[k]'(by rw [hlen]; exact hk) = (k : ℚ) * t.delta := by simp [times]
        rw [e, ex, h]
        unfold Trace.delta
        rw [mul_one_div]

/-- **C197** The time of sample `k` comes out exactly, if it is a whole number of nanoseconds (less than 13 days after the
start): the onset is then exactly on a sample in double precision as well. -/
theorem C197_onset (t : Trace ℚ) (hsr : 0 < t.sr) (onset : ℚ) (hn : t.npts ≤ 2 ^ 40) (k : ℕ) (hk : k < t.npts)
    (hx : |(onset - t.start) * t.sr - k| ≤ 1 / 2 - 1 / 2 ^ 10) (hlast : k + 1 < t.npts ∨ (onset - t.start) * t.sr = k)
    (N : ℕ) (hN : (k : ℚ) / t.sr * 10 ^ 9 = N) (hN' : N ≤ 2 ^ 50) :
    snapOnset t onset = .ok (t.start + k * t.delta) := by
  unfold snapOnset
  rw [(C197_index t hsr onset hn k hk hx hlast).1]
  show Except.ok _ = Except.ok _
  congr 1
  unfold addSeconds
  have hNq : (N : ℚ) ≤ 2 ^ 50 := by exact_mod_cast hN'
  have hN0 : (0 : ℚ) ≤ N := Nat.cast_nonneg N
  set d := fl64 (1 / t.sr) with hd
  set y := fl64 ((k : ℚ) * d) with hy
  have e1 := fl64_rel (1 / t.sr)
  have e2 := fl64_rel ((k : ℚ) * d)
  have e3 := fl64_rel (y * 10 ^ 9)
  have hp : (0 : ℚ) ≤ 1 / t.sr := by positivity
  have hk0 : (0 : ℚ) ≤ k := Nat.cast_nonneg k
  rw [abs_of_nonneg hp] at e1
  have hkN : (k : ℚ) * (1 / t.sr) * 10 ^ 9 = N := by rw [mul_one_div]; exact hN
  set u : ℚ := 1 / 2 ^ 53 with hu
  have hu0 : 0 < u := by rw [hu]; norm_num
  have hu1 : u ≤ 1 / 2 ^ 53 := le_of_eq hu
  -- the three roundings
  have a1 : |(k : ℚ) * d * 10 ^ 9 - N| ≤ N * u := by
    have e : (k : ℚ) * d * 10 ^ 9 - N = (d - 1 / t.sr) * (k * 10 ^ 9) := by rw [← hkN]; ring
    rw [e, abs_mul, abs_of_nonneg (show (0 : ℚ) ≤ k * 10 ^ 9 by positivity)]
    refine (mul_le_mul_of_nonneg_right e1 (by positivity)).trans (le_of_eq ?_)
    rw [← hkN, hu]; ring
  have a2 : |y * 10 ^ 9 - (k : ℚ) * d * 10 ^ 9| ≤ |(k : ℚ) * d * 10 ^ 9| * u := by
    have e : y * 10 ^ 9 - (k : ℚ) * d * 10 ^ 9 = (y - k * d) * 10 ^ 9 := by ring
    rw [e, abs_mul, abs_mul ((k : ℚ) * d), abs_of_pos (show (0 : ℚ) < 10 ^ 9 by norm_num)]
    refine (mul_le_mul_of_nonneg_right e2 (by norm_num)).trans (le_of_eq ?_)
    rw [hu]; ring
  have a3 : |fl64 (y * 10 ^ 9) - y * 10 ^ 9| ≤ |y * 10 ^ 9| * u := by
    refine e3.trans (le_of_eq ?_)
    rw [hu]; ring
  have b1 : |(k : ℚ) * d * 10 ^ 9| ≤ N + N * u := by
    calc |(k : ℚ) * d * 10 ^ 9| = |((k : ℚ) * d * 10 ^ 9 - N) + N| := by ring_nf
      _ ≤ |(k : ℚ) * d * 10 ^ 9 - N| + |(N : ℚ)| := abs_add_le _ _
      _ ≤ _ := by rw [abs_of_nonneg hN0]; linarith
  have hNu : (N : ℚ) * u ≤ 1 / 8 := by
    rw [hu]
    calc (N : ℚ) * (1 / 2 ^ 53) ≤ 2 ^ 50 * (1 / 2 ^ 53) := by gcongr
      _ = 1 / 8 := by norm_num
  have hus : u ≤ 1 / 100 := by rw [hu]; norm_num
  have b2 : |(k : ℚ) * d * 10 ^ 9| * u ≤ 1 / 8 + 1 / 800 := by
    calc |(k : ℚ) * d * 10 ^ 9| * u ≤ (N + N * u) * u := by gcongr
      _ = N * u + N * u * u := by ring
      _ ≤ 1 / 8 + 1 / 8 * (1 / 100) := by gcongr
      _ = _ := by norm_num
  have b3 : |y * 10 ^ 9| ≤ (N : ℚ) + 1 := by
    calc |y * 10 ^ 9| = |(y * 10 ^ 9 - (k : ℚ) * d * 10 ^ 9) + ((k : ℚ) * d * 10 ^ 9 - N) + N| := by ring_nf
      _ ≤ |(y * 10 ^ 9 - (k : ℚ) * d * 10 ^ 9) + ((k : ℚ) * d * 10 ^ 9 - N)| + |(N : ℚ)| := abs_add_le _ _
      _ ≤ (|y * 10 ^ 9 - (k : ℚ) * d * 10 ^ 9| + |(k : ℚ) * d * 10 ^ 9 - N|) + N := by
          rw [abs_of_nonneg hN0]
          linarith [abs_add_le (y * 10 ^ 9 - (k : ℚ) * d * 10 ^ 9) ((k : ℚ) * d * 10 ^ 9 - N)]
      _ ≤ (1 / 8 + 1 / 800 + 1 / 8) + N := add_le_add (add_le_add (a2.trans b2) (a1.trans hNu)) le_rfl
      _ ≤ _ := by linarith
  have b4 : |y * 10 ^ 9| * u ≤ 1 / 8 + 1 / 100 := by
    calc |y * 10 ^ 9| * u ≤ (N + 1) * u := by gcongr
      _ = N * u + u := by ring
      _ ≤ _ := by linarith
  have key : |fl64 (y * 10 ^ 9) - ((N : ℤ) : ℚ)| < 1 / 2 := by
    rw [Int.cast_natCast]
    calc |fl64 (y * 10 ^ 9) - (N : ℚ)|
        = |(fl64 (y * 10 ^ 9) - y * 10 ^ 9) + ((y * 10 ^ 9 - (k : ℚ) * d * 10 ^ 9) + ((k : ℚ) * d * 10 ^ 9 - N))| := by ring_nf
      _ ≤ |fl64 (y * 10 ^ 9) - y * 10 ^ 9| + |(y * 10 ^ 9 - (k : ℚ) * d * 10 ^ 9) + ((k : ℚ) * d * 10 ^ 9 - N)| := abs_add_le _ _
      _ ≤ |fl64 (y * 10 ^ 9) - y * 10 ^ 9| + (|y * 10 ^ 9 - (k : ℚ) * d * 10 ^ 9| + |(k : ℚ) * d * 10 ^ 9 - N|) := by
          linarith [abs_add_le (y * 10 ^ 9 - (k : ℚ) * d * 10 ^ 9) ((k : ℚ) * d * 10 ^ 9 - N)]
      _ < 1 / 2 := by
          have := a1.trans hNu
          have := a2.trans b2
          have := a3.trans b4
          have h7 : (1 : ℚ) / 8 + 1 / 100 + (1 / 8 + 1 / 800 + 1 / 8) < 1 / 2 := by norm_num
          linarith
  show t.start + (roundEven (fl64 (y * 10 ^ 9)) : ℚ) / 10 ^ 9 = _
  rw [roundEven_near _ _ key, Int.cast_natCast, ← hkN]
  unfold Trace.delta
  field_simp

/-- **C197** The shift of the time domain deconvolution is exact in double precision, if the window begins a whole number
`n` of samples from the onset: the decimal number `w` of seconds in the code of the user is not a double in general. -/
theorem C197_shift (w sr : ℚ) (n : ℤ) (hn : w * sr = n) (hn' : |n| ≤ 2 ^ 48) (len : ℕ) (hl : len ≤ 2 ^ 48) :
    timeShift (fl64 w) sr len = n - (len / 2 : ℕ) := by
  unfold timeShift
  set h : ℚ := ((len / 2 : ℕ) : ℚ) with hh
  have hh0 : 0 ≤ h := by rw [hh]; exact Nat.cast_nonneg _
  have hh1 : h ≤ 2 ^ 48 := by
    rw [hh]
    have : len / 2 ≤ 2 ^ 48 := (Nat.div_le_self _ _).trans hl
    exact_mod_cast this
  have hnq : |(n : ℚ)| ≤ 2 ^ 48 := by exact_mod_cast hn'
  have e1 := fl64_rel w
  have e2 := fl64_rel (fl64 w * sr)
  have a1 : |fl64 w * sr - n| ≤ 1 / 32 := by
    have e : fl64 w * sr - n = (fl64 w - w) * sr := by rw [← hn]; ring
    rw [e, abs_mul]
    calc |fl64 w - w| * |sr| ≤ |w| / 2 ^ 53 * |sr| := by gcongr
      _ = |(n : ℚ)| / 2 ^ 53 := by rw [← hn, abs_mul]; ring
      _ ≤ 2 ^ 48 / 2 ^ 53 := by gcongr
      _ = 1 / 32 := by norm_num
  have b1 : |fl64 w * sr| ≤ 2 ^ 48 + 1 := by
    calc |fl64 w * sr| = |(fl64 w * sr - n) + n| := by ring_nf
      _ ≤ |fl64 w * sr - n| + |(n : ℚ)| := abs_add_le _ _
      _ ≤ _ := by linarith
  have a2 : |fl64 (fl64 w * sr) - fl64 w * sr| ≤ 1 / 16 := by
    refine e2.trans ?_
    calc |fl64 w * sr| / 2 ^ 53 ≤ (2 ^ 48 + 1) / 2 ^ 53 := by gcongr
      _ ≤ 1 / 16 := by norm_num
  set p := fl64 (fl64 w * sr) with hp
  have a3 : |p - n| ≤ 3 / 32 := by
    calc |p - n| = |(p - fl64 w * sr) + (fl64 w * sr - n)| := by ring_nf
      _ ≤ |p - fl64 w * sr| + |fl64 w * sr - n| := abs_add_le _ _
      _ ≤ _ := by linarith
  have b2 : |p - h| ≤ 2 ^ 50 := by
    calc |p - h| = |(p - n) + (n - h)| := by ring_nf
      _ ≤ |p - n| + |(n : ℚ) - h| := abs_add_le _ _
      _ ≤ |p - n| + (|(n : ℚ)| + |h|) := by linarith [abs_sub (n : ℚ) h]
      _ ≤ 3 / 32 + (2 ^ 48 + 2 ^ 48) := by rw [abs_of_nonneg hh0]; linarith
      _ ≤ _ := by norm_num
  have e3 := fl64_rel (p - h)
  have a4 : |fl64 (p - h) - (p - h)| ≤ 1 / 8 := by
    refine e3.trans ?_
    calc |p - h| / 2 ^ 53 ≤ 2 ^ 50 / 2 ^ 53 := by gcongr
      _ = 1 / 8 := by norm_num
  have key : |fl64 (p - h) - ((n - (len / 2 : ℕ) : ℤ) : ℚ)| < 1 / 2 := by
    have e : ((n - (len / 2 : ℕ) : ℤ) : ℚ) = n - h := by rw [hh, Int.cast_sub, Int.cast_natCast]
    rw [e]
    calc |fl64 (p - h) - ((n : ℚ) - h)| = |(fl64 (p - h) - (p - h)) + (p - n)| := by ring_nf
      _ ≤ |fl64 (p - h) - (p - h)| + |p - n| := abs_add_le _ _
      _ ≤ 1 / 8 + 3 / 32 := add_le_add a4 a3
      _ < 1 / 2 := by norm_num
  exact roundEven_near _ _ key

section examples

/-- Sixty samples with 100 Hz. -/
def snapTrace : Trace ℚ :=
  { net := [], sta := [], loc := [], cha := "BHZ".toList, start := 5, sr := 100, data := List.replicate 60 0, ext := [] }

/-- An onset at 0.293 s belongs to sample 29, whose time is exact although 0.29 is no double. -/
example : snapOnset snapTrace (5 + 293 / 1000) = .ok (5 + 29 / 100) := by
  have := C197_onset snapTrace (by norm_num [snapTrace]) (5 + 293 / 1000) (by decide) 29 (by decide)
    (by norm_num [snapTrace]) (.inl (by decide)) 290000000 (by norm_num [snapTrace]) (by norm_num)
  rw [this]
  congr 1
  norm_num [snapTrace, Trace.delta]

/-- The onset on the last sample. -/
example : snapIndex snapTrace (5 + 59 / 100) = .ok 59 :=
  (C197_index snapTrace (by norm_num [snapTrace]) (5 + 59 / 100) (by decide) 59 (by decide)
    (by norm_num [snapTrace]) (.inr (by norm_num [snapTrace]))).1

/-- A window from 0.29 s before the onset, source of 40 samples. -/
example : timeShift (fl64 (29 / 100)) 100 40 = 9 :=
  C197_shift (29 / 100) 100 29 (by norm_num) (by norm_num) 40 (by norm_num)

/-- Cutting off would give another number of samples. -/
example : fl64 (fl64 (29 / 100) * 100) < 29 := by decide +kernel

end examples

end Verif.Props
