import Verif.Model.DoubleIndex
import Verif.Props.Buffers

/-!
# Cutting off instead of rounding in double precision (C162)
-/

set_option linter.unusedSimpArgs false
set_option linter.unusedSectionVars false

namespace Verif.Props
open Verif.Py Verif.Model Verif.Model.Simple

/-- Product of a rounded number with an exact one, rounded. -/
theorem double_product (t s : ℚ) (ht : 0 ≤ t) (hs : 0 ≤ s) :
    |fl64 (fl64 t * s) - t * s| ≤ 3 * (t * s) / 2 ^ 53 := by
  have h1 := fl64_rel t
  have h2 := fl64_rel (fl64 t * s)
  rw [abs_of_nonneg ht] at h1
  have h3 : |fl64 t * s - t * s| ≤ t * s / 2 ^ 53 := by
    rw [← sub_mul, abs_mul, abs_of_nonneg hs]
    calc _ ≤ t / 2 ^ 53 * s := mul_le_mul_of_nonneg_right h1 hs
      _ = t * s / 2 ^ 53 := by ring
  have h4 : |fl64 t * s| ≤ t * s + t * s / 2 ^ 53 := by
    have := abs_sub_abs_le_abs_sub (fl64 t * s) (t * s)
    rw [abs_of_nonneg (mul_nonneg ht hs)] at this
    linarith
  have h5 : |fl64 t * s| / 2 ^ 53 ≤ (t * s + t * s / 2 ^ 53) / 2 ^ 53 :=
    div_le_div_of_nonneg_right h4 (by norm_num)
  have h6 : t * s / 2 ^ 53 ≤ t * s := by
    rw [div_le_iff₀ (by norm_num)]
    nlinarith [mul_nonneg ht hs]
  have h7 : (t * s + t * s / 2 ^ 53) / 2 ^ 53 ≤ 2 * (t * s) / 2 ^ 53 :=
    div_le_div_of_nonneg_right (by linarith) (by norm_num)
  calc |fl64 (fl64 t * s) - t * s| = |(fl64 (fl64 t * s) - fl64 t * s) + (fl64 t * s - t * s)| := by ring_nf
    _ ≤ |fl64 (fl64 t * s) - fl64 t * s| + |fl64 t * s - t * s| := abs_add_le _ _
    _ ≤ 2 * (t * s) / 2 ^ 53 + t * s / 2 ^ 53 := by linarith
    _ = 3 * (t * s) / 2 ^ 53 := by ring

/-- The integer part of a number and of an approximation of it. -/
theorem floor_near (x y ε : ℚ) (h : |y - x| ≤ ε) (hε : ε < 1) :
    (⌊y⌋ = ⌊x⌋ - 1 ∨ ⌊y⌋ = ⌊x⌋ ∨ ⌊y⌋ = ⌊x⌋ + 1) ∧
    (ε ≤ x - ⌊x⌋ → ε < ⌊x⌋ + 1 - x → ⌊y⌋ = ⌊x⌋) ∧
    (x = ⌊x⌋ → ⌊y⌋ = ⌊x⌋ - 1 ∨ ⌊y⌋ = ⌊x⌋) := by
  rw [abs_le] at h
  have h1 := Int.floor_le x
  have h2 := Int.lt_floor_add_one x
  have l1 : ⌊x⌋ - 1 ≤ ⌊y⌋ := by
    rw [Int.le_floor]
    push_cast
    linarith
  have l2 : ⌊y⌋ < ⌊x⌋ + 2 := by
    rw [Int.floor_lt]
    push_cast
    linarith
  refine ⟨by omega, ?_, ?_⟩
  · intro h3 h4
    rw [Int.floor_eq_iff]
    constructor <;> linarith
  · intro h3
    have l3 : ⌊y⌋ < ⌊x⌋ + 1 := by
      rw [Int.floor_lt]
      push_cast
      linarith
    omega

/-- C162.  What holds for the sample index of the onset in `SimpleModel.moveout` in double precision: it differs from
the exact one by at most 1, for onsets at a sample it is this sample or the one before; it is exact if the position of
the onset in samples is not too close to an integer. -/
theorem C162_index_partial (tr : Trace ℚ) (onset : ℚ) (hsr : 0 ≤ tr.sr) (h0 : tr.start ≤ onset) (x : ℚ)
    (hx : x = (onset - tr.start) * tr.sr) (hsmall : x ≤ 2 ^ 50) :
    (DoubleIndex.index0 tr onset = Simple.index0 tr onset - 1 ∨ DoubleIndex.index0 tr onset = Simple.index0 tr onset ∨
      DoubleIndex.index0 tr onset = Simple.index0 tr onset + 1) ∧
    (3 * x / 2 ^ 53 ≤ x - ⌊x⌋ → 3 * x / 2 ^ 53 < ⌊x⌋ + 1 - x →
      DoubleIndex.index0 tr onset = Simple.index0 tr onset) ∧
    (∀ k : ℕ, x = k → DoubleIndex.index0 tr onset = (k : ℤ) - 1 ∨ DoubleIndex.index0 tr onset = k) := by
  have h := double_product (onset - tr.start) tr.sr (sub_nonneg.2 h0) hsr
  rw [← hx] at h
  obtain ⟨a, b, c⟩ := floor_near x (fl64 (fl64 (onset - tr.start) * tr.sr)) _ h (by
    rw [div_lt_one (by norm_num)]
    linarith)
  have e1 : DoubleIndex.index0 tr onset = ⌊fl64 (fl64 (onset - tr.start) * tr.sr)⌋ := rfl
  have e2 : Simple.index0 tr onset = ⌊x⌋ := by
    unfold Simple.index0
    rw [hx]
  rw [e1, e2]
  refine ⟨a, b, fun k hk => ?_⟩
  have hf : ⌊x⌋ = (k : ℤ) := by rw [hk]; exact Int.floor_natCast k
  rw [hf] at c
  exact c (by rw [hk]; simp)

/-- C162.  Exact for onsets at a sample if the time since the start of the trace has at most 53 bits, for example for
sampling intervals which are a power of two. -/
theorem C162_dyadic (tr : Trace ℚ) (onset : ℚ) (m e : ℤ) (hm : |m| < 2 ^ 53) (ht : onset - tr.start = m * 2 ^ e)
    (k : ℕ) (hk : (onset - tr.start) * tr.sr = k) (hk53 : k < 2 ^ 53) :
    DoubleIndex.index0 tr onset = k ∧ Simple.index0 tr onset = k := by
  unfold DoubleIndex.index0 Simple.index0 DoubleIndex.secondsBetween
  have h1 : fl64 (onset - tr.start) = onset - tr.start := by rw [ht]; exact fl64_exact m e hm
  have h2 : fl64 (k : ℚ) = k := by
    have := fl64_int (k : ℤ) (by rw [abs_of_nonneg (by omega)]; exact_mod_cast hk53)
    exact_mod_cast this
  rw [h1, hk, h2]
  exact ⟨Int.floor_natCast k, Int.floor_natCast k⟩

theorem moveoutPAt_exact {K : Type} [Field K] [LinearOrder K] [FloorRing K] (find : List K → K → Nat)
    (tr : Trace K) (onset : K) (t0 t1 : List K) :
    DoubleIndex.moveoutPAt find (Simple.index0 tr onset) tr onset t0 t1 = moveoutP find tr onset t0 t1 := rfl

/-- The samples before the given index do not change. -/
theorem moveoutPAt_prefix {K : Type} [Field K] [LinearOrder K] (find : List K → K → Nat) (i0 : ℤ)
    (tr : Trace K) (onset : K) (t0 t1 d : List K) (h : DoubleIndex.moveoutPAt find i0 tr onset t0 t1 = .ok d) (i : ℕ)
    (hi : (i : ℤ) < i0) (hlen : i < tr.data.length) : d[i]? = tr.data[i]? := by
  unfold DoubleIndex.moveoutPAt at h
  simp only [bind, Except.bind] at h
  split at h
  · cases h
  split at h
  · cases h
  split at h
  · cases h
  split at h
  · cases h
  have key : ∀ (j : ℤ) (l : List K), (i : ℤ) < j → (sliceTo tr.data j ++ l)[i]? = tr.data[i]? := by
    intro j l hj
    unfold sliceTo
    rw [List.getElem?_append_left, List.getElem?_take, if_pos]
    · unfold clampIdx
      split <;> omega
    · rw [List.length_take]
      unfold clampIdx
      split <;> omega
  simp only [Except.ok.injEq] at h
  rw [← h]
  refine key _ _ ?_
  split <;> omega

/-- C162.  In double precision the correction leaves all samples untouched which are at least two samples before the
onset. -/
theorem C162_samples_partial (find : List ℚ → ℚ → Nat) (tr : Trace ℚ) (onset : ℚ) (hsr : 0 ≤ tr.sr)
    (h0 : tr.start ≤ onset) (hsmall : (onset - tr.start) * tr.sr ≤ 2 ^ 50) (t0 t1 d : List ℚ)
    (h : DoubleIndex.moveoutPAt find (DoubleIndex.index0 tr onset) tr onset t0 t1 = .ok d) (i : ℕ)
    (hi : (i : ℚ) ≤ (onset - tr.start) * tr.sr - 2) (hlen : i < tr.data.length) : d[i]? = tr.data[i]? := by
  obtain ⟨h1, -, -⟩ := C162_index_partial tr onset hsr h0 _ rfl hsmall
  have h2 : (i : ℤ) + 2 ≤ Simple.index0 tr onset := by
    unfold Simple.index0
    rw [Int.le_floor]
    push_cast
    linarith
  exact moveoutPAt_prefix find _ tr onset t0 t1 d h i (by omega) hlen

/-- 100 Hz, 40 samples, onset at sample 29, a single sample before the onset is not zero. -/
def doubleTrace : Trace ℚ :=
  ⟨[], "STA".toList, [], ['Q'], 0, 100, (List.range 40).map (fun k => if k = 28 then 1 else 0),
    [("onset", .time (29 / 100)), ("slowness", .num 0)]⟩

/-- C162 as stated is false: for an onset 0.29 s after the start of a trace with 100 Hz the index in double precision is
28 instead of 29, the correction (from the delay times 7, 14 s to 11, 22 s of the layers above, all other steps exact)
changes the sample before the onset; with the exact index it does not.  The lag of -29 samples, which is the lag
-tshift, is muted by the iterative deconvolution. -/
theorem C162_counterexample :
    DoubleIndex.index0 doubleTrace (29 / 100) = 28 ∧ Simple.index0 doubleTrace (29 / 100) = 29 ∧
    doubleTrace.data.getD 28 0 = 1 ∧
    (DoubleIndex.moveoutPAt npFind (DoubleIndex.index0 doubleTrace (29 / 100)) doubleTrace (29 / 100)
      [-14, -7, 0, 7, 14] [-22, -11, 0, 11, 22]).toOption.map (fun d => d.getD 28 0) = some (7 / 11) ∧
    (moveoutP npFind doubleTrace (29 / 100) [-14, -7, 0, 7, 14] [-22, -11, 0, 11, 22]).toOption.map
      (fun d => d.getD 28 0) = some 1 ∧
    DoubleIndex.muteMax 100 (fl64 (29 / 100)) 100 = 100 - 28 := by
  decide +kernel

/-- Sampling rate 4 Hz, onset at 0.75 s; at 100 Hz an onset in the middle between two samples. -/
example : DoubleIndex.index0 { doubleTrace with sr := 4 } (3 / 4) = 3 ∧
    DoubleIndex.index0 doubleTrace (57 / 200) = Simple.index0 doubleTrace (57 / 200) := by
  constructor
  · exact (C162_dyadic { doubleTrace with sr := 4 } (3 / 4) 3 (-2) (by norm_num) (by norm_num [doubleTrace]) 3
      (by norm_num [doubleTrace]) (by norm_num)).1
  · exact (C162_index_partial doubleTrace (57 / 200) (by decide +kernel) (by decide +kernel) _ rfl
      (by decide +kernel)).2.1 (by decide +kernel) (by decide +kernel)

end Verif.Props
