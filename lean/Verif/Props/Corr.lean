import Verif.Model.DeconvTime
import Verif.Spec.Corr
import Mathlib.Algebra.BigOperators.Intervals
import Mathlib.Algebra.BigOperators.Field
import Mathlib.Algebra.Order.BigOperators.Ring.Finset
import Mathlib.Algebra.Order.BigOperators.Group.Finset
import Mathlib.Data.List.GetD
import Mathlib.Tactic.Linarith
import Mathlib.Tactic.Ring
import Mathlib.Tactic.FieldSimp
import Mathlib.Algebra.Order.Ring.Rat
import Mathlib.Data.Rat.Floor

/-!
# Correlations of `deconv_time`: C09, C10, C11
-/

set_option linter.unusedSimpArgs false
set_option linter.unusedSectionVars false

namespace Verif.Props
open Verif.Py Verif.Model Verif.Spec Finset

section basic
variable {K : Type} [Field K]

theorem list_sum_range {M : Type} [AddCommMonoid M] (n : Nat) (f : Nat → M) :
    ((List.range n).map f).sum = ∑ i ∈ range n, f i := by
  induction n with
  | zero => simp
  | succ n ih => rw [List.range_succ, List.map_append, List.sum_append, ih, sum_range_succ]; simp

@[simp] theorem sig_nat (a : List K) (n : Nat) : sig a (n : ℤ) = a.getD n 0 := by simp [sig]

theorem sig_neg (a : List K) (i : ℤ) (h : i < 0) : sig a i = 0 := by
  simp [sig, not_le.2 h]

theorem sig_ge (a : List K) (i : ℤ) (h : (a.length : ℤ) ≤ i) : sig a i = 0 := by
  unfold sig
  split
  · exact List.getD_eq_default _ _ (by omega)
  · rfl

theorem sig_append_left (a : List K) (l : Nat) (i : ℤ) :
    sig (List.replicate l 0 ++ a) i = sig a (i - l) := by
  unfold sig
  by_cases h0 : 0 ≤ i
  · rw [if_pos h0]
    by_cases h1 : (l : ℤ) ≤ i
    · rw [if_pos (by omega), List.getD_append_right _ _ _ _ (by simp; omega)]
      congr 1
      simp only [List.length_replicate]; omega
    · rw [if_neg (by omega), List.getD_append _ _ _ _ (by simp; omega)]
      have hlt : i.toNat < l := by omega
      rw [List.getD_eq_getElem _ _ (by simpa using hlt)]
      simp
  · rw [if_neg h0, if_neg (by omega)]

theorem sig_append_right (a : List K) (r : Nat) (i : ℤ) :
    sig (a ++ List.replicate r 0) i = sig a i := by
  by_cases h0 : 0 ≤ i
  · by_cases h1 : i < a.length
    · unfold sig
      rw [if_pos h0, if_pos h0, List.getD_append _ _ _ _ (by omega)]
    · rw [sig_ge a i (by omega)]
      unfold sig
      rw [if_pos h0, List.getD_append_right _ _ _ _ (by omega)]
      by_cases h2 : i.toNat - a.length < r
      · rw [List.getD_eq_getElem _ _ (by simpa using h2)]; simp
      · exact List.getD_eq_default _ _ (by simp; omega)
  · rw [sig_neg _ _ (by omega), sig_neg _ _ (by omega)]

theorem sig_addZeros (a : List K) (l r : Nat) (i : ℤ) :
    sig (addZeros a l r) i = sig a (i - l) := by
  unfold addZeros
  rw [sig_append_right, sig_append_left]

theorem addZeros_length (a : List K) (l r : Nat) : (addZeros a l r).length = l + a.length + r := by
  simp [addZeros]; omega

/-- Sum of a function that vanishes outside `[j, j + M)`. -/
theorem sum_window {L : Type} [AddCommMonoid L] (f : Nat → L) (j M N : Nat) (h : j + M ≤ N)
    (h1 : ∀ n < j, f n = 0) (h2 : ∀ n, j + M ≤ n → f n = 0) :
    ∑ n ∈ range N, f n = ∑ m ∈ range M, f (j + m) := by
  obtain ⟨e, rfl⟩ := Nat.exists_eq_add_of_le h
  rw [add_assoc, sum_range_add, sum_range_add]
  have e1 : ∑ x ∈ range j, f x = 0 := sum_eq_zero fun x hx => h1 x (mem_range.1 hx)
  have e2 : ∑ x ∈ range e, f (j + (M + x)) = 0 := sum_eq_zero fun x _ => h2 _ (by omega)
  rw [e1, e2]
  simp

theorem corrAt_addZeros (a b : List K) (l r : Nat) (d : ℤ) :
    corrAt a (addZeros b l r) d = corrAt a b (d + l) := by
  unfold corrAt
  rw [addZeros_length, sum_window _ l b.length _ (by omega)]
  · refine sum_congr rfl fun m _ => ?_
    rw [sig_addZeros]
    push_cast
    congr 2 <;> ring_nf
  · intro n hn
    rw [sig_addZeros, sig_neg b _ (by omega), mul_zero]
  · intro n hn
    rw [sig_addZeros, sig_ge b _ (by omega), mul_zero]

end basic

section corr
variable {K : Type} [Field K] [LinearOrder K]

theorem correlateLong_eq (a b : List K) :
    correlateLong a b = (List.range (a.length + 1 - b.length)).map fun (k : Nat) => corrAt a b k := by
  unfold correlateLong corrAt
  refine List.map_congr_left fun k _ => ?_
  rw [list_sum_range]
  refine sum_congr rfl fun m _ => ?_
  rw [show ((k : ℤ) + (m : ℤ)) = ((k + m : Nat) : ℤ) by push_cast; ring, sig_nat, sig_nat]

/-- **C09** (values).  The autocorrelation vector has exactly `length` samples, sample `k` is the sum of
products of source samples at distance `k`. -/
theorem C09_values (a : List K) (num : Nat) (hn : 1 ≤ num) :
    ∃ r, acorrt a num = .ok r ∧ r.length = num ∧
      ∀ k < num, r.getD k 0 = ∑ m ∈ range a.length, a.getD (k + m) 0 * a.getD m 0 := by
  unfold acorrt
  rw [if_neg (by omega)]
  refine ⟨_, rfl, ?_⟩
  unfold correlateValid
  rw [if_pos (by rw [addZeros_length]; omega), correlateLong_eq, addZeros_length]
  have e : 0 + a.length + (num - 1) + 1 - a.length = num := by omega
  rw [e]
  refine ⟨by simp, ?_⟩
  intro k hk
  rw [List.getD_eq_getElem _ _ (by simpa using hk)]
  simp only [List.getElem_map, List.getElem_range]
  unfold corrAt
  refine sum_congr rfl fun m _ => ?_
  rw [sig_addZeros, show ((k : ℤ) + m - (0 : Nat)) = ((k + m : Nat) : ℤ) by push_cast; ring,
    sig_nat, sig_nat]

theorem xcorrPad_length (a : List K) (z : Int) :
    (xcorrPad a z).length = a.length + 2 * z.natAbs := by
  unfold xcorrPad
  split
  · rw [addZeros_length]; omega
  · split
    · rw [addZeros_length]; omega
    · omega

theorem xcorrPad_sig (a : List K) (z i : Int) :
    sig (xcorrPad a z) i = sig a (i - (if 0 < z then 2 * z else 0)) := by
  unfold xcorrPad
  split
  · rw [sig_addZeros]; congr 1; omega
  · split
    · rw [sig_addZeros]; simp
    · simp

/-- The lag of sample 0 of the cross-correlation. -/
def xcorrOffset (la lb num : Nat) (z : Int) : Int :=
  let dif : Int := (la : Int) + 2 * z.natAbs - lb + 1 - num
  (if 0 < dif then (dif + 1) / 2 else -((-dif + 1) / 2)) - (if 0 < z then 2 * z else 0)

/-- The cross-correlation: length and values. -/
theorem xcorrt_eq (a b : List K) (num : Nat) (z : Int) (hn : 1 ≤ num) :
    xcorrt a b num z = (List.range num).map fun (k : Nat) =>
      corrAt a b (k + xcorrOffset a.length b.length num z) := by
  have hshift : ∀ (c : List K) (d o : ℤ) (a' : List K), (∀ i, sig a' i = sig a (i + o)) →
      corrAt a' c d = corrAt a c (d + o) := by
    intro c d o a' h
    unfold corrAt
    refine sum_congr rfl fun m _ => ?_
    rw [h]; congr 2; ring
  unfold xcorrt
  simp only
  rw [xcorrPad_length]
  unfold xcorrOffset
  simp only
  rw [show ((a.length + 2 * z.natAbs : Nat) : Int) = (a.length : Int) + 2 * (z.natAbs : Int) by
    rw [Nat.cast_add, Nat.cast_mul]; rfl]
  generalize hdif : (a.length : Int) + 2 * (z.natAbs : Int) - b.length + 1 - num = dif
  by_cases hd : 0 < dif
  · rw [if_pos hd, if_pos hd]
    unfold correlateValid
    rw [if_pos (by rw [addZeros_length, xcorrPad_length]; omega), correlateLong_eq, addZeros_length,
      xcorrPad_length]
    have e : a.length + 2 * z.natAbs + 1 - (((dif + 1) / 2).toNat + b.length + (dif / 2).toNat) = num := by
      omega
    rw [e]
    refine List.map_congr_left fun k _ => ?_
    rw [corrAt_addZeros, hshift b _ (-(if 0 < z then 2 * z else 0)) _ (fun i => by
      rw [xcorrPad_sig]; congr 1)]
    congr 1
    omega
  · rw [if_neg hd, if_neg hd]
    unfold correlateValid
    rw [if_pos (by rw [addZeros_length, xcorrPad_length]; omega), correlateLong_eq, addZeros_length,
      xcorrPad_length]
    have e : ((-dif + 1) / 2).toNat + (a.length + 2 * z.natAbs) + ((-dif) / 2).toNat + 1 - b.length
        = num := by omega
    rw [e]
    refine List.map_congr_left fun k _ => ?_
    rw [hshift b _ (-((-dif + 1) / 2) - (if 0 < z then 2 * z else 0)) _ (fun i => by
      rw [sig_addZeros, xcorrPad_sig]; congr 1; omega)]

/-- **C10**.  The cross-correlation vector always has the requested length. -/
theorem C10_length (a b : List K) (num : Nat) (z : Int) (hn : 1 ≤ num) :
    (xcorrt a b num z).length = num := by
  rw [xcorrt_eq a b num z hn]; simp

theorem stsVec_length (src : List K) (length : Nat) (spiking : K) (sts : List K)
    (h : stsVec src length spiking = .ok sts) : sts.length = length ∧ 1 ≤ length := by
  unfold stsVec at h
  by_cases hn : length = 0
  · subst hn; simp [acorrt, bind, Except.bind] at h
  obtain ⟨r, hr, hl, _⟩ := C09_values src length (by omega)
  rw [hr] at h
  simp only [bind, Except.bind] at h
  match r, hl, h with
  | [], _, h => simp at h
  | x :: xs, hl, h =>
    simp only at h
    split at h
    · cases h
    · simp only [List.map_cons, Except.ok.injEq] at h
      rw [← h]
      simp only [List.length_cons, List.length_map] at hl ⊢
      omega

/-- **C10** (no assertion failure).  The length assertion of `deconv_time` never fails: if a solver that
does not raise `AssertionError` itself is used, `deconv_time` never raises it. -/
theorem C10_no_assertion (solve : List K → List K → Res (List K))
    (hs : ∀ a b, solve a b ≠ .error .assertionError) (rsp : List (List K)) (src : List K) (shift : Int)
    (spiking : K) (length : Option Nat) (normalize : Option Int) :
    deconvTime solve rsp src shift spiking length normalize ≠ .error .assertionError := by
  have hloop : ∀ (sts : List K) (n : Nat), sts.length = n → 1 ≤ n → ∀ rsp,
      timeLoop solve sts src n shift rsp ≠ .error .assertionError := by
    intro sts n hl hn rsp
    induction rsp with
    | nil => simp [timeLoop]
    | cons r rest ih =>
      unfold timeLoop
      simp only [C10_length r src n shift hn, hl, ne_eq, not_true_eq_false, if_false]
      cases h1 : solve sts (xcorrt r src n shift) with
      | error e =>
        simp only [bind, Except.bind, Except.error.injEq]
        rintro rfl; exact hs _ _ h1
      | ok x =>
        simp only [bind, Except.bind]
        cases h2 : timeLoop solve sts src n shift rest with
        | error e =>
          simp only [Except.error.injEq]
          rintro rfl; exact ih h2
        | ok xs => simp
  have hnorm : ∀ rf i, normalizeAll (K := K) rf i ≠ .error .assertionError := by
    intro rf i
    unfold normalizeAll
    cases h1 : getItem rf i with
    | error e =>
      have : e = .indexError := by
        unfold getItem at h1
        simp only at h1
        repeat' split at h1
        all_goals simp_all
      simp [this, bind, Except.bind]
    | ok x =>
      cases x with
      | nil => simp [maxAbs, bind, Except.bind]
      | cons y ys => simp only [maxAbs, bind, Except.bind]; split <;> simp
  have hsts : ∀ n, stsVec src n spiking ≠ .error .assertionError := by
    intro n
    unfold stsVec
    by_cases hn : n = 0
    · subst hn; simp [acorrt, bind, Except.bind]
    obtain ⟨r, hr, hl, _⟩ := C09_values src n (by omega)
    rw [hr]
    simp only [bind, Except.bind]
    cases r with
    | nil => simp
    | cons x xs => simp only; split <;> simp
  have main : ∀ n, (do
      let sts ← stsVec src n spiking
      let rf ← timeLoop solve sts src n shift rsp
      match normalize with
        | none => .ok rf
        | some i => normalizeAll rf i : Res (List (List K))) ≠ .error .assertionError := by
    intro n
    cases h1 : stsVec src n spiking with
    | error e =>
      simp only [bind, Except.bind, ne_eq, Except.error.injEq]
      rintro rfl; exact hsts n h1
    | ok sts =>
      obtain ⟨hl, hn⟩ := stsVec_length src n spiking sts h1
      simp only [bind, Except.bind]
      cases h2 : timeLoop solve sts src n shift rsp with
      | error e =>
        simp only [ne_eq, Except.error.injEq]
        rintro rfl; exact hloop sts n hl hn rsp h2
      | ok rf =>
        cases normalize with
        | none => simp
        | some i => exact hnorm rf i
  unfold deconvTime
  cases length with
  | some n => exact main n
  | none =>
    cases rsp with
    | nil => simp [bind, Except.bind]
    | cons r rest => exact main r.length

/-- The lag of sample 0 for an output as long as the response, with the shift computed by `deconvolve()`
(`s` = window start before the onset in samples, `M` = length of the source window). -/
theorem xcorrOffset_value (N M : Nat) (s : Int) :
    xcorrOffset N M N (s - (M / 2 : Nat)) = if M % 2 = 0 ∧ (s ≤ 0 ∨ (M : Int) ≤ s) then -s + 1 else -s := by
  unfold xcorrOffset
  simp only
  split <;> split <;> split <;> omega

theorem pyRound_int [FloorRing K] [IsStrictOrderedRing K] (n : Int) : pyRound (n : K) = n := by
  unfold pyRound
  simp

/-- **C11** (partial: for source windows with an even number of samples that start at or after the onset
or end before it, see `C11_counterexample`, `C11_exact`).  With the shift computed in line 127 sample `k`
of the cross-correlation relates response sample `k - tshift*sr + m` to source sample `m`. -/
theorem C11_alignment_partial [FloorRing K] [IsStrictOrderedRing K] (rsp src : List K) (tshift sr : K)
    (s : Int) (hs : tshift * sr = s) (hN : 1 ≤ rsp.length)
    (hw : src.length % 2 = 1 ∨ (0 < s ∧ s < src.length)) (k : Nat) (hk : k < rsp.length) :
    (xcorrt rsp src rsp.length (pyRound (tshift * sr - ((src.length / 2 : Nat) : K)))).getD k 0
      = ∑ m ∈ range src.length, sig rsp (k - s + m) * sig src m := by
  have e : tshift * sr - ((src.length / 2 : Nat) : K) = ((s - (src.length / 2 : Nat) : Int) : K) := by
    rw [hs, Int.cast_sub, Int.cast_natCast]
  rw [e, pyRound_int, xcorrt_eq _ _ _ _ hN, xcorrOffset_value, if_neg (by omega),
    List.getD_eq_getElem _ _ (by simpa using hk)]
  simp only [List.getElem_map, List.getElem_range]
  rfl

/-- **C11** (what the code does in every case).  For an even number of source samples and a window that
starts at or after the onset, or ends before the onset, the alignment is off by one sample. -/
theorem C11_exact [FloorRing K] [IsStrictOrderedRing K] (rsp src : List K) (tshift sr : K)
    (s : Int) (hs : tshift * sr = s) (hN : 1 ≤ rsp.length)
    (hw : src.length % 2 = 0 ∧ (s ≤ 0 ∨ (src.length : Int) ≤ s)) (k : Nat) (hk : k < rsp.length) :
    (xcorrt rsp src rsp.length (pyRound (tshift * sr - ((src.length / 2 : Nat) : K)))).getD k 0
      = ∑ m ∈ range src.length, sig rsp (k - s + 1 + m) * sig src m := by
  have e : tshift * sr - ((src.length / 2 : Nat) : K) = ((s - (src.length / 2 : Nat) : Int) : K) := by
    rw [hs, Int.cast_sub, Int.cast_natCast]
  rw [e, pyRound_int, xcorrt_eq _ _ _ _ hN, xcorrOffset_value, if_pos hw,
    List.getD_eq_getElem _ _ (by simpa using hk)]
  simp only [List.getElem_map, List.getElem_range]
  unfold corrAt
  refine sum_congr rfl fun m _ => ?_
  congr 2
  ring

/-- **C11, negation.**  A source window of two samples starting at the onset (`winsrc = (0, 1, 0)`,
1 Hz): the spike of the response at the onset sample is related to output sample 3 instead of 4. -/
theorem C11_counterexample : ∃ (rsp src : List ℚ) (tshift sr : ℚ) (s : Int) (k : Nat),
    tshift * sr = s ∧ k < rsp.length ∧
    (xcorrt rsp src rsp.length (pyRound (tshift * sr - ((src.length / 2 : Nat) : ℚ)))).getD k 0
      ≠ ∑ m ∈ range src.length, sig rsp (k - s + m) * sig src m := by
  refine ⟨[0, 0, 0, 0, 2, 1, 0, 0], [2, 1], 0, 1, 0, 4, by norm_num, by decide, ?_⟩
  decide +kernel

/-- Concrete case of C11: window of five samples starting two samples before the onset. -/
example : (xcorrt [0, 0, 1, 3, 1, 0, 0, (0 : ℚ)] [0, 1, 3, 1, 0] 8 (pyRound (2 * 1 - 2 : ℚ))) =
    [0, 1, 6, 11, 6, 1, 0, 0] := by decide +kernel

/-- Concrete case of C09, C10. -/
example : acorrt [1, 2, (3 : ℚ)] 4 = .ok [14, 8, 3, 0] ∧
    (xcorrt [1, 2, (3 : ℚ)] [1, 1] 7 (-3)).length = 7 := by decide +kernel

end corr

section order
variable {K : Type} [Field K] [LinearOrder K] [IsStrictOrderedRing K]

theorem abs_corr_le (a : List K) (k : ℤ) :
    |corrAt a a k| ≤ corrAt a a 0 := by
  -- 2|xy| <= x^2 + y^2 and the shifted energy is at most the energy
  have hE : corrAt a a 0 = ∑ m ∈ range a.length, sig a m ^ 2 := by
    unfold corrAt
    refine sum_congr rfl fun m _ => ?_
    rw [zero_add, sq]
  have hshift : ∑ m ∈ range a.length, sig a (k + m) ^ 2 ≤ ∑ m ∈ range a.length, sig a m ^ 2 := by
    -- the non-zero shifted terms are injectively among the energy terms
    classical
    have h1 : ∑ m ∈ range a.length, sig a (k + m) ^ 2
        = ∑ m ∈ (range a.length).filter (fun m : Nat => 0 ≤ k + (m : ℤ) ∧ k + (m : ℤ) < a.length),
          sig a (k + m) ^ 2 := by
      rw [sum_filter]
      refine sum_congr rfl fun m _ => ?_
      split
      · rfl
      · rename_i h
        rw [not_and_or] at h
        rcases h with h | h
        · rw [sig_neg a _ (by omega)]; simp
        · rw [sig_ge a _ (by omega)]; simp
    rw [h1]
    have h2 : ∑ m ∈ (range a.length).filter (fun m : Nat => 0 ≤ k + (m : ℤ) ∧ k + (m : ℤ) < a.length),
          sig a (k + m) ^ 2
        = ∑ n ∈ ((range a.length).filter (fun m : Nat => 0 ≤ k + (m : ℤ) ∧ k + (m : ℤ) < a.length)).image
          (fun m : Nat => (k + (m : ℤ)).toNat), sig a n ^ 2 := by
      rw [sum_image]
      · refine sum_congr rfl fun m hm => ?_
        have := (mem_filter.1 hm).2
        rw [Int.toNat_of_nonneg this.1]
      · intro x hx y hy hxy
        have hx := (mem_filter.1 hx).2
        have hy := (mem_filter.1 hy).2
        simp only at hxy
        omega
    rw [h2]
    refine sum_le_sum_of_subset_of_nonneg ?_ (fun _ _ _ => sq_nonneg _)
    intro n hn
    obtain ⟨m, hm, rfl⟩ := mem_image.1 hn
    have := (mem_filter.1 hm).2
    rw [mem_range]; omega
  have hterm : |corrAt a a k| ≤ ∑ m ∈ range a.length, (sig a (k + m) ^ 2 + sig a m ^ 2) / 2 := by
    unfold corrAt
    refine (abs_sum_le_sum_abs _ _).trans (sum_le_sum fun m _ => ?_)
    rw [abs_le]
    constructor <;> nlinarith [sq_nonneg (sig a (k + m) + sig a m), sq_nonneg (sig a (k + m) - sig a m)]
  rw [← Finset.sum_div, sum_add_distrib] at hterm
  rw [hE]
  linarith

/-- **C09** (energy).  Sample 0 of the autocorrelation is the energy of the source and dominates all other
samples in absolute value. -/
theorem C09_energy (a : List K) (num : Nat) (hn : 1 ≤ num) :
    ∃ r, acorrt a num = .ok r ∧ r.getD 0 0 = ∑ m ∈ range a.length, a.getD m 0 ^ 2 ∧
      ∀ k < num, |r.getD k 0| ≤ r.getD 0 0 := by
  obtain ⟨r, hr, hl, hv⟩ := C09_values a num hn
  have hc : ∀ k < num, r.getD k 0 = corrAt a a k := by
    intro k hk
    rw [hv k hk]
    unfold corrAt
    refine sum_congr rfl fun m _ => ?_
    rw [show ((k : ℤ) + (m : ℤ)) = ((k + m : Nat) : ℤ) by push_cast; ring, sig_nat, sig_nat]
  refine ⟨r, hr, ?_, ?_⟩
  · rw [hv 0 (by omega)]
    refine sum_congr rfl fun m _ => ?_
    rw [zero_add, sq]
  · intro k hk
    rw [hc k hk, hc 0 (by omega)]
    exact_mod_cast abs_corr_le a k

end order
end Verif.Props
