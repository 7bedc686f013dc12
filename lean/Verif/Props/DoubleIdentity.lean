import Verif.Props.DoubleInterp

/-!
# C214: move out to the own slowness changes no bit
-/

set_option linter.unusedSimpArgs false
set_option linter.unusedSectionVars false

namespace Verif.Spec
open Verif.Py

/-- A number with 53 bits. -/
def Double (x : ℚ) : Prop := ∃ m e : ℤ, |m| < 2 ^ 53 ∧ x = m * 2 ^ e

/-- A time `x` inside of a table which is 0, a time of the table, or at most twice the time of the table before it. -/
def Near (t0 : List ℚ) (x : ℚ) : Prop :=
  t0.getD 0 0 ≤ x ∧ x ≤ t0.getD (t0.length - 1) 0 ∧ ∀ j, j + 1 < t0.length → t0.getD j 0 ≤ x → x < t0.getD (j + 1) 0 →
    x = 0 ∨ x = t0.getD j 0 ∨ 0 ≤ t0.getD j 0 ∧ (t0.getD j 0 = 0 ∨ x ≤ 2 * t0.getD j 0)

end Verif.Spec

namespace Verif.Props
open Verif.Py Verif.Model.DoubleInterp Verif.Spec

theorem fl64_double (x : ℚ) (h : Double x) : fl64 x = x := by
  obtain ⟨m, e, hm, rfl⟩ := h
  exact fl64_exact m e hm

/-- Rounded numbers have 53 bits. -/
theorem double_fl64 (x : ℚ) : Double (fl64 x) := by
  by_cases hx : x = 0
  · rw [hx, fl64_zero]
    exact ⟨0, 0, by norm_num, by simp⟩
  have hu : (0 : ℚ) < 2 ^ ulpExp x := zpow_pos (by norm_num) _
  have hlt : |x / 2 ^ ulpExp x| < 2 ^ 53 := by
    have h1 := Int.lt_zpow_succ_log_self (R := ℚ) (b := 2) (by norm_num) |x|
    rw [abs_div, abs_of_pos hu, div_lt_iff₀ hu]
    have e : (2 : ℚ) ^ 53 * 2 ^ ulpExp x = 2 ^ (Int.log 2 |x| + 1) := by
      rw [← zpow_natCast, ← zpow_add₀ (by norm_num)]
      congr 1
      unfold ulpExp
      push_cast
      ring
    rw [e]
    exact_mod_cast h1
  have h2 := roundEven_err (x / 2 ^ ulpExp x)
  set n := roundEven (x / 2 ^ ulpExp x) with hn
  have h3 : |(n : ℚ)| < 2 ^ 53 + 1 := by
    have := abs_sub_abs_le_abs_sub (n : ℚ) (x / 2 ^ ulpExp x)
    linarith
  have h4 : |n| ≤ 2 ^ 53 := by
    have : ((|n| : ℤ) : ℚ) < ((2 ^ 53 + 1 : ℤ) : ℚ) := by push_cast; norm_num at h3 ⊢; exact h3
    have := Int.cast_lt.1 this
    omega
  rcases lt_or_eq_of_le h4 with h | h
  · exact ⟨n, ulpExp x, h, rfl⟩
  · have e53 : (2 : ℚ) ^ (ulpExp x + 53) = 2 ^ 53 * 2 ^ ulpExp x := by
      rw [zpow_add₀ (by norm_num), mul_comm]
      norm_cast
    rcases (abs_eq (by norm_num)).1 h with h | h
    · refine ⟨1, ulpExp x + 53, by norm_num, ?_⟩
      rw [e53]
      unfold fl64
      rw [← hn, h]
      push_cast
      ring
    · refine ⟨-1, ulpExp x + 53, by norm_num, ?_⟩
      rw [e53]
      unfold fl64
      rw [← hn, h]
      push_cast
      ring

/-- Differences of doubles within a factor of two are doubles. -/
theorem double_sub (x y : ℚ) (hx : Double x) (hy : Double y) (h0 : 0 ≤ y) (h1 : y ≤ x) (h2 : x ≤ 2 * y) : Double (x - y) := by
  obtain ⟨m, e, hm, rfl⟩ := hx
  obtain ⟨n, d, hn, rfl⟩ := hy
  have he : (0 : ℚ) < 2 ^ e := zpow_pos (by norm_num) _
  have hd : (0 : ℚ) < 2 ^ d := zpow_pos (by norm_num) _
  have hn0 : (0 : ℚ) ≤ n := nonneg_of_mul_nonneg_left h0 hd
  have hm0 : (0 : ℚ) ≤ m := nonneg_of_mul_nonneg_left (h0.trans h1) he
  rw [abs_of_nonneg (by exact_mod_cast hn0)] at hn
  rw [abs_of_nonneg (by exact_mod_cast hm0)] at hm
  rcases le_total d e with h | h
  · obtain ⟨k, hk⟩ := Int.eq_ofNat_of_zero_le (sub_nonneg.2 h)
    have e1 : (2 : ℚ) ^ e = 2 ^ k * 2 ^ d := by
      rw [← zpow_natCast, ← zpow_add₀ (by norm_num)]
      congr 1
      have : e - d = (k : ℤ) := hk
      omega
    refine ⟨m * 2 ^ k - n, d, ?_, ?_⟩
    · have a1 : (m : ℚ) * 2 ^ k * 2 ^ d ≤ 2 * n * 2 ^ d := by rw [e1] at h2; linarith
      have a2 : (n : ℚ) * 2 ^ d ≤ m * 2 ^ k * 2 ^ d := by rw [e1] at h1; linarith
      have b1 : (m : ℚ) * 2 ^ k ≤ 2 * n := le_of_mul_le_mul_right a1 hd
      have b2 : (n : ℚ) ≤ m * 2 ^ k := le_of_mul_le_mul_right a2 hd
      have c1 : m * 2 ^ k ≤ 2 * n := by exact_mod_cast b1
      have c2 : n ≤ m * 2 ^ k := by exact_mod_cast b2
      rw [abs_of_nonneg (by omega)]
      omega
    · rw [e1]
      push_cast
      ring
  · obtain ⟨k, hk⟩ := Int.eq_ofNat_of_zero_le (sub_nonneg.2 h)
    have e1 : (2 : ℚ) ^ d = 2 ^ k * 2 ^ e := by
      rw [← zpow_natCast, ← zpow_add₀ (by norm_num)]
      congr 1
      have : d - e = (k : ℤ) := hk
      omega
    refine ⟨m - n * 2 ^ k, e, ?_, ?_⟩
    · have a2 : (n : ℚ) * 2 ^ k * 2 ^ e ≤ m * 2 ^ e := by rw [e1] at h1; linarith
      have b2 : (n : ℚ) * 2 ^ k ≤ m := le_of_mul_le_mul_right a2 he
      have c2 : n * 2 ^ k ≤ m := by exact_mod_cast b2
      have c3 : 0 ≤ n * 2 ^ k := by
        have : (0 : ℤ) ≤ n := by exact_mod_cast hn0
        positivity
      rw [abs_of_nonneg (by omega)]
      omega
    · rw [e1]
      push_cast
      ring

theorem fl64_ne_zero (x : ℚ) (hx : x ≠ 0) : fl64 x ≠ 0 := by
  intro h
  have := fl64_rel x
  rw [h, zero_sub, abs_neg] at this
  have hp : 0 < |x| := abs_pos.2 hx
  have : |x| / 2 ^ 53 < |x| := by
    rw [div_lt_iff₀ (by norm_num)]
    nlinarith [show (1 : ℚ) < 2 ^ 53 by norm_num]
  linarith

/-- Between two knots of the same table the time itself comes out. -/
theorem segment_id (x0 x1 x : ℚ) (hx : Double x) (hx0 : Double x0) (h1 : x0 ≤ x) (h2 : x < x1)
    (h3 : x = 0 ∨ 0 ≤ x0 ∧ (x0 = 0 ∨ x ≤ 2 * x0)) :
    fl64 (fl64 (fl64 (fl64 (x1 - x0) / fl64 (x1 - x0)) * fl64 (x - x0)) + x0) = x := by
  have hd : fl64 (x1 - x0) ≠ 0 := fl64_ne_zero _ (by intro h; linarith)
  have h1' : fl64 (1 : ℚ) = 1 := by
    have := fl64_int 1 (by norm_num)
    simpa using this
  have hs : Double (x - x0) := by
    rcases h3 with h3 | ⟨h0, h3 | h3⟩
    · obtain ⟨m, e, hm, he⟩ := hx0
      exact ⟨-m, e, by rw [abs_neg]; exact hm, by rw [h3, he]; push_cast; ring⟩
    · rw [h3, sub_zero]; exact hx
    · exact double_sub x x0 hx hx0 h0 h1 h3
  rw [div_self hd, h1', one_mul, fl64_double _ hs, fl64_double _ hs, sub_add_cancel, fl64_double _ hx]

/-- **C214** (times).  With the same table for both slownesses the new times are the old ones, bit by bit. -/
theorem C214_times_partial (find : List ℚ → ℚ → Nat) (hfind : FindSpec find) (t0 : List ℚ) (hne : t0 ≠ []) (hd : ∀ y ∈ t0, Double y)
    (l r : Option ℚ) (x : ℚ) (hx : Double x) (hn : Near t0 x) : interp64 find t0 t0 l r x = x := by
  obtain ⟨hl, h1, hn⟩ := hn
  obtain ⟨c1, c2, c3⟩ := hfind t0 x hne hl h1
  unfold interp64
  rw [if_neg (not_lt.2 hl), if_neg (not_lt.2 h1)]
  simp only
  by_cases hj : find t0 x + 1 = t0.length
  · rw [if_pos hj]
    have e : t0.length - 1 = find t0 x := by omega
    rw [e] at h1
    linarith
  rw [if_neg hj]
  by_cases hk : t0.getD (find t0 x) 0 = x
  · rw [if_pos hk, hk]
  rw [if_neg hk]
  have c3' := c3 (by omega)
  have hmem : t0.getD (find t0 x) 0 ∈ t0 := by
    rw [List.getD_eq_getElem _ _ c1]
    exact List.getElem_mem c1
  refine segment_id _ _ x hx (hd _ hmem) c2 c3' ?_
  rcases hn _ (by omega) c2 c3' with h | h | h
  · exact .inl h
  · exact absurd h.symm hk
  · exact .inr h

/-- The sample at a knot which is larger than all before and smaller than all after it is returned as it is. -/
theorem interp64_knot (find : List ℚ → ℚ → Nat) (hfind : FindSpec find) (k f : List ℚ) (l r : Option ℚ) (i : ℕ) (hi : i < k.length)
    (hb : ∀ j < i, k.getD j 0 < k.getD i 0) (ha : ∀ j, i < j → j < k.length → k.getD i 0 < k.getD j 0) :
    interp64 find k f l r (k.getD i 0) = f.getD i 0 := by
  have hne : k ≠ [] := by intro h; rw [h] at hi; simp at hi
  have h0 : k.getD 0 0 ≤ k.getD i 0 := by
    rcases Nat.eq_zero_or_pos i with h | h
    · rw [h]
    · exact (hb 0 h).le
  have h1 : k.getD i 0 ≤ k.getD (k.length - 1) 0 := by
    rcases Nat.lt_or_ge i (k.length - 1) with h | h
    · exact (ha _ h (by omega)).le
    · have : i = k.length - 1 := by omega
      rw [← this]
  obtain ⟨c1, c2, c3⟩ := hfind k _ hne h0 h1
  have hfi : find k (k.getD i 0) = i := by
    rcases lt_trichotomy (find k (k.getD i 0)) i with h | h | h
    · have a := c3 (by omega)
      rcases Nat.lt_or_ge (find k (k.getD i 0) + 1) i with h' | h'
      · exact absurd (hb _ h') (not_lt.2 a.le)
      · have e : find k (k.getD i 0) + 1 = i := by omega
        rw [e] at a
        exact absurd a (lt_irrefl _)
    · exact h
    · exact absurd (ha _ h c1) (not_lt.2 c2)
  unfold interp64
  rw [if_neg (not_lt.2 h0), if_neg (not_lt.2 h1)]
  simp only [hfi, if_true]
  split <;> rfl

/-- Interpolation in a table of times against itself. -/
theorem interp1_min (find : List ℚ → ℚ → Nat) (hfind : FindSpec find) (t0 : List ℚ) (hne : t0 ≠ []) (l : Option ℚ) (x : ℚ)
    (h0 : t0.getD 0 0 ≤ x) : interp1 find t0 t0 l none x = min x (t0.getD (t0.length - 1) 0) := by
  unfold interp1
  rw [if_neg (not_lt.2 h0)]
  by_cases h1 : t0.getD (t0.length - 1) 0 < x
  · rw [if_pos h1, min_eq_right h1.le]
    rfl
  rw [if_neg h1, min_eq_left (not_lt.1 h1)]
  obtain ⟨c1, c2, c3⟩ := hfind t0 x hne h0 (not_lt.1 h1)
  simp only
  by_cases hj : find t0 x + 1 = t0.length
  · rw [if_pos hj]
    have e : t0.length - 1 = find t0 x := by omega
    rw [e] at h1
    linarith [not_lt.1 h1]
  rw [if_neg hj]
  by_cases hk : t0.getD (find t0 x) 0 = x
  · rw [if_pos hk, hk]
  rw [if_neg hk]
  have c3' := c3 (by omega)
  rw [div_self (by intro h; linarith)]
  ring

/-- **C214** (samples).  With the same table for both slownesses the two interpolations of `moveout` return a sample bit by bit, if its time is
0, a time of the table or at most twice the time before it in the table.  `T` is the largest time of the table. -/
theorem C214_samples_partial (find : List ℚ → ℚ → Nat) (hfind : FindSpec find) (t0 : List ℚ) (hne : t0 ≠ []) (hd : ∀ y ∈ t0, Double y)
    (T : ℚ) (hT0 : 0 ≤ T) (hT : ∀ y ∈ t0, |y| ≤ T) (l1 l2 r2 : Option ℚ) (t old : List ℚ) (htne : t ≠ []) (hol : old.length = t.length)
    (hin : ∀ i < t.length, t0.getD 0 0 ≤ t.getD i 0) (hs : ∀ i j, i < j → j < t.length → t.getD i 0 + T / 2 ^ 49 < t.getD j 0) :
    ∃ newt data, stretch2_64 find l1 none l2 r2 t t0 t0 old = .ok (newt, data) ∧ data.length = old.length ∧
      ∀ i < t.length, Double (t.getD i 0) → Near t0 (t.getD i 0) → t.getD i 0 + T / 2 ^ 49 < t0.getD (t0.length - 1) 0 →
        data.getD i 0 = old.getD i 0 := by
  set k := t.map (interp64 find t0 t0 l1 none) with hk
  have hkl : k.length = t.length := by rw [hk, List.length_map]
  have hkne : k ≠ [] := by
    intro h
    rw [h] at hkl
    exact htne (List.length_eq_zero_iff.1 hkl.symm)
  have hval : ∀ i < t.length, |k.getD i 0 - min (t.getD i 0) (t0.getD (t0.length - 1) 0)| ≤ T / 2 ^ 49 := by
    intro i hi
    rw [hk, getD_map0 _ _ _ hi, ← interp1_min find hfind t0 hne l1 _ (hin i hi)]
    exact C213_interp find hfind t0 t0 hne l1 none T hT0 hT _
  refine ⟨k, t.map (interp64 find k old l2 r2), ?_, by simp [hol], fun i hi hD hN hlast => ?_⟩
  · unfold stretch2_64
    rw [interpAll64_ok find t t0 t0 l1 none rfl hne, ← hk]
    simp only [bind, Except.bind]
    rw [interpAll64_ok find t k old l2 r2 (by omega) hkne]
  have hki : k.getD i 0 = t.getD i 0 := by
    rw [hk, getD_map0 _ _ _ hi]
    exact C214_times_partial find hfind t0 hne hd l1 none _ hD hN
  rw [getD_map0 _ _ _ hi]
  rw [← hki]
  refine interp64_knot find hfind k old l2 r2 i (by omega) (fun j hj => ?_) (fun j hj hjl => ?_)
  · rw [hki]
    have h1 := hs j i hj hi
    have h2 := (abs_le.1 (hval j (by omega))).2
    have h3 := min_le_left (t.getD j 0) (t0.getD (t0.length - 1) 0)
    linarith
  · rw [hki]
    have h1 := hs i j hj (by omega)
    have h2 := (abs_le.1 (hval j (by omega))).1
    have h3 : t.getD i 0 + T / 2 ^ 49 < min (t.getD j 0) (t0.getD (t0.length - 1) 0) := lt_min h1 hlast
    linarith

/-- **C214** (all samples).  If this holds for all samples, all of them are returned bit by bit, whatever is filled in outside of the table. -/
theorem C214_inside_partial (find : List ℚ → ℚ → Nat) (hfind : FindSpec find) (t0 : List ℚ) (hne : t0 ≠ []) (hd : ∀ y ∈ t0, Double y)
    (l1 r1 l2 r2 : Option ℚ) (t old : List ℚ) (htne : t ≠ []) (hol : old.length = t.length)
    (ht : ∀ x ∈ t, Double x ∧ Near t0 x) (hs : ∀ i j, i < j → j < t.length → t.getD i 0 < t.getD j 0) :
    stretch2_64 find l1 r1 l2 r2 t t0 t0 old = .ok (t, old) := by
  have h1 : t.map (interp64 find t0 t0 l1 r1) = t := by
    conv_rhs => rw [← List.map_id t]
    refine List.map_congr_left fun x hx => ?_
    exact C214_times_partial find hfind t0 hne hd l1 r1 x (ht x hx).1 (ht x hx).2
  have h2 : t.map (interp64 find t old l2 r2) = old := by
    refine List.ext_getElem (by simp [hol]) fun i hi hi' => ?_
    rw [List.getElem_map]
    have hi2 : i < t.length := by omega
    have := interp64_knot find hfind t old l2 r2 i hi2 (fun j hj => hs j i hj hi2) (fun j hj hjl => hs i j hj hjl)
    rw [List.getD_eq_getElem _ _ hi2, List.getD_eq_getElem _ _ hi'] at this
    exact this
  unfold stretch2_64
  rw [interpAll64_ok find t t0 t0 l1 r1 rfl hne]
  simp only [bind, Except.bind]
  rw [h1, interpAll64_ok find t t old l2 r2 hol.symm htne]
  simp only
  rw [h2]

/-- **C214** (trace).  Move out of a trace whose slowness is the reference slowness, in double precision: no sample before the onset and no sample whose
time is 0, a time of the table or at most twice the time before it in the table changes by a single bit. -/
theorem C214_trace_partial (find : List ℚ → ℚ → Nat) (hfind : FindSpec find) (index0 : ℤ) (tr : Trace ℚ) (onset : ℚ) (t0 : List ℚ)
    (hne : t0 ≠ []) (hd : ∀ y ∈ t0, Double y) (T : ℚ) (hT0 : 0 ≤ T) (hT : ∀ y ∈ t0, |y| ≤ T) (h0 : 0 ≤ index0) (hi : index0 < tr.npts)
    (t : List ℚ) (htd : t = sampleTimes64 index0 tr onset)
    (hin : ∀ i < t.length, t0.getD 0 0 ≤ t.getD i 0) (hs : ∀ i j, i < j → j < t.length → t.getD i 0 + T / 2 ^ 49 < t.getD j 0) :
    ∃ d, moveoutP64 find index0 tr onset t0 t0 = .ok d ∧ d.length = tr.npts ∧ ∀ i < tr.npts,
      (i < index0.toNat ∨ Near t0 (t.getD (i - index0.toNat) 0) ∧ t.getD (i - index0.toNat) 0 + T / 2 ^ 49 < t0.getD (t0.length - 1) 0) →
      d.getD i 0 = tr.data.getD i 0 := by
  have hnp : tr.npts = tr.data.length := rfl
  have ht : ∀ i < t.length, Double (t.getD i 0) := by
    intro i hi
    rw [List.getD_eq_getElem _ _ hi]
    have hx := List.getElem_mem hi
    generalize t[i] = x at hx
    rw [htd] at hx
    simp only [sampleTimes64, List.mem_map] at hx
    obtain ⟨k, -, rfl⟩ := hx
    exact double_fl64 _
  have hcl : clampIdx tr.data.length index0 = index0.toNat := by
    unfold clampIdx
    rw [if_neg (by omega)]
    omega
  have htl : t.length = tr.npts - index0.toNat := by rw [htd]; simp [sampleTimes64]
  have hsf : sliceFrom tr.data index0 = tr.data.drop index0.toNat := by
    unfold sliceFrom
    rw [hcl]
  have hst : sliceTo tr.data index0 = tr.data.take index0.toNat := by
    unfold sliceTo
    rw [hcl]
  obtain ⟨newt, data, h1, h2, h3⟩ := C214_samples_partial find hfind t0 hne hd T hT0 hT (some 0) none (some 0) t
    (sliceFrom tr.data index0) (by
      intro h
      rw [h] at htl
      simp at htl
      omega) (by rw [hsf, htl, List.length_drop, hnp]) hin hs
  obtain ⟨a, ha⟩ : ∃ a, getItem t0 (-1) = .ok a := by
    have := List.length_pos_iff.2 hne
    unfold getItem
    simp only [show ((-1 : ℤ) < 0) from by norm_num, if_true]
    rw [if_pos (by omega), List.getElem?_eq_getElem (by omega)]
    exact ⟨_, rfl⟩
  refine ⟨sliceTo tr.data index0 ++ data, ?_, ?_, ?_⟩
  · unfold moveoutP64
    rw [ha]
    simp only [bind, Except.bind, gt_iff_lt, lt_irrefl, if_false]
    rw [← htd, h1]
  · rw [List.length_append, h2, hst, hsf, List.length_take, List.length_drop, hnp]
    omega
  · intro i hin' hor
    by_cases hlt : i < index0.toNat
    · rw [hst, List.getD_append _ _ _ _ (by rw [List.length_take]; omega), List.getD_eq_getElem _ _ (by rw [List.length_take]; omega),
        List.getD_eq_getElem _ _ (by omega), List.getElem_take]
    · have hor := hor.resolve_left hlt
      have hlen : (sliceTo tr.data index0).length = index0.toNat := by rw [hst, List.length_take]; omega
      rw [List.getD_append_right _ _ _ _ (by omega), hlen, h3 (i - index0.toNat) (by omega) (ht _ (by omega)) hor.1 hor.2, hsf]
      rw [List.getD_eq_getElem _ _ (by rw [List.length_drop]; omega), List.getD_eq_getElem _ _ (by omega), List.getElem_drop]
      congr 1
      omega

/-- **C214, negation.**  Three samples 0.85 s apart and delay times of 0.4 s, 2 s and 2.5 s, mirrored as in `stretch_delay_times`: the new time of the
last sample is one bit before its time, so that the last sample is replaced by zero, although nothing is to be corrected. -/
theorem C214_counterexample : let t0 : List ℚ := [-5 / 2, -2, fl64 (2 / 5), 2, 5 / 2]
    let t : List ℚ := [0, fl64 (17 / 20), fl64 (17 / 10)]
    ∃ newt, stretch2_64 npFind (some 0) none none (some 0) t t0 t0 [5, 3, 1] = .ok (newt, [5, 3, 0]) ∧
      newt.getD 2 0 = t.getD 2 0 - 1 / 2 ^ 52 ∧ t.getD 2 0 < t0.getD 4 0 := by
  refine ⟨[0, fl64 (17 / 20), fl64 (17 / 10) - 1 / 2 ^ 52], ?_⟩
  decide +kernel

/-! ## Cases -/

/-- A mirrored table of delay times and four samples from the onset on. -/
example : let t0 : List ℚ := [-7 / 4, -1, 1 / 2, 1, 7 / 4]
    let t : List ℚ := [0, 1 / 2, 7 / 8, 11 / 8]
    (∀ y ∈ t0, Double y) ∧ (∀ x ∈ t, Double x) ∧ Near t0 0 ∧ Near t0 (7 / 8) ∧
    stretch2_64 npFind (some 0) none none (some 0) t t0 t0 [5, 3, -1, 2] = .ok ([0, 1 / 2, 7 / 8, 11 / 8], [5, 3, -1, 2]) := by
  have hD : ∀ (m : ℤ) (x : ℚ), |m| < 2 ^ 53 → x = m * 2 ^ (-3 : ℤ) → Double x := fun m x h1 h2 => ⟨m, -3, h1, h2⟩
  refine ⟨?_, ?_, ⟨by decide +kernel, by decide +kernel, fun j _ _ _ => .inl rfl⟩, ⟨by decide +kernel, by decide +kernel, ?_⟩, by decide +kernel⟩
  · intro y hy
    fin_cases hy
    · exact hD (-14) _ (by norm_num) (by norm_num)
    · exact hD (-8) _ (by norm_num) (by norm_num)
    · exact hD 4 _ (by norm_num) (by norm_num)
    · exact hD 8 _ (by norm_num) (by norm_num)
    · exact hD 14 _ (by norm_num) (by norm_num)
  · intro y hy
    fin_cases hy
    · exact hD 0 _ (by norm_num) (by norm_num)
    · exact hD 4 _ (by norm_num) (by norm_num)
    · exact hD 7 _ (by norm_num) (by norm_num)
    · exact hD 11 _ (by norm_num) (by norm_num)
  · intro j h1 h2 h3
    have h1 : j + 1 < 5 := h1
    have h1 : j < 4 := by omega
    interval_cases j
    · exact absurd h3 (by decide +kernel)
    · exact absurd h3 (by decide +kernel)
    · exact .inr (.inr ⟨by decide +kernel, .inr (by decide +kernel)⟩)
    · exact absurd h2 (by decide +kernel)

end Verif.Props
