import Verif.Props.Stretch

/-!
# Properties of the moveout correction: C32, C33, C34, C35, C36, C39
-/

set_option linter.unusedSimpArgs false
set_option linter.unusedSectionVars false

namespace Verif.Props
open Verif.Py Verif.Model.Simple Verif.Spec

section moveout
variable {K : Type} [Field K] [LinearOrder K] [IsStrictOrderedRing K]

/-! ## C32 -/

/-- **C32, knots.** For a sorted table the value at a knot is the table value
(if the knot occurs several times, the table values there have to be the same). -/
theorem C32_knots (find : List K → K → Nat) (hf : FindSpec find) (xp fp : List K)
    (left right : Option K) (hlen : xp.length = fp.length) (hs : xp.Pairwise (· ≤ ·)) (i : Nat)
    (hi : i < xp.length) (hdup : ∀ j < xp.length, xp.getD j 0 = xp.getD i 0 →
      fp.getD j 0 = fp.getD i 0) :
    interpAll find [xp.getD i 0] xp fp left right = .ok [fp.getD i 0] := by
  have hne : xp ≠ [] := by rintro rfl; simp at hi
  unfold interpAll
  rw [if_neg (by simpa using hlen), if_neg hne]
  rw [List.map_singleton, interp1_knot find hf xp fp left right hne
    ((increasing_iff_pairwise xp).2 hs) i hi hdup]

/-- **C32, monotone.** Sorted tables (with outside values below and above) give a monotone
interpolation. -/
theorem C32_monotone (find : List K → K → Nat) (hf : FindSpec find) (xp fp : List K)
    (left right : Option K) (hlen : xp.length = fp.length) (hne : xp ≠ [])
    (hs : xp.Pairwise (· ≤ ·)) (hfs : fp.Pairwise (· ≤ ·))
    (hl : ∀ y, left = some y → y ≤ fp.getD 0 0)
    (hr : ∀ y, right = some y → fp.getD (fp.length - 1) 0 ≤ y) (x y : K) (hxy : x ≤ y) :
    interp1 find xp fp left right x ≤ interp1 find xp fp left right y :=
  interp1_mono find hf xp fp left right hlen hne ((increasing_iff_pairwise xp).2 hs)
    ((increasing_iff_pairwise fp).2 hfs) hl hr x y hxy

/-- **C32, range.** No value outside of the interval spanned by the table values and the outside values,
for every table (sorted or not). -/
theorem C32_range (find : List K → K → Nat) (hf : FindSpec find) (xs xp fp : List K)
    (left right : Option K) (m M : K) (hfp : ∀ y ∈ fp, m ≤ y ∧ y ≤ M)
    (hl : ∀ y, left = some y → m ≤ y ∧ y ≤ M) (hr : ∀ y, right = some y → m ≤ y ∧ y ≤ M)
    (ys : List K) (h : interpAll find xs xp fp left right = .ok ys) : ∀ y ∈ ys, m ≤ y ∧ y ≤ M := by
  unfold interpAll at h
  split at h
  · simp at h
  · rename_i hlen
    split at h
    · simp at h
    · rename_i hne
      simp only [Except.ok.injEq] at h
      subst h
      intro y hy
      obtain ⟨x, _, rfl⟩ := List.mem_map.1 hy
      exact interp1_mem find hf xp fp left right x m M (not_not.1 hlen) hne hfp hl hr

example : interpAll npFind [0, 1, 3 / 2, 4, 9] ([1, 2, 2, 4] : List ℚ) [10, 20, 20, 50] (some 0) none
    = .ok [0, 10, 15, 50, 50] := by decide +kernel

theorem interpAll_ok (find : List K → K → Nat) (xs xp fp : List K) (left right : Option K)
    (ys : List K) (h : interpAll find xs xp fp left right = .ok ys) :
    xp.length = fp.length ∧ xp ≠ [] ∧ ys = xs.map (interp1 find xp fp left right) := by
  unfold interpAll at h
  split at h
  · simp at h
  · rename_i hlen
    split at h
    · simp at h
    · rename_i hne
      simp only [Except.ok.injEq] at h
      exact ⟨not_not.1 hlen, hne, h.symm⟩

/-! ## C34, C35 -/

variable [FloorRing K]

theorem index0_bounds (tr : Trace K) (onset : K) (hsr : 0 < tr.sr) (h0 : tr.start ≤ onset)
    (h1 : onset ≤ tr.endtime) :
    0 ≤ index0 tr onset ∧ (tr.npts ≠ 0 → index0 tr onset + 1 ≤ tr.npts) ∧
      (tr.npts = 0 → index0 tr onset = 0) := by
  unfold index0
  refine ⟨Int.floor_nonneg.2 (mul_nonneg (sub_nonneg.2 h0) hsr.le), ?_, ?_⟩
  · intro hn
    unfold Trace.endtime at h1
    unfold Trace.npts at hn ⊢
    rw [if_neg hn] at h1
    have : (onset - tr.start) * tr.sr ≤ ((tr.data.length - 1 : Nat) : K) := by
      have h2 : onset - tr.start ≤ ((tr.data.length - 1 : Nat) : K) * tr.delta := by linarith
      have h3 := mul_le_mul_of_nonneg_right h2 hsr.le
      unfold Trace.delta at h3
      rwa [mul_assoc, one_div, inv_mul_cancel₀ hsr.ne', mul_one] at h3
    have h4 : ⌊(onset - tr.start) * tr.sr⌋ ≤ ((tr.data.length - 1 : Nat) : Int) := by
      have := Int.floor_mono this
      simpa using this
    omega
  · intro hn
    unfold Trace.endtime at h1
    unfold Trace.npts at hn
    rw [if_pos hn] at h1
    have : onset = tr.start := le_antisymm h1 h0
    simp [this]

theorem clampIdx_le {n : Nat} {i : Int} (h0 : 0 ≤ i) (h1 : i ≤ n) : clampIdx n i = i.toNat := by
  unfold clampIdx; rw [if_neg (by omega)]; omega

/-- Unfolded form of the branch for all phases but S multiples. -/
theorem moveoutP_ok (find : List K → K → Nat) (tr : Trace K) (onset : K) (t0 t1 d : List K)
    (h : moveoutP find tr onset t0 t1 = .ok d) :
    ∃ a b, getItem t0 (-1) = .ok a ∧ getItem t1 (-1) = .ok b ∧
      let i0 : Int := if a > b then index0 tr onset + 1 else index0 tr onset
      let t := (List.range (tr.npts - i0.toNat)).map fun (k : Nat) =>
        tr.start - onset + (i0 : K) * tr.delta + (k : K) * tr.delta
      let newt := t.map (interp1 find t0 t1 (some 0) none)
      t0.length = t1.length ∧ t0 ≠ [] ∧ newt.length = (sliceFrom tr.data i0).length ∧ newt ≠ [] ∧
      d = sliceTo tr.data i0 ++ t.map (interp1 find newt (sliceFrom tr.data i0) none (some 0)) := by
  unfold moveoutP at h
  cases ha : getItem t0 (-1) with
  | error e => simp [ha, bind, Except.bind] at h
  | ok a =>
    cases hb : getItem t1 (-1) with
    | error e => simp [ha, hb, bind, Except.bind] at h
    | ok b =>
      refine ⟨a, b, rfl, rfl, ?_⟩
      simp only [ha, hb, bind, Except.bind] at h
      simp only
      generalize (if a > b then index0 tr onset + 1 else index0 tr onset) = i0 at h ⊢
      generalize ht : ((List.range (tr.npts - i0.toNat)).map fun (k : Nat) =>
        tr.start - onset + (i0 : K) * tr.delta + (k : K) * tr.delta) = t at h ⊢
      cases h1 : interpAll find t t0 t1 (some 0) none with
      | error e => simp [h1] at h
      | ok newt =>
        obtain ⟨p1, p2, p3⟩ := interpAll_ok _ _ _ _ _ _ _ h1
        simp only [h1] at h
        cases h2 : interpAll find t newt (sliceFrom tr.data i0) none (some 0) with
        | error e => simp [h2] at h
        | ok data =>
          obtain ⟨q1, q2, q3⟩ := interpAll_ok _ _ _ _ _ _ _ h2
          simp only [h2, Except.ok.injEq] at h
          subst p3
          refine ⟨p1, p2, q1, q2, ?_⟩
          rw [← h, q3]

/-- Unfolded form of the branch for S multiples. -/
theorem moveoutS_ok (find : List K → K → Nat) (tr : Trace K) (onset : K) (t0 t1 d : List K)
    (h : moveoutS find tr onset t0 t1 = .ok d) :
    let i0 := index0 tr onset
    let x := (List.range i0.toNat).map fun (k : Nat) =>
      tr.start - onset + (i0 : K) * tr.delta + (k : K) * tr.delta
    let newt := x.map (interp1 find (t0.map fun x => -x) (t1.map fun x => -x) (some 0) (some 0))
    t0.length = t1.length ∧ t0 ≠ [] ∧ newt.length = (sliceTo tr.data i0).length ∧ newt ≠ [] ∧
    d = (x.map (interp1 find newt (sliceTo tr.data i0).reverse (some 0) (some 0))).reverse
      ++ sliceFrom tr.data i0 := by
  unfold moveoutS at h
  simp only [bind, Except.bind] at h
  simp only
  have hx : ((List.range (index0 tr onset).toNat).map fun (k : Nat) =>
      -(-(tr.start - onset + (index0 tr onset : K) * tr.delta) - (k : K) * tr.delta))
      = (List.range (index0 tr onset).toNat).map fun (k : Nat) =>
      tr.start - onset + (index0 tr onset : K) * tr.delta + (k : K) * tr.delta := by
    apply List.map_congr_left; intro k _; ring
  rw [hx] at h
  generalize ((List.range (index0 tr onset).toNat).map fun (k : Nat) =>
      tr.start - onset + (index0 tr onset : K) * tr.delta + (k : K) * tr.delta) = x at h ⊢
  cases h1 : interpAll find x (t0.map fun x => -x) (t1.map fun x => -x) (some 0) (some 0) with
  | error e => simp [h1] at h
  | ok newt =>
    obtain ⟨p1, p2, p3⟩ := interpAll_ok _ _ _ _ _ _ _ h1
    simp only [h1] at h
    have hnn : ((newt.map fun x => -x).map fun x => -x) = newt := by
      rw [List.map_map]; simp [Function.comp_def]
    rw [hnn] at h
    cases h2 : interpAll find x newt (sliceTo tr.data (index0 tr onset)).reverse (some 0) (some 0) with
    | error e => simp [h2] at h
    | ok data =>
      obtain ⟨q1, q2, q3⟩ := interpAll_ok _ _ _ _ _ _ _ h2
      simp only [h2, Except.ok.injEq] at h
      subst p3
      refine ⟨by simpa using p1, by simpa using p2, by simpa using q1, q2, ?_⟩
      rw [← h, q3]

/-- **C34.** The number of samples is kept; for S multiples the samples from the onset sample on, for all other
phases the samples before the onset sample are unchanged. -/
theorem C34_length_and_prefix (find : List K → K → Nat) (tr : Trace K) (onset : K) (phase : Str)
    (t0 t1 d : List K) (hsr : 0 < tr.sr) (h0 : tr.start ≤ onset) (h1 : onset ≤ tr.endtime)
    (h : moveoutData find tr onset phase t0 t1 = .ok d) :
    d.length = tr.data.length ∧
    (isSMultiple phase = false → ∀ i : Nat, (i : K) ≤ (onset - tr.start) * tr.sr - 1 →
      d[i]? = tr.data[i]?) ∧
    (isSMultiple phase = true → ∀ i : Nat, (onset - tr.start) * tr.sr ≤ (i : K) →
      d[i]? = tr.data[i]?) := by
  obtain ⟨b0, b1, b2⟩ := index0_bounds tr onset hsr h0 h1
  have hle : index0 tr onset ≤ (tr.data.length : Int) := by
    by_cases hn : tr.npts = 0
    · rw [b2 hn]; omega
    · have := b1 hn; unfold Trace.npts at this; omega
  unfold moveoutData at h
  cases hS : isSMultiple phase with
  | true =>
    rw [hS, if_pos rfl] at h
    obtain ⟨p1, p2, p3, p4, rfl⟩ := moveoutS_ok find tr onset t0 t1 d h
    have hc := clampIdx_le b0 hle
    refine ⟨?_, by simp, ?_⟩
    · simp only [List.length_append, List.length_reverse, List.length_map, List.length_range,
        sliceFrom, hc, List.length_drop]
      omega
    · intro _ i hi
      have hi' : index0 tr onset ≤ (i : Int) := by
        unfold index0
        have : ⌊(onset - tr.start) * tr.sr⌋ ≤ ⌊(i : K)⌋ := Int.floor_mono hi
        simpa using this
      rw [List.getElem?_append_right (by simp; omega)]
      simp only [List.length_reverse, List.length_map, List.length_range, sliceFrom, hc,
        List.getElem?_drop]
      congr 1; omega
  | false =>
    rw [hS, if_neg (by simp)] at h
    obtain ⟨a, b, ha, hb, p1, p2, p3, p4, rfl⟩ := moveoutP_ok find tr onset t0 t1 d h
    simp only at p3 p4 ⊢
    have hi0 : index0 tr onset ≤ (if a > b then index0 tr onset + 1 else index0 tr onset) := by
      split <;> omega
    have hpos : tr.npts ≠ 0 := by
      intro hn; apply p4; simp [hn]
    have hle' : (if a > b then index0 tr onset + 1 else index0 tr onset) ≤ (tr.data.length : Int) := by
      have := b1 hpos
      unfold Trace.npts at this
      split <;> omega
    have hc := clampIdx_le (by omega) hle'
    generalize (if a > b then index0 tr onset + 1 else index0 tr onset) = i0 at *
    refine ⟨?_, ?_, by simp⟩
    · simp only [List.length_append, List.length_map, List.length_range, sliceTo, hc,
        List.length_take, Trace.npts]
      omega
    · intro _ i hi
      have hi' : (i : Int) + 1 ≤ index0 tr onset := by
        unfold index0
        rw [Int.le_floor]; push_cast; linarith
      rw [List.getElem?_append_left (by simp [sliceTo, hc]; omega)]
      simp only [sliceTo, hc]
      rw [List.getElem?_take, if_pos (by omega)]

/-- **C35.** No sample of the result exceeds a bound of the absolute values of the input; no
assumption on the tables. -/
theorem C35_amplitudes (find : List K → K → Nat) (hf : FindSpec find) (tr : Trace K) (onset : K)
    (phase : Str) (t0 t1 d : List K) (h : moveoutData find tr onset phase t0 t1 = .ok d)
    (M : K) (hM : 0 ≤ M) (hd : ∀ y ∈ tr.data, |y| ≤ M) : ∀ y ∈ d, |y| ≤ M := by
  have hto : ∀ i, ∀ y ∈ sliceTo tr.data i, |y| ≤ M := fun i y hy => hd y (List.mem_of_mem_take hy)
  have hfrom : ∀ i, ∀ y ∈ sliceFrom tr.data i, |y| ≤ M := fun i y hy => hd y (List.mem_of_mem_drop hy)
  unfold moveoutData at h
  split at h
  · obtain ⟨p1, p2, p3, p4, rfl⟩ := moveoutS_ok find tr onset t0 t1 d h
    intro y hy
    rcases List.mem_append.1 hy with hy | hy
    · rw [List.mem_reverse, List.mem_map] at hy
      obtain ⟨x, _, rfl⟩ := hy
      rw [abs_le]
      refine interp1_mem find hf _ _ _ _ _ _ _ (by simpa using p3) p4 ?_ ?_ ?_
      · intro y hy; rw [List.mem_reverse] at hy; exact abs_le.1 (hto _ y hy)
      · intro y hy; simp only [Option.some.injEq] at hy; subst hy; exact ⟨by linarith, hM⟩
      · intro y hy; simp only [Option.some.injEq] at hy; subst hy; exact ⟨by linarith, hM⟩
    · exact hfrom _ y hy
  · obtain ⟨a, b, ha, hb, p1, p2, p3, p4, rfl⟩ := moveoutP_ok find tr onset t0 t1 d h
    intro y hy
    rcases List.mem_append.1 hy with hy | hy
    · exact hto _ y hy
    · rw [List.mem_map] at hy
      obtain ⟨x, _, rfl⟩ := hy
      rw [abs_le]
      refine interp1_mem find hf _ _ _ _ _ _ _ p3 p4 ?_ (by simp) ?_
      · intro y hy; exact abs_le.1 (hfrom _ y hy)
      · intro y hy; simp only [Option.some.injEq] at hy; subst hy; exact ⟨by linarith, hM⟩

/-- Trace used in examples: 1 Hz, nine samples, onset at sample 3. -/
def exTrace : Trace ℚ :=
  ⟨[], [], [], ['Q'], 0, 1, [1, 2, 3, 4, 5, 6, 7, 8, 9], [("onset", .time 3), ("slowness", .num 6)]⟩

/-- C34, C35 apply: compressing a P receiver function, stretching an S multiple. -/
example : moveoutData npFind exTrace 3 "Ps".toList [-2, 0, 2, 4, 6] [-1, 0, 1, 2, 3]
    = .ok [1, 2, 3, 4, 6, 8, 0, 0, 0] := by decide +kernel

example : moveoutData npFind exTrace 6 "Sspp".toList [1, 0, -1, -2, -3, -4, -5, -6, -7]
    [2, 0, -2, -4, -6, -8, -10, -12, -14]
    = .ok [7 / 2, 4, 9 / 2, 5, 11 / 2, 6, 7, 8, 9] := by decide +kernel

end moveout
end Verif.Props
