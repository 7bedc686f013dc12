import Verif.Props.Profile
import Mathlib.Analysis.SpecialFunctions.Trigonometric.Basic
import Mathlib.Tactic.Linarith
import Mathlib.Tactic.FieldSimp
import Mathlib.Tactic.LinearCombination

/-!
# Boxes of a profile (C53, C54) and order of the profile (C52)
-/

set_option linter.unusedSimpArgs false
set_option linter.unusedSectionVars false

namespace Verif.Props
open Verif.Py Verif.Model.Profile Verif.Spec

section boxes
variable {K : Type} [Field K] [LinearOrder K] [IsStrictOrderedRing K] [FloorRing K]
  (geo : K × K → K → K → K × K) (latlon0 : K × K) (azimuth width : K)

theorem boxLoop_get (bins : List K) (i : Nat) (hi : i + 1 < bins.length) :
    (boxLoop geo latlon0 azimuth width bins)[i]? = some (getBox geo latlon0 azimuth
      (bins[i + 1] - bins[i]) width bins[i]) := by
  induction bins generalizing i with
  | nil => simp at hi
  | cons a bins ih =>
    cases bins with
    | nil => simp at hi
    | cons b rest =>
      unfold boxLoop
      cases i with
      | zero => rfl
      | succ i => exact ih i (by simpa using hi)

theorem boxLoop_length (bins : List K) :
    (boxLoop geo latlon0 azimuth width bins).length = bins.length - 1 := by
  induction bins with
  | nil => rfl
  | cons a bins ih =>
    cases bins with
    | nil => rfl
    | cons b rest =>
      unfold boxLoop
      rw [List.length_cons, ih]
      simp

/-- The boxes of a profile, the profile dictionary apart, are those of the loop. -/
theorem profileBoxes_get (bins : List K) (i : Nat) (hi : i + 1 < bins.length) :
    (getProfileBoxes geo latlon0 azimuth bins width)[i]? = some
      { getBox geo latlon0 azimuth (bins[i + 1] - bins[i]) width bins[i] with
        profile := if i = 0 then some ⟨latlon0, azimuth, bins.getLast?.getD 0 - bins.head?.getD 0, width⟩
          else none } := by
  have hg := boxLoop_get geo latlon0 azimuth width bins i hi
  unfold getProfileBoxes
  cases hb : boxLoop geo latlon0 azimuth width bins with
  | nil => rw [hb] at hg; simp at hg
  | cons b bs =>
    rw [hb] at hg
    cases i with
    | zero =>
      simp only [List.getElem?_cons_zero, Option.some.injEq] at hg ⊢
      rw [hg]
      rfl
    | succ i =>
      simp only [List.getElem?_cons_succ] at hg ⊢
      rw [hg]
      rfl

theorem profileBoxes_length (bins : List K) :
    (getProfileBoxes geo latlon0 azimuth bins width).length = bins.length - 1 := by
  rw [← boxLoop_length geo latlon0 azimuth width bins]
  unfold getProfileBoxes
  split
  · rename_i h; rw [h]
  · rename_i b bs h; rw [h]; rfl

/-- C53.  One box per pair of neighbouring bin edges: number, position, length; the profile dictionary is
in the first box only. -/
theorem C53_boxes (bins : List K) :
    (getProfileBoxes geo latlon0 azimuth bins width).length = bins.length - 1 ∧
    ∀ (i : Nat) (hi : i + 1 < bins.length),
      ∃ box, (getProfileBoxes geo latlon0 azimuth bins width)[i]? = some box ∧
        box.pos = (bins[i] + bins[i + 1]) / 2 ∧ box.length = bins[i + 1] - bins[i] ∧
        (box.profile.isSome ↔ i = 0) := by
  refine ⟨profileBoxes_length geo latlon0 azimuth width bins, fun i hi => ⟨_, profileBoxes_get geo latlon0 azimuth width bins i hi,
    ?_, rfl, ?_⟩⟩
  · show bins[i] + (bins[i + 1] - bins[i]) / 2 = _
    ring
  · by_cases h0 : i = 0 <;> simp [h0]

theorem profileBoxes_map {β : Type} (f : Box K → β) (g : K → K → β)
    (hfg : ∀ a b, ∀ p, f { getBox geo latlon0 azimuth (b - a) width a with profile := p } = g a b)
    (bins : List K) : (getProfileBoxes geo latlon0 azimuth bins width).map f
      = List.zipWith g bins bins.tail := by
  apply List.ext_getElem?
  intro i
  rw [List.getElem?_map]
  by_cases hi : i + 1 < bins.length
  · rw [profileBoxes_get geo latlon0 azimuth width bins i hi, List.getElem?_zipWith,
      List.getElem?_eq_getElem (by omega), List.getElem?_tail, List.getElem?_eq_getElem hi]
    simp [hfg]
  · rw [List.getElem?_eq_none (by rw [profileBoxes_length]; omega), Option.map_none,
      List.getElem?_eq_none (by simp; omega)]

/-- C53.  For increasing bin edges the positions increase. -/
theorem C53_increasing (bins : List K) (hinc : bins.Pairwise (· < ·)) :
    ((getProfileBoxes geo latlon0 azimuth bins width).map Box.pos).Pairwise (· < ·) := by
  rw [profileBoxes_map geo latlon0 azimuth width Box.pos (fun a b => a + (b - a) / 2) (fun _ _ _ => rfl)]
  rw [List.pairwise_iff_getElem] at hinc ⊢
  intro i j hi hj hij
  simp only [List.length_zipWith, List.length_tail] at hi hj
  simp only [List.getElem_zipWith, List.getElem_tail]
  have h1 := hinc i j (by omega) (by omega) hij
  have h2 := hinc (i + 1) (j + 1) (by omega) (by omega) (by omega)
  linarith

/-- C53.  The lengths of the boxes add up to the recorded length of the profile. -/
theorem C53_total_length (bins : List K) (h2 : 2 ≤ bins.length) :
    ∃ b0 bs pr, getProfileBoxes geo latlon0 azimuth bins width = b0 :: bs ∧ b0.profile = some pr ∧
      pr.length = ((getProfileBoxes geo latlon0 azimuth bins width).map Box.length).sum ∧
      pr.length = bins.getLast?.getD 0 - bins.head?.getD 0 ∧ pr.latlon = latlon0 ∧
      pr.azimuth = azimuth ∧ pr.width = width := by
  have hsum : ∀ l : List K, 1 ≤ l.length → (List.zipWith (fun a b => b - a) l l.tail).sum
      = l.getLast?.getD 0 - l.head?.getD 0 := by
    intro l
    induction l with
    | nil => simp
    | cons a l ih =>
      intro _
      cases l with
      | nil => simp
      | cons b l =>
        have := ih (by simp)
        simp only [List.tail_cons, List.head?_cons, Option.getD_some] at this
        simp only [List.tail_cons, List.zipWith_cons_cons, List.sum_cons, List.head?_cons, Option.getD_some,
          List.getLast?_cons_cons]
        rw [this]
        ring
  have h0 := profileBoxes_get geo latlon0 azimuth width bins 0 (by omega)
  have hm := profileBoxes_map geo latlon0 azimuth width Box.length (fun a b => b - a) (fun _ _ _ => rfl) bins
  cases hb : getProfileBoxes geo latlon0 azimuth bins width with
  | nil => rw [hb] at h0; simp at h0
  | cons b0 bs =>
    rw [hb] at h0
    simp only [List.getElem?_cons_zero, Option.some.injEq] at h0
    refine ⟨b0, bs, ⟨latlon0, azimuth, bins.getLast?.getD 0 - bins.head?.getD 0, width⟩, rfl, ?_, ?_, rfl,
      rfl, rfl, rfl⟩
    · rw [h0]; rfl
    · rw [← hb, hm, hsum bins (by omega)]

end boxes

section plane
open Real

/-- `direct_geodetic` on a flat earth; azimuth in degrees from north over east. -/
noncomputable def planeGeo (p : ℝ × ℝ) (azimuth d : ℝ) : ℝ × ℝ :=
  (p.1 + d * cos (azimuth * (π / 180)), p.2 + d * sin (azimuth * (π / 180)))

/-- Distance along the profile. -/
noncomputable def along (latlon0 : ℝ × ℝ) (azimuth : ℝ) (p : ℝ × ℝ) : ℝ :=
  (p.1 - latlon0.1) * cos (azimuth * (π / 180)) + (p.2 - latlon0.2) * sin (azimuth * (π / 180))

/-- Distance from the profile, positive to the right. -/
noncomputable def across (latlon0 : ℝ × ℝ) (azimuth : ℝ) (p : ℝ × ℝ) : ℝ :=
  (p.2 - latlon0.2) * cos (azimuth * (π / 180)) - (p.1 - latlon0.1) * sin (azimuth * (π / 180))

theorem cos_pyMod (x : ℝ) : cos (pyMod x 360 * (π / 180)) = cos (x * (π / 180)) := by
  unfold pyMod
  rw [← Real.cos_sub_int_mul_two_pi (x * (π / 180)) ⌊x / 360⌋]
  congr 1
  ring

theorem sin_pyMod (x : ℝ) : sin (pyMod x 360 * (π / 180)) = sin (x * (π / 180)) := by
  unfold pyMod
  rw [← Real.sin_sub_int_mul_two_pi (x * (π / 180)) ⌊x / 360⌋]
  congr 1
  ring

/-- Interior of a box on the flat earth. -/
theorem inside_box (latlon0 : ℝ × ℝ) (azimuth length width offset : ℝ) (hl : 0 < length) (hw : 0 < width)
    (p : ℝ × ℝ) :
    insideConvex (p.2, p.1) (getBox planeGeo latlon0 azimuth length width offset).poly ↔
      offset < along latlon0 azimuth p ∧ along latlon0 azimuth p < offset + length ∧
      |across latlon0 azimuth p| < width / 2 := by
  have e1 : (azimuth - 90) * (π / 180) = azimuth * (π / 180) - π / 2 := by ring
  have e2 : (azimuth + 90) * (π / 180) = azimuth * (π / 180) + π / 2 := by ring
  have e3 : (azimuth + 180) * (π / 180) = azimuth * (π / 180) + π := by ring
  simp only [getBox, boxCorners, planeGeo, cos_pyMod, sin_pyMod, e1, e2, e3, cos_sub_pi_div_two,
    sin_sub_pi_div_two, cos_add_pi_div_two, sin_add_pi_div_two, cos_add_pi, sin_add_pi]
  unfold insideConvex along across
  have hsc := Real.sin_sq_add_cos_sq (azimuth * (π / 180))
  generalize sin (azimuth * (π / 180)) = s at hsc
  generalize cos (azimuth * (π / 180)) = c at hsc
  obtain ⟨p1, p2⟩ := p
  obtain ⟨a, b⟩ := latlon0
  simp only [List.tail_cons, List.take_succ_cons, List.take_zero, List.cons_append, List.nil_append,
    List.zip_cons_cons, List.zip_nil_right, List.zip_nil_left, List.mem_cons, List.not_mem_nil, or_false, forall_eq_or_imp,
    forall_eq]
  set x := (p1 - a) * c + (p2 - b) * s with hx
  set y := (p2 - b) * c - (p1 - a) * s with hy
  have s1 : (b + offset * s + width / 2 * -c + length * s - (b + offset * s + width / 2 * -c)) *
      (p1 - (a + offset * c + width / 2 * s)) -
      (a + offset * c + width / 2 * s + length * c - (a + offset * c + width / 2 * s)) *
      (p2 - (b + offset * s + width / 2 * -c)) = -(length * (y + width / 2)) := by
    rw [hy]; linear_combination (-length * width / 2) * hsc
  have s2 : (b + offset * s + width / 2 * -c + length * s + width * c -
      (b + offset * s + width / 2 * -c + length * s)) *
      (p1 - (a + offset * c + width / 2 * s + length * c)) -
      (a + offset * c + width / 2 * s + length * c + width * -s -
        (a + offset * c + width / 2 * s + length * c)) *
      (p2 - (b + offset * s + width / 2 * -c + length * s)) = width * (x - (offset + length)) := by
    rw [hx]; linear_combination (-width * (offset + length)) * hsc
  have s3 : (b + offset * s + width / 2 * -c + length * s + width * c + length * -s -
      (b + offset * s + width / 2 * -c + length * s + width * c)) *
      (p1 - (a + offset * c + width / 2 * s + length * c + width * -s)) -
      (a + offset * c + width / 2 * s + length * c + width * -s + length * -c -
        (a + offset * c + width / 2 * s + length * c + width * -s)) *
      (p2 - (b + offset * s + width / 2 * -c + length * s + width * c)) = length * (y - width / 2) := by
    rw [hy]; linear_combination (-length * width / 2) * hsc
  have s4 : (b + offset * s + width / 2 * -c -
      (b + offset * s + width / 2 * -c + length * s + width * c + length * -s)) *
      (p1 - (a + offset * c + width / 2 * s + length * c + width * -s + length * -c)) -
      (a + offset * c + width / 2 * s -
        (a + offset * c + width / 2 * s + length * c + width * -s + length * -c)) *
      (p2 - (b + offset * s + width / 2 * -c + length * s + width * c + length * -s))
      = -(width * (x - offset)) := by
    rw [hx]; linear_combination (width * offset) * hsc
  rw [s1, s2, s3, s4, abs_lt]
  constructor
  · rintro (⟨-, h2, -, h4⟩ | ⟨h1, h2, h3, h4⟩)
    · have h2' := pos_of_mul_pos_of_pos_left h2 hw.le
      have h4' : x - offset < 0 := by
        by_contra hc
        have := mul_nonneg hw.le (not_lt.1 hc)
        linarith
      linarith
    · have h1' : 0 < y + width / 2 := pos_of_mul_pos_of_pos_left (by linarith) hl.le
      have h4' : 0 < x - offset := pos_of_mul_pos_of_pos_left (by linarith) hw.le
      have h2' : 0 < offset + length - x := pos_of_mul_pos_of_pos_left (by linarith) hw.le
      have h3' : 0 < width / 2 - y := pos_of_mul_pos_of_pos_left (by linarith) hl.le
      refine ⟨by linarith, by linarith, by linarith, by linarith⟩
  · rintro ⟨h1, h2, h3, h4⟩
    right
    have a1 := mul_pos hl (show 0 < y + width / 2 by linarith)
    have a2 := mul_pos hw (show 0 < offset + length - x by linarith)
    have a3 := mul_pos hl (show 0 < width / 2 - y by linarith)
    have a4 := mul_pos hw (show 0 < x - offset by linarith)
    refine ⟨by linarith, by linarith, by linarith, by linarith⟩
where
  pos_of_mul_pos_of_pos_left {a b : ℝ} (h : 0 < a * b) (ha : 0 ≤ a) : 0 < b := by
    by_contra hc
    have := mul_nonpos_of_nonneg_of_nonpos ha (not_lt.1 hc)
    linarith

open Classical in
/-- The test `Point.within(Polygon)` on the flat earth. -/
noncomputable def planeWithin (p : ℝ × ℝ) (corners : List (ℝ × ℝ)) : Bool :=
  decide (insideConvex (p.2, p.1) corners)

theorem planeWithin_true (p : ℝ × ℝ) (corners : List (ℝ × ℝ)) :
    planeWithin p corners = true ↔ insideConvex (p.2, p.1) corners := by
  unfold planeWithin
  simp

theorem planeWithin_iff (latlon0 : ℝ × ℝ) (azimuth width : ℝ) (hw : 0 < width) (bins : List ℝ)
    (hinc : bins.Pairwise (· < ·)) (p : ℝ × ℝ) (i : Nat) (hi : i + 1 < bins.length) (box : Box ℝ)
    (hbox : (getProfileBoxes planeGeo latlon0 azimuth bins width)[i]? = some box) :
    planeWithin p box.poly = true ↔ bins[i] < along latlon0 azimuth p ∧
      along latlon0 azimuth p < bins[i + 1] ∧ |across latlon0 azimuth p| < width / 2 := by
  rw [profileBoxes_get planeGeo latlon0 azimuth width bins i hi] at hbox
  simp only [Option.some.injEq] at hbox
  subst hbox
  rw [planeWithin_true]
  have hlt : bins[i] < bins[i + 1] := (List.pairwise_iff_getElem.1 hinc) i (i + 1) (by omega) hi (by omega)
  have := inside_box latlon0 azimuth (bins[i + 1] - bins[i]) width bins[i] (by linarith) hw p
  rw [add_sub_cancel] at this
  exact this

/-- C54.  On a flat earth a point between two neighbouring bin edges, closer to the profile than
half the width, is inside the box of these edges and of no other, and this is the box found. -/
theorem C54_inside (latlon0 : ℝ × ℝ) (azimuth width : ℝ) (hw : 0 < width) (bins : List ℝ)
    (hinc : bins.Pairwise (· < ·)) (p : ℝ × ℝ) (i : Nat) (hi : i + 1 < bins.length)
    (h1 : bins[i] < along latlon0 azimuth p) (h2 : along latlon0 azimuth p < bins[i + 1])
    (h3 : |across latlon0 azimuth p| < width / 2) :
    (∀ j box, (getProfileBoxes planeGeo latlon0 azimuth bins width)[j]? = some box →
      (insideConvex (p.2, p.1) box.poly ↔ j = i)) ∧
    ∀ crs, ∃ box, findBox planeWithin (getProfileBoxes planeGeo latlon0 azimuth bins width) crs p
      = .ok (some box) ∧ box.pos = (bins[i] + bins[i + 1]) / 2 := by
  have hlen := profileBoxes_length planeGeo latlon0 azimuth width bins
  have hmain : ∀ j box, (getProfileBoxes planeGeo latlon0 azimuth bins width)[j]? = some box →
      (insideConvex (p.2, p.1) box.poly ↔ j = i) := by
    intro j box hb
    have hj : j + 1 < bins.length := by
      have := (List.getElem?_eq_some_iff.1 hb).1
      omega
    have := planeWithin_iff latlon0 azimuth width hw bins hinc p j hj box hb
    rw [planeWithin_true] at this
    rw [this]
    constructor
    · rintro ⟨a1, a2, -⟩
      by_contra hne
      rcases Nat.lt_or_gt_of_ne hne with hlt | hgt
      · have : bins[j + 1] ≤ bins[i] := by
          rcases Nat.eq_or_lt_of_le (show j + 1 ≤ i by omega) with e | e
          · simp [e]
          · exact le_of_lt ((List.pairwise_iff_getElem.1 hinc) (j + 1) i hj (by omega) e)
        linarith
      · have : bins[i + 1] ≤ bins[j] := by
          rcases Nat.eq_or_lt_of_le (show i + 1 ≤ j by omega) with e | e
          · simp [e]
          · exact le_of_lt ((List.pairwise_iff_getElem.1 hinc) (i + 1) j hi (by omega) e)
        linarith
    · rintro rfl
      exact ⟨h1, h2, h3⟩
  refine ⟨hmain, fun crs => ?_⟩
  obtain ⟨box, hbox, hpos, -⟩ := (C53_boxes planeGeo latlon0 azimuth width bins).2 i hi
  refine ⟨box, ?_, hpos⟩
  unfold findBox
  rw [if_neg (by
    rintro ⟨-, hnil⟩
    rw [hnil] at hbox
    simp at hbox)]
  congr 1
  obtain ⟨hlt, hget⟩ := List.getElem?_eq_some_iff.1 hbox
  rw [List.find?_eq_some_iff_getElem]
  refine ⟨?_, i, hlt, hget, fun j hj => ?_⟩
  · rw [planeWithin_true]; exact (hmain i box hbox).2 rfl
  · have := hmain j _ (List.getElem?_eq_getElem (by omega))
    simp only [Bool.not_eq_true', Bool.eq_false_iff, ne_eq, planeWithin_true]
    rw [this]
    omega

/-- C54.  A point before the first or after the last edge, or farther from the profile than
half the width, is in no box. -/
theorem C54_outside (latlon0 : ℝ × ℝ) (azimuth width : ℝ) (hw : 0 < width) (bins : List ℝ)
    (hinc : bins.Pairwise (· < ·)) (p : ℝ × ℝ)
    (hout : (∀ b ∈ bins, along latlon0 azimuth p ≤ b) ∨ (∀ b ∈ bins, b ≤ along latlon0 azimuth p) ∨
      width / 2 ≤ |across latlon0 azimuth p|) :
    (∀ box ∈ getProfileBoxes planeGeo latlon0 azimuth bins width, ¬ insideConvex (p.2, p.1) box.poly) ∧
    findBox planeWithin (getProfileBoxes planeGeo latlon0 azimuth bins width) true p = .ok none := by
  have hlen := profileBoxes_length planeGeo latlon0 azimuth width bins
  have hmain : ∀ box ∈ getProfileBoxes planeGeo latlon0 azimuth bins width,
      ¬ insideConvex (p.2, p.1) box.poly := by
    intro box hb hin
    obtain ⟨j, hj⟩ := List.getElem?_of_mem hb
    have hj' : j + 1 < bins.length := by
      have := (List.getElem?_eq_some_iff.1 hj).1
      omega
    have := planeWithin_iff latlon0 azimuth width hw bins hinc p j hj' box hj
    rw [planeWithin_true] at this
    obtain ⟨a1, a2, a3⟩ := this.1 hin
    rcases hout with h | h | h
    · have := h bins[j] (List.getElem_mem _); linarith
    · have := h bins[j + 1] (List.getElem_mem _); linarith
    · linarith
  refine ⟨hmain, ?_⟩
  unfold findBox
  rw [if_neg (by simp)]
  congr 1
  rw [List.find?_eq_none]
  intro x hx
  rw [planeWithin_true]
  exact hmain x hx

/-- The hypotheses of `C54_inside` can be met: profile to the north, bins 0, 10, 20. -/
example : ∃ (bins : List ℝ) (p : ℝ × ℝ) (hi : 1 + 1 < bins.length), bins.Pairwise (· < ·) ∧
    bins[1] < along (0, 0) 0 p ∧ along (0, 0) 0 p < bins[1 + 1] ∧ |across (0, 0) 0 p| < (4 : ℝ) / 2 := by
  refine ⟨[0, 10, 20], (15, 1), by simp, by norm_num, ?_, ?_, ?_⟩ <;>
    norm_num [along, across]

end plane

section order
variable {K : Type} [Field K] [LinearOrder K]
  (within : K × K → List (K × K) → Bool) (boxes : List (Box K)) (crs : Bool)

theorem pair_sublist_or {l : List Nat} {a b : Nat} (ha : a ∈ l) (hb : b ∈ l) (hne : a ≠ b) :
    List.Sublist [a, b] l ∨ List.Sublist [b, a] l := by
  induction l with
  | nil => simp at ha
  | cons x l ih =>
    rcases List.mem_cons.1 ha with rfl | ha'
    · left
      rcases List.mem_cons.1 hb with rfl | hb'
      · exact absurd rfl hne
      · exact List.Sublist.cons_cons _ (List.singleton_sublist.2 hb')
    · rcases List.mem_cons.1 hb with rfl | hb'
      · right
        exact List.Sublist.cons_cons _ (List.singleton_sublist.2 ha')
      · rcases ih ha' hb' with h | h
        · exact .inl (h.cons _)
        · exact .inr (h.cons _)

theorem pairwise_of_sublists {l : List Nat} {R : Nat → Nat → Prop}
    (h : ∀ a b, List.Sublist [a, b] l → R a b) : l.Pairwise R := by
  induction l with
  | nil => exact List.Pairwise.nil
  | cons x l ih =>
    rw [List.pairwise_cons]
    refine ⟨fun b hb => h x b (List.Sublist.cons_cons _ (List.singleton_sublist.2 hb)),
      ih (fun a b hab => h a b (hab.cons _))⟩

theorem sublist_pair_pairwise {l : List Nat} {R : Nat → Nat → Prop} (hl : l.Pairwise R) {a b : Nat}
    (h : List.Sublist [a, b] l) : R a b := by
  have := hl.sublist h
  simpa using this

/-- ObsPy's sort by channel and box position: sorted by channel, for equal channels by position. -/
theorem sortProfile_sorted (h : Heap K) (l : List Nat) (hn : l.Nodup) :
    (sortProfile h l).Pairwise fun a b => (h a).cha < (h b).cha ∨ (h a).cha = (h b).cha ∧
      ((h a).getNum "box_pos").getD 0 ≤ ((h b).getNum "box_pos").getD 0 := by
  unfold sortProfile
  set l1 := l.insertionSort
    (fun a b => ((h a).getNum "box_pos").getD 0 ≤ ((h b).getNum "box_pos").getD 0) with hl1
  set l2 := l1.insertionSort (fun a b => (h a).cha ≤ (h b).cha) with hl2
  have hp1 : l1.Perm l := List.perm_insertionSort _ _
  have hp2 : l2.Perm l1 := List.perm_insertionSort _ _
  have hn2 : l2.Nodup := (hp2.trans hp1).nodup_iff.2 hn
  have : Std.Total (fun a b : Nat => (h a).cha ≤ (h b).cha) := ⟨fun a b => le_total _ _⟩
  have : IsTrans Nat (fun a b => (h a).cha ≤ (h b).cha) := ⟨fun a b c => le_trans⟩
  have : Std.Total (fun a b : Nat => ((h a).getNum "box_pos").getD 0 ≤ ((h b).getNum "box_pos").getD 0) :=
    ⟨fun a b => le_total _ _⟩
  have : IsTrans Nat (fun a b => ((h a).getNum "box_pos").getD 0 ≤ ((h b).getNum "box_pos").getD 0) :=
    ⟨fun a b c => le_trans⟩
  have hs1 := List.pairwise_insertionSort
    (fun a b : Nat => ((h a).getNum "box_pos").getD 0 ≤ ((h b).getNum "box_pos").getD 0) l
  have hs2 := List.pairwise_insertionSort (fun a b : Nat => (h a).cha ≤ (h b).cha) l1
  rw [← hl1] at hs1
  rw [← hl2] at hs2
  apply pairwise_of_sublists
  intro a b hab
  have hle : (h a).cha ≤ (h b).cha := sublist_pair_pairwise hs2 hab
  rcases lt_or_eq_of_le hle with hlt | heq
  · exact .inl hlt
  · right
    refine ⟨heq, ?_⟩
    have hne : a ≠ b := by
      have := hn2.sublist hab
      simpa using this
    have ha : a ∈ l1 := hp2.mem_iff.1 (hab.subset (by simp))
    have hb : b ∈ l1 := hp2.mem_iff.1 (hab.subset (by simp))
    rcases pair_sublist_or ha hb hne with h1 | h1
    · exact sublist_pair_pairwise hs1 h1
    · exfalso
      have h2 : List.Sublist [b, a] l2 := List.pair_sublist_insertionSort heq.ge h1
      -- a before b and b before a in a list without duplicates
      have hidx : ∀ {x y : Nat}, List.Sublist [x, y] l2 → l2.idxOf x < l2.idxOf y := by
        intro x y hxy
        have hpw : l2.Pairwise (fun u v => l2.idxOf u < l2.idxOf v) := by
          rw [List.pairwise_iff_getElem]
          intro i j hi hj hij
          rw [hn2.idxOf_getElem, hn2.idxOf_getElem]
          exact hij
        exact sublist_pair_pairwise hpw hxy
      have := hidx hab
      have := hidx h2
      omega

/-- Channel and box position of a profile trace. -/
def binLabel (t : Trace K) : Str × Option K := (t.cha, t.getNum "box_pos")

/-- The stream returned by `profile` is sorted by channel, then by box position. -/
theorem profile_sorted (h h' : Heap K) (s l : List Nat) (next : Nat) (hs : ∀ r ∈ s, r < next)
    (hok : profile within boxes crs h s next = .ok (h', l)) :
    l.Pairwise fun a b => (h' a).cha < (h' b).cha ∨ (h' a).cha = (h' b).cha ∧
      ((h' a).getNum "box_pos").getD 0 ≤ ((h' b).getNum "box_pos").getD 0 := by
  have hnd := (profile_ok within boxes crs h h' s l next hs hok).1
  unfold profile at hok
  cases hl : loop within boxes crs ⟨h, [], next⟩ s with
  | error e => rw [hl] at hok; simp at hok
  | ok st =>
    rw [hl] at hok
    simp only [Except.ok.injEq, Prod.mk.injEq] at hok
    obtain ⟨hh', hll⟩ := hok
    have hn : (st.stack.map Prod.snd).Nodup := by
      rw [← hll] at hnd
      exact (sortProfile_perm _ _).nodup_iff.1 hnd
    have hsort := sortProfile_sorted (Heap.forEach divide st.heap (st.stack.map Prod.snd)) _ hn
    rw [hll] at hsort hh'
    have hcha : ∀ q, (h' q).cha = (Heap.forEach divide st.heap (st.stack.map Prod.snd) q).cha := by
      intro q; rw [← hh']
      exact Heap.forEach_inv Trace.cha (fun t => t.put "type" (.str "profile".toList)) (fun _ => rfl) _ _ _
    have hpos : ∀ q, (h' q).getNum "box_pos"
        = (Heap.forEach divide st.heap (st.stack.map Prod.snd) q).getNum "box_pos" := by
      intro q; rw [← hh']
      refine Heap.forEach_inv (fun t => t.getNum "box_pos") _ (fun t => ?_) _ _ _
      unfold Trace.getNum
      rw [tput_get, if_neg (by decide)]
    simpa only [hcha, hpos] using hsort

/-- C52.  The traces of the profile come in the same order, sorted by channel and box position, whatever
the order of the traces in the stream was. -/
theorem C52_result_order (h h1 h2 : Heap K) (s s' l l' : List Nat) (next next' : Nat)
    (hs : ∀ r ∈ s, r < next) (hs' : ∀ r ∈ s', r < next') (hp : s.Perm s')
    (hok : profile within boxes crs h s next = .ok (h1, l))
    (hok' : profile within boxes crs h s' next' = .ok (h2, l')) :
    l.map (fun q => binLabel (h1 q)) = l'.map (fun q => binLabel (h2 q)) := by
  -- strictly sorted lists with the same members
  let lt : Str × Option K → Str × Option K → Prop := fun a b => a.1 < b.1 ∨ a.1 = b.1 ∧ a.2.getD 0 < b.2.getD 0
  have hsorted : ∀ (s l : List Nat) (next : Nat) (h' : Heap K), (∀ r ∈ s, r < next) →
      profile within boxes crs h s next = .ok (h', l) →
      (l.map (fun q => binLabel (h' q))).Pairwise lt := by
    intro s l next h' hs hok
    obtain ⟨a1, a2, a3, key, a4, a5, a6⟩ := profile_ok within boxes crs h h' s l next hs hok
    have hsrt := profile_sorted within boxes crs h h' s l next hs hok
    rw [List.pairwise_map]
    refine (List.Pairwise.and hsrt a1).imp_of_mem ?_
    rintro a b ha hb ⟨hlt | ⟨heq, hle⟩, hne⟩
    · exact .inl hlt
    · refine .inr ⟨heq, lt_of_le_of_ne hle ?_⟩
      intro hpos
      apply hne
      apply a4 a ha b hb
      obtain ⟨b1, b2, -⟩ := a6 a ha
      obtain ⟨c1, c2, -⟩ := a6 b hb
      simp only [binLabel] at hpos
      rw [(getNum_eq _ _ _).2 b1, (getNum_eq _ _ _).2 c1] at hpos
      rw [b2, c2] at heq
      simp only [List.cons.injEq, and_true, true_and] at heq
      exact Prod.ext hpos heq
  have hmem : ∀ (s l : List Nat) (next : Nat) (h' : Heap K), (∀ r ∈ s, r < next) →
      profile within boxes crs h s next = .ok (h', l) → ∀ x, x ∈ l.map (fun q => binLabel (h' q)) ↔
        ∃ k : K × Char, (∃ r ∈ s, binOf (boxSets within boxes) (h r) = some k) ∧
          x = (['?', '?', k.2], some k.1) := by
    intro s l next h' hs hok x
    obtain ⟨a1, a2, a3, key, a4, a5, a6⟩ := profile_ok within boxes crs h h' s l next hs hok
    have hlab : ∀ q ∈ l, binLabel (h' q) = (['?', '?', (key q).2], some (key q).1) := by
      intro q hq
      obtain ⟨b1, b2, -⟩ := a6 q hq
      rw [binLabel, b2, (getNum_eq _ _ _).2 b1]
    constructor
    · intro hx
      obtain ⟨q, hq, rfl⟩ := List.mem_map.1 hx
      exact ⟨key q, (a5 _).1 ⟨q, hq, rfl⟩, hlab q hq⟩
    · rintro ⟨k, hk, rfl⟩
      obtain ⟨q, hq, rfl⟩ := (a5 k).2 hk
      exact List.mem_map.2 ⟨q, hq, hlab q hq⟩
  have p1 := hsorted s l next h1 hs hok
  have p2 := hsorted s' l' next' h2 hs' hok'
  have irr : ∀ a, ¬ lt a a := by
    rintro a (h | ⟨-, h⟩)
    · exact lt_irrefl _ h
    · exact lt_irrefl _ h
  have n1 : (l.map (fun q => binLabel (h1 q))).Nodup := p1.imp (fun {a b} hab => by
    rintro rfl; exact irr _ hab)
  have n2 : (l'.map (fun q => binLabel (h2 q))).Nodup := p2.imp (fun {a b} hab => by
    rintro rfl; exact irr _ hab)
  have hperm : (l.map (fun q => binLabel (h1 q))).Perm (l'.map (fun q => binLabel (h2 q))) := by
    rw [List.perm_ext_iff_of_nodup n1 n2]
    intro x
    rw [hmem s l next h1 hs hok, hmem s' l' next' h2 hs' hok']
    constructor
    · rintro ⟨k, ⟨r, hr, hk⟩, hx⟩; exact ⟨k, ⟨r, hp.mem_iff.1 hr, hk⟩, hx⟩
    · rintro ⟨k, ⟨r, hr, hk⟩, hx⟩; exact ⟨k, ⟨r, hp.mem_iff.2 hr, hk⟩, hx⟩
  refine hperm.eq_of_pairwise ?_ p1 p2
  intro a b _ _ hab hba
  exfalso
  rcases hab with h | ⟨e, h⟩ <;> rcases hba with h' | ⟨e', h'⟩
  · exact lt_irrefl _ (lt_trans h h')
  · rw [e'] at h; exact lt_irrefl _ h
  · rw [e] at h'; exact lt_irrefl _ h'
  · exact lt_irrefl _ (lt_trans h h')

end order

end Verif.Props
