import Verif.Spec.Sphere
import Verif.Props.ProfileBoxes
import Mathlib.Analysis.SpecialFunctions.Trigonometric.Bounds
import Mathlib.Analysis.SpecialFunctions.Trigonometric.Arctan
import Mathlib.Analysis.Real.Pi.Bounds

/-!
# Boxes of a profile on a spherical earth (C166)
-/

set_option linter.unusedSimpArgs false
set_option linter.unusedSectionVars false

namespace Verif.Props
open Verif.Py Verif.Model.Profile Verif.Spec Real

theorem rad_pos : 0 < rad := by unfold rad; positivity

theorem rad_180 : 180 * rad = π := by unfold rad; ring

/-- `sphereGeo` goes along a great circle: on the unit sphere the result is `cos σ` times the point plus `sin σ` times the
direction, with `σ` the distance as an angle. -/
theorem sphereGeo_great_circle (R : ℝ) (p : ℝ × ℝ) (hp : 0 < cos (p.1 * rad)) (azimuth d : ℝ)
    (hq : (sin (p.1 * rad) * cos (d / R) + cos (p.1 * rad) * sin (d / R) * cos (azimuth * rad)) ^ 2 < 1) :
    unitVector (sphereGeo R p azimuth d) =
      (cos (d / R) * (unitVector p).1 + sin (d / R) * (direction p azimuth).1,
        cos (d / R) * (unitVector p).2.1 + sin (d / R) * (direction p azimuth).2.1,
        cos (d / R) * (unitVector p).2.2 + sin (d / R) * (direction p azimuth).2.2) := by
  unfold unitVector direction sphereGeo
  simp only
  have hr := rad_pos.ne'
  set φ := p.1 * rad
  set α := azimuth * rad
  set σ := d / R
  set s := sin φ * cos σ + cos φ * sin σ * cos α with hs
  have h1 : -1 ≤ s := by nlinarith
  have h2 : s ≤ 1 := by nlinarith
  set z : ℂ := ⟨cos σ - sin φ * s, sin α * sin σ * cos φ⟩ with hz
  have e1 : arcsin s / rad * rad = arcsin s := div_mul_cancel₀ _ hr
  have e2 : (p.2 + Complex.arg z / rad) * rad = p.2 * rad + Complex.arg z := by field_simp
  rw [e1, e2, sin_arcsin h1 h2, cos_arcsin, cos_add, sin_add]
  have hn : ‖z‖ = cos φ * √(1 - s ^ 2) := by
    rw [Complex.norm_def, Complex.normSq_apply]
    have : z.re * z.re + z.im * z.im = (cos φ) ^ 2 * (1 - s ^ 2) := by
      simp only [hz]
      have a1 := sin_sq_add_cos_sq φ
      have a2 := sin_sq_add_cos_sq σ
      have a3 := sin_sq_add_cos_sq α
      rw [hs]
      have c1 : (sin φ) ^ 2 = 1 - (cos φ) ^ 2 := by linarith
      have c2 : (sin σ) ^ 2 = 1 - (cos σ) ^ 2 := by linarith
      have c3 : (sin α) ^ 2 = 1 - (cos α) ^ 2 := by linarith
      ring_nf
      simp only [c1, c2, c3, show sin φ ^ 4 = (sin φ ^ 2) ^ 2 by ring, show sin φ ^ 3 = sin φ * sin φ ^ 2 by ring]
      ring
    rw [this, Real.sqrt_mul (sq_nonneg _), Real.sqrt_sq hp.le]
  have hpos : 0 < √(1 - s ^ 2) := Real.sqrt_pos.2 (by linarith)
  have hz0 : z ≠ 0 := by
    rw [← norm_pos_iff, hn]
    positivity
  rw [Complex.cos_arg hz0, Complex.sin_arg, hn]
  have a1 := sin_sq_add_cos_sq φ
  have k1 : √(1 - s ^ 2) * (z.re / (cos φ * √(1 - s ^ 2))) = z.re / cos φ := by field_simp
  have k2 : √(1 - s ^ 2) * (z.im / (cos φ * √(1 - s ^ 2))) = z.im / cos φ := by field_simp
  have k3 : z.re / cos φ = cos φ * cos σ - sin φ * sin σ * cos α := by
    rw [div_eq_iff hp.ne']
    simp only [hz, hs]
    linear_combination (-cos σ) * a1
  have k4 : z.im / cos φ = sin α * sin σ := by
    rw [div_eq_iff hp.ne']
  refine Prod.ext ?_ (Prod.ext ?_ ?_)
  · simp only
    rw [mul_sub, show √(1 - s ^ 2) * (cos (p.2 * rad) * (z.re / (cos φ * √(1 - s ^ 2)))) =
      cos (p.2 * rad) * (√(1 - s ^ 2) * (z.re / (cos φ * √(1 - s ^ 2)))) by ring,
      show √(1 - s ^ 2) * (sin (p.2 * rad) * (z.im / (cos φ * √(1 - s ^ 2)))) =
      sin (p.2 * rad) * (√(1 - s ^ 2) * (z.im / (cos φ * √(1 - s ^ 2)))) by ring, k1, k2, k3, k4]
    ring
  · simp only
    rw [mul_add, show √(1 - s ^ 2) * (sin (p.2 * rad) * (z.re / (cos φ * √(1 - s ^ 2)))) =
      sin (p.2 * rad) * (√(1 - s ^ 2) * (z.re / (cos φ * √(1 - s ^ 2)))) by ring,
      show √(1 - s ^ 2) * (cos (p.2 * rad) * (z.im / (cos φ * √(1 - s ^ 2)))) =
      cos (p.2 * rad) * (√(1 - s ^ 2) * (z.im / (cos φ * √(1 - s ^ 2)))) by ring, k1, k2, k3, k4]
    ring
  · simp only
    rw [hs]
    ring

/-! ## A profile to the north -/

theorem az_270 : cos (pyMod (0 - 90) 360 * rad) = 0 := by
  unfold rad
  rw [cos_pyMod, show ((0 : ℝ) - 90) * (π / 180) = -(π / 2) by ring, cos_neg, cos_pi_div_two]

theorem az_90 : cos (pyMod (0 + 90) 360 * rad) = 0 := by
  unfold rad
  rw [cos_pyMod, show ((0 : ℝ) + 90) * (π / 180) = π / 2 by ring, cos_pi_div_two]

theorem az_180 : cos (pyMod (0 + 180) 360 * rad) = -1 := by
  unfold rad
  rw [cos_pyMod, show ((0 : ℝ) + 180) * (π / 180) = π by ring, cos_pi]

/-- Latitude after a step to the north. -/
theorem north_lat (R : ℝ) (p : ℝ × ℝ) (d : ℝ) (h1 : -(π / 2) ≤ p.1 * rad + d / R) (h2 : p.1 * rad + d / R ≤ π / 2) :
    (sphereGeo R p 0 d).1 * rad = p.1 * rad + d / R := by
  unfold sphereGeo
  simp only [zero_mul, cos_zero, mul_one]
  rw [div_mul_cancel₀ _ rad_pos.ne', ← sin_add, arcsin_sin h1 h2]

theorem turn_lat (R : ℝ) (p : ℝ × ℝ) (az d : ℝ) (h : cos (az * rad) = 0) :
    (sphereGeo R p az d).1 * rad = arcsin (sin (p.1 * rad) * cos (d / R)) := by
  unfold sphereGeo
  simp only [h, mul_zero, add_zero]
  rw [div_mul_cancel₀ _ rad_pos.ne']

theorem south_lat (R : ℝ) (p : ℝ × ℝ) (az d : ℝ) (h : cos (az * rad) = -1) :
    (sphereGeo R p az d).1 * rad = arcsin (sin (p.1 * rad) * cos (d / R) - cos (p.1 * rad) * sin (d / R)) := by
  unfold sphereGeo
  simp only [h]
  rw [div_mul_cancel₀ _ rad_pos.ne']
  congr 1
  ring

/-- On a profile to the north, on the northern hemisphere, the box of a bin lies south of the bin: if the box is not too
long, all its corners are at lower latitudes than every point of the profile in the bin. -/
theorem box_south (R : ℝ) (hR : 0 < R) (latlon0 : ℝ × ℝ) (length width offset x : ℝ) (hl : 0 ≤ length) (hw : 0 ≤ width)
    (hb : width / 2 / R ≤ π / 2) (h0 : 0 ≤ latlon0.1 * rad + offset / R)
    (hlen : length / R ≤ latlon0.1 * rad + offset / R)
    (hdisp : sin (latlon0.1 * rad + offset / R) * cos (width / 2 / R) ≤ sin (latlon0.1 * rad + offset / R - length / R))
    (hx : offset < x) (hx2 : latlon0.1 * rad + x / R ≤ π / 2) :
    ∀ c ∈ (getBox (sphereGeo R) latlon0 0 length width offset).poly, c.2 < (sphereGeo R latlon0 0 x).1 := by
  have hr := rad_pos
  have hxR : offset / R < x / R := by gcongr
  have hsx : latlon0.1 * rad + offset / R < π / 2 := by linarith
  have hp := north_lat R latlon0 x (by linarith [pi_pos]) hx2
  have hs := north_lat R latlon0 offset (by linarith [pi_pos]) (by linarith)
  set a := length / R with ha
  have ha0 : 0 ≤ a := by rw [ha]; positivity
  have hbn : 0 ≤ width / 2 / R := by positivity
  set s := latlon0.1 * rad + offset / R with hsdef
  -- first corner
  have h1 := turn_lat R (sphereGeo R latlon0 0 offset) (pyMod (0 - 90) 360) (width / 2) az_270
  rw [hs] at h1
  set P1 := sphereGeo R (sphereGeo R latlon0 0 offset) (pyMod (0 - 90) 360) (width / 2)
  have hsin : 0 ≤ sin s := sin_nonneg_of_nonneg_of_le_pi h0 (by linarith [pi_pos])
  have hcosb : 0 ≤ cos (width / 2 / R) := cos_nonneg_of_neg_pi_div_two_le_of_le (by linarith [pi_pos]) hb
  have hφ1 : 0 ≤ P1.1 * rad := by rw [h1]; exact arcsin_nonneg.2 (mul_nonneg hsin hcosb)
  have hφ1' : P1.1 * rad ≤ s - a := by
    rw [h1]
    have := monotone_arcsin hdisp
    rwa [arcsin_sin (by linarith [pi_pos]) (by linarith)] at this
  -- second corner
  have h2 := north_lat R P1 length (by rw [← ha]; linarith [pi_pos]) (by rw [← ha]; linarith)
  rw [← ha] at h2
  set P2 := sphereGeo R P1 0 length
  have hφ2 : 0 ≤ P2.1 * rad := by rw [h2]; linarith
  have hφ2' : P2.1 * rad ≤ s := by rw [h2]; linarith
  have hS : 0 ≤ sin (P2.1 * rad) := sin_nonneg_of_nonneg_of_le_pi hφ2 (by linarith [pi_pos])
  -- third corner
  have h3 := turn_lat R P2 (pyMod (0 + 90) 360) width az_90
  set P3 := sphereGeo R P2 (pyMod (0 + 90) 360) width
  have hφ3 : P3.1 * rad ≤ s := by
    rw [h3]
    refine le_trans (monotone_arcsin (mul_le_of_le_one_right hS (cos_le_one _))) ?_
    rw [arcsin_sin (by linarith [pi_pos]) (by linarith)]
    exact hφ2'
  have hφ3' : sin (P3.1 * rad) ≤ sin (P2.1 * rad) := by
    rw [h3]
    have e : -1 ≤ sin (P2.1 * rad) * cos (width / R) ∧ sin (P2.1 * rad) * cos (width / R) ≤ sin (P2.1 * rad) := by
      have c1 := neg_one_le_cos (width / R)
      have c2 := cos_le_one (width / R)
      have c3 := sin_le_one (P2.1 * rad)
      constructor <;> nlinarith
    rw [sin_arcsin e.1 (le_trans e.2 (sin_le_one _))]
    exact e.2
  have hc3 : 0 ≤ cos (P3.1 * rad) := by rw [h3, cos_arcsin]; positivity
  -- fourth corner
  have h4 := south_lat R P3 (pyMod (0 + 180) 360) length az_180
  rw [← ha] at h4
  set P4 := sphereGeo R P3 (pyMod (0 + 180) 360) length
  have hφ4 : P4.1 * rad ≤ s := by
    rw [h4]
    have hsa : 0 ≤ sin a := sin_nonneg_of_nonneg_of_le_pi ha0 (by linarith [pi_pos])
    have hca : 0 ≤ cos a := cos_nonneg_of_neg_pi_div_two_le_of_le (by linarith [pi_pos]) (by linarith)
    have e : sin (P3.1 * rad) * cos a - cos (P3.1 * rad) * sin a ≤ sin (P2.1 * rad) := by
      have := mul_nonneg hc3 hsa
      have c1 := cos_le_one a
      nlinarith [mul_le_mul_of_nonneg_right hφ3' hca]
    refine le_trans (monotone_arcsin e) ?_
    rw [arcsin_sin (by linarith [pi_pos]) (by linarith)]
    exact hφ2'
  have key : ∀ P : ℝ × ℝ, P.1 * rad ≤ s → P.1 < (sphereGeo R latlon0 0 x).1 := by
    intro P hP
    have : P.1 * rad < (sphereGeo R latlon0 0 x).1 * rad := by rw [hp]; linarith
    exact lt_of_mul_lt_mul_right this hr.le
  intro c hc
  simp only [getBox, boxCorners, List.mem_cons, List.not_mem_nil, or_false] at hc
  rcases hc with rfl | rfl | rfl | rfl
  · exact key P1 (by linarith)
  · exact key P2 hφ2'
  · exact key P3 hφ3
  · exact key P4 hφ4

/-- What every test for points in quadrilaterals fulfils: a point north of all corners is outside. -/
def RejectsNorth (within : ℝ × ℝ → List (ℝ × ℝ) → Bool) : Prop :=
  ∀ (p : ℝ × ℝ) (corners : List (ℝ × ℝ)), corners.length = 4 → (∀ c ∈ corners, c.2 < p.1) → within p corners = false

theorem planeWithin_rejects : RejectsNorth planeWithin := by
  intro p corners h4 h
  obtain ⟨a, b, c, d, rfl⟩ : ∃ a b c d, corners = [a, b, c, d] := by
    match corners, h4 with
    | [a, b, c, d], _ => exact ⟨a, b, c, d, rfl⟩
  rw [Bool.eq_false_iff, ne_eq, planeWithin_true]
  have ha := h a (by simp)
  have hb := h b (by simp)
  have hc := h c (by simp)
  have hd := h d (by simp)
  clear h h4
  have key : ∀ q r : ℝ × ℝ, q.2 < p.1 → r.2 < p.1 →
      ((r.1 - q.1) * (p.1 - q.2) - (r.2 - q.2) * (p.2 - q.1) =
        ((r.1 - p.2) / (p.1 - r.2) - (q.1 - p.2) / (p.1 - q.2)) * ((p.1 - r.2) * (p.1 - q.2))) ∧
      0 < (p.1 - r.2) * (p.1 - q.2) := by
    intro q r hq hr
    have h1 : p.1 - q.2 ≠ 0 := by linarith
    have h2 : p.1 - r.2 ≠ 0 := by linarith
    refine ⟨?_, mul_pos (by linarith) (by linarith)⟩
    field_simp
    ring
  unfold insideConvex
  simp only [List.tail_cons, List.take_succ_cons, List.take_zero, List.cons_append, List.nil_append,
    List.zip_cons_cons, List.zip_nil_right, List.zip_nil_left, List.mem_cons, List.not_mem_nil, or_false, forall_eq_or_imp,
    forall_eq]
  rw [(key a b ha hb).1, (key b c hb hc).1, (key c d hc hd).1, (key d a hd ha).1]
  have k1 := (key a b ha hb).2
  have k2 := (key b c hb hc).2
  have k3 := (key c d hc hd).2
  have k4 := (key d a hd ha).2
  have neg_left : ∀ {u v : ℝ}, 0 < v → u * v < 0 → u < 0 := by
    intro u v hv h
    by_contra hc
    have := mul_nonneg (not_lt.1 hc) hv.le
    linarith
  rintro (⟨h1, h2, h3, h4⟩ | ⟨h1, h2, h3, h4⟩)
  · have e1 := (mul_pos_iff_of_pos_right k1).1 h1
    have e2 := (mul_pos_iff_of_pos_right k2).1 h2
    have e3 := (mul_pos_iff_of_pos_right k3).1 h3
    have e4 := (mul_pos_iff_of_pos_right k4).1 h4
    linarith
  · have e1 := neg_left k1 h1
    have e2 := neg_left k2 h2
    have e3 := neg_left k3 h3
    have e4 := neg_left k4 h4
    linarith

/-- **C166**, the profile points to the north.  No point of the profile in a bin is inside of the box of the bin, if the
length of the bin is below the difference of latitude between the midpoint of the side of the box and its corner. -/
theorem C166_meridian (within : ℝ × ℝ → List (ℝ × ℝ) → Bool) (hwithin : RejectsNorth within) (R : ℝ) (hR : 0 < R)
    (latlon0 : ℝ × ℝ) (bins : List ℝ) (hinc : bins.Pairwise (· < ·)) (width : ℝ) (hw : 0 ≤ width)
    (hb : width / 2 / R ≤ π / 2) (i : ℕ) (hi : i + 1 < bins.length)
    (hlen : (bins[i + 1] - bins[i]) / R ≤ latlon0.1 * rad + bins[i] / R)
    (hdisp : sin (latlon0.1 * rad + bins[i] / R) * cos (width / 2 / R) ≤
      sin (latlon0.1 * rad + bins[i] / R - (bins[i + 1] - bins[i]) / R))
    (x : ℝ) (hx : bins[i] < x) (hx2 : latlon0.1 * rad + x / R ≤ π / 2) (box : Box ℝ)
    (hbox : (getProfileBoxes (sphereGeo R) latlon0 0 bins width)[i]? = some box) :
    within (sphereGeo R latlon0 0 x) box.poly = false := by
  rw [profileBoxes_get (sphereGeo R) latlon0 0 width bins i hi] at hbox
  simp only [Option.some.injEq] at hbox
  subst hbox
  have hlt : bins[i] < bins[i + 1] := (List.pairwise_iff_getElem.1 hinc) i (i + 1) (by omega) hi (by omega)
  have hl0 : 0 ≤ (bins[i + 1] - bins[i]) / R := div_nonneg (by linarith) hR.le
  exact hwithin _ _ rfl (box_south R hR latlon0 (bins[i + 1] - bins[i]) width bins[i] x (by linarith) hw hb (by linarith) hlen
    hdisp hx hx2)

/-- The displacement at 45 degrees north, for boxes of default width (2000 km) and a length of 10 km. -/
theorem displaced_45 : sin (45 * rad) * cos (2000 / 2 / 6371) ≤ sin (45 * rad - 10 / 6371) := by
  have e : (45 : ℝ) * rad = π / 4 := by unfold rad; ring
  rw [e, sin_sub, sin_pi_div_four, cos_pi_div_four]
  have h1 : cos (2000 / 2 / 6371 : ℝ) ≤ 1 - 2 * (1000 / 6371 / π) ^ 2 := by
    have h := Real.mul_le_sin (x := 500 / 6371) (by norm_num) (by
      have := pi_gt_three
      linarith)
    have h2 : cos (2000 / 2 / 6371 : ℝ) = 1 - 2 * sin (500 / 6371) ^ 2 := by
      rw [show (2000 / 2 / 6371 : ℝ) = 2 * (500 / 6371) by norm_num, cos_two_mul, cos_sq']
      ring
    rw [h2]
    have h3 : (1000 / 6371 / π) = 2 / π * (500 / 6371) := by ring
    rw [h3]
    have : 0 ≤ 2 / π * (500 / 6371 : ℝ) := by positivity
    nlinarith
  have h2 : (1000 / 6371 / (16 / 5) : ℝ) ≤ 1000 / 6371 / π := by
    have := pi_lt_d2
    gcongr
    linarith
  have h3 : sin (10 / 6371 : ℝ) ≤ 10 / 6371 := sin_le (by norm_num)
  have h4 := one_sub_sq_div_two_le_cos (x := (10 / 6371 : ℝ))
  have h5 : (0 : ℝ) < √2 / 2 := by positivity
  have h6 : cos (2000 / 2 / 6371 : ℝ) ≤ cos (10 / 6371) - sin (10 / 6371) := by
    have : (1000 / 6371 / (16 / 5) : ℝ) ^ 2 ≤ (1000 / 6371 / π) ^ 2 := by gcongr
    norm_num at *
    linarith
  nlinarith

/-- **C166**, counterexample: profile from 45 degrees north to the north, one box of 10 km with the default width.  The
piercing point on the profile at 5 km is in no box. -/
theorem C166_counterexample (within : ℝ × ℝ → List (ℝ × ℝ) → Bool) (hwithin : RejectsNorth within) (crs : Bool) :
    findBox within (getProfileBoxes (sphereGeo 6371) (45, 0) 0 [0, 10] 2000) crs (sphereGeo 6371 (45, 0) 0 5) =
      .ok none := by
  have hπ := pi_gt_three
  have e : (45 : ℝ) * rad = π / 4 := by unfold rad; ring
  have hd := displaced_45
  have h := C166_meridian within hwithin 6371 (by norm_num) (45, 0) [0, 10] (by norm_num) 2000 (by norm_num)
    (by linarith) 0 (by simp) (by simp only [List.getElem_cons_zero, List.getElem_cons_succ]; rw [e]; linarith)
    (by simpa using hd) 5 (by simp) (by simp only []; rw [e]; linarith)
  have hg := profileBoxes_get (sphereGeo 6371) (45, 0) 0 2000 [0, 10] 0 (by simp)
  have hl := profileBoxes_length (sphereGeo 6371) (45, 0) 0 2000 [0, 10]
  cases hb : getProfileBoxes (sphereGeo 6371) (45, 0) 0 [0, 10] 2000 with
  | nil => rw [hb] at hg; simp at hg
  | cons b bs =>
    rw [hb] at hl h
    have hbs : bs = [] := by
      simp at hl
      exact hl
    subst hbs
    unfold findBox
    rw [if_neg (by simp)]
    simp [h b (by simp)]

/-! ## A profile along the equator -/

theorem arg_pos (z : ℂ) (h : 0 < z.re) : Complex.arg z = arctan (z.im / z.re) := by
  have := Complex.abs_arg_lt_pi_div_two_iff.2 (Or.inl h)
  rw [abs_lt] at this
  rw [← Complex.tan_arg, arctan_tan this.1 this.2]

/-- A step to the east or west: change of longitude. -/
theorem east_lon (R : ℝ) (p : ℝ × ℝ) (az d ε : ℝ) (h : cos (az * rad) = 0) (hε : sin (az * rad) = ε)
    (hp : 0 < cos (p.1 * rad)) (hd : 0 < cos (d / R)) :
    (sphereGeo R p az d).2 * rad = p.2 * rad + arctan (ε * (tan (d / R) / cos (p.1 * rad))) := by
  unfold sphereGeo
  simp only [h, hε, mul_zero, add_zero]
  rw [add_mul, div_mul_cancel₀ _ rad_pos.ne']
  have a1 := sin_sq_add_cos_sq (p.1 * rad)
  have hre : cos (d / R) - sin (p.1 * rad) * (sin (p.1 * rad) * cos (d / R)) = cos (d / R) * cos (p.1 * rad) ^ 2 := by
    linear_combination (-cos (d / R)) * a1
  rw [hre, arg_pos _ (by simp only []; positivity), tan_eq_sin_div_cos]
  congr 2
  simp only []
  field_simp

/-- A step along the meridian keeps the longitude. -/
theorem meridian_lon (R : ℝ) (p : ℝ × ℝ) (az d ε : ℝ) (h : cos (az * rad) = ε) (hε : ε = 1 ∨ ε = -1)
    (hp : 0 < cos (p.1 * rad)) (hd : 0 < cos (p.1 * rad + ε * (d / R))) (hs : sin (az * rad) = 0) :
    (sphereGeo R p az d).2 = p.2 := by
  unfold sphereGeo
  simp only [h, hs, zero_mul]
  have a1 := sin_sq_add_cos_sq (p.1 * rad)
  have hc : cos (p.1 * rad + ε * (d / R)) = cos (p.1 * rad) * cos (d / R) - ε * (sin (p.1 * rad) * sin (d / R)) := by
    rcases hε with rfl | rfl
    · rw [one_mul, cos_add]; ring
    · rw [neg_one_mul, ← sub_eq_add_neg, cos_sub]; ring
  have hre : cos (d / R) - sin (p.1 * rad) * (sin (p.1 * rad) * cos (d / R) + cos (p.1 * rad) * sin (d / R) * ε) =
      cos (p.1 * rad) * cos (p.1 * rad + ε * (d / R)) := by
    rw [hc]
    linear_combination (-cos (d / R)) * a1
  rw [hre, arg_pos _ (by simp only []; positivity)]
  simp

/-- Points of the equator. -/
theorem equator (R l0 d : ℝ) (h1 : -π < d / R) (h2 : d / R ≤ π) :
    sphereGeo R (0, l0) 90 d = (0, l0 + d / R / rad) := by
  have e1 : cos (90 * rad) = 0 := by
    rw [show (90 : ℝ) * rad = π / 2 by unfold rad; ring, cos_pi_div_two]
  have e2 : sin (90 * rad) = 1 := by
    rw [show (90 : ℝ) * rad = π / 2 by unfold rad; ring, sin_pi_div_two]
  unfold sphereGeo
  simp only [zero_mul, sin_zero, cos_zero, e1, e2, mul_zero, add_zero, arcsin_zero, zero_div, sub_zero, one_mul, mul_one]
  have : Complex.arg ⟨cos (d / R), sin (d / R)⟩ = d / R := by
    generalize d / R = σ at h1 h2
    have h := Complex.arg_cos_add_sin_mul_I (θ := σ) ⟨h1, h2⟩
    have e : (⟨cos σ, sin σ⟩ : ℂ) = Complex.cos σ + Complex.sin σ * Complex.I := by
      rw [← Complex.ofReal_cos, ← Complex.ofReal_sin]
      apply Complex.ext
      · rw [Complex.add_re, Complex.ofReal_re, Complex.re_ofReal_mul, Complex.I_re]; simp
      · rw [Complex.add_im, Complex.ofReal_im, Complex.im_ofReal_mul, Complex.I_im]; simp
    rw [e, h]
  rw [this]

/-- Interior of the quadrilateral of a box at the equator. -/
theorem quad_inside (x1 x2 x4 x b f2 f4 : ℝ) (h41 : x4 ≤ x1) (h1 : x1 < x) (h2 : x < x2) (hf2 : 0 < f2) (hfb : f2 ≤ b)
    (hf4 : f4 < 0) (hf : f2 - 2 * b ≤ f4) :
    insideConvex (x, 0) [(x1, b), (x2, f2), (x2, f2 - 2 * b), (x4, f4)] := by
  unfold insideConvex
  simp only [List.tail_cons, List.take_succ_cons, List.take_zero, List.cons_append, List.nil_append,
    List.zip_cons_cons, List.zip_nil_right, List.zip_nil_left, List.mem_cons, List.not_mem_nil, or_false, forall_eq_or_imp,
    forall_eq]
  right
  refine ⟨?_, ?_, ?_, ?_⟩
  · nlinarith [mul_nonneg (sub_nonneg.2 hfb) (sub_nonneg.2 h2.le), mul_pos hf2 (sub_pos.2 (h1.trans h2))]
  · nlinarith [mul_pos (show 0 < b by linarith) (sub_pos.2 h2)]
  · nlinarith [mul_nonneg (sub_nonneg.2 hf) (sub_nonneg.2 (h41.trans h1.le)), mul_pos (neg_pos.2 hf4) (sub_pos.2 (show x4 < x2 by linarith))]
  · nlinarith [mul_pos (show 0 < b by linarith) (sub_pos.2 (show x4 < x by linarith)), mul_pos (neg_pos.2 hf4) (sub_pos.2 h1)]

/-- A box of a profile along the equator encloses the equator from its start at least to the distance `R δ` with
`tan δ = tan (length / R) / cos (width / 2 / R)`. -/
theorem equator_box (R : ℝ) (hR : 0 < R) (l0 length width offset : ℝ) (hl : 0 < length) (hl2 : length / R < π / 2)
    (hw : 0 < width) (hw2 : width / R < π / 2) (ho1 : -π < offset / R) (ho2 : offset / R ≤ π) (y : ℝ)
    (h1 : offset / R < y) (h2 : y < offset / R + arctan (tan (length / R) / cos (width / 2 / R))) :
    insideConvex (l0 + y / rad, 0) (getBox (sphereGeo R) (0, l0) 90 length width offset).poly := by
  have hr := rad_pos
  have ha : 0 < length / R := by positivity
  have hb : 0 < width / 2 / R := by positivity
  have hw' : width / R = 2 * (width / 2 / R) := by ring
  set a := length / R with hadef
  set b := width / 2 / R with hbdef
  have hca : 0 < cos a := cos_pos_of_mem_Ioo ⟨by linarith, hl2⟩
  have hcb : 0 < cos b := cos_pos_of_mem_Ioo ⟨by linarith, by linarith⟩
  have hsb : 0 < sin b := sin_pos_of_pos_of_lt_pi hb (by linarith)
  have hta : 0 < tan a := tan_pos_of_pos_of_lt_pi_div_two ha hl2
  -- directions
  have d1c : cos (pyMod (90 - 90) 360 * rad) = 1 := by
    unfold rad
    rw [cos_pyMod, show ((90 : ℝ) - 90) * (π / 180) = 0 by ring, cos_zero]
  have d1s : sin (pyMod (90 - 90) 360 * rad) = 0 := by
    unfold rad
    rw [sin_pyMod, show ((90 : ℝ) - 90) * (π / 180) = 0 by ring, sin_zero]
  have d2c : cos (90 * rad) = 0 := by
    rw [show (90 : ℝ) * rad = π / 2 by unfold rad; ring, cos_pi_div_two]
  have d2s : sin (90 * rad) = 1 := by
    rw [show (90 : ℝ) * rad = π / 2 by unfold rad; ring, sin_pi_div_two]
  have d3c : cos (pyMod (90 + 90) 360 * rad) = -1 := by
    unfold rad
    rw [cos_pyMod, show ((90 : ℝ) + 90) * (π / 180) = π by ring, cos_pi]
  have d3s : sin (pyMod (90 + 90) 360 * rad) = 0 := by
    unfold rad
    rw [sin_pyMod, show ((90 : ℝ) + 90) * (π / 180) = π by ring, sin_pi]
  have d4c : cos (pyMod (90 + 180) 360 * rad) = 0 := by
    unfold rad
    rw [cos_pyMod, show ((90 : ℝ) + 180) * (π / 180) = π / 2 + π by ring, cos_add_pi, cos_pi_div_two, neg_zero]
  have d4s : sin (pyMod (90 + 180) 360 * rad) = -1 := by
    unfold rad
    rw [sin_pyMod, show ((90 : ℝ) + 180) * (π / 180) = π / 2 + π by ring, sin_add_pi, sin_pi_div_two]
  have hstart := equator R l0 offset ho1 ho2
  -- first corner
  have c1 : sphereGeo R (sphereGeo R (0, l0) 90 offset) (pyMod (90 - 90) 360) (width / 2) =
      (b / rad, l0 + offset / R / rad) := by
    rw [hstart]
    refine Prod.ext ?_ ?_
    · unfold sphereGeo
      simp only [zero_mul, sin_zero, cos_zero, d1c, mul_one, one_mul, zero_add]
      rw [← hbdef, arcsin_sin (by linarith) (by linarith)]
    · rw [meridian_lon R _ _ _ 1 d1c (Or.inl rfl) (by simp) (by
        simp only [zero_mul, zero_add, one_mul]
        rw [← hbdef]
        exact hcb) d1s]
  have e1 : b / rad * rad = b := div_mul_cancel₀ _ hr.ne'
  -- second corner
  obtain ⟨P2, hP2⟩ : ∃ P2, P2 = sphereGeo R (b / rad, l0 + offset / R / rad) 90 length := ⟨_, rfl⟩
  have c2a := turn_lat R (b / rad, l0 + offset / R / rad) 90 length d2c
  have c2b := east_lon R (b / rad, l0 + offset / R / rad) 90 length 1 d2c d2s (by simp only [e1]; exact hcb) hca
  simp only [e1, one_mul] at c2a c2b
  rw [← hP2] at c2a c2b
  rw [← hadef] at c2a c2b
  have hsin2 : 0 < sin b * cos a := mul_pos hsb hca
  have hsin2' : sin b * cos a ≤ sin b := mul_le_of_le_one_right hsb.le (cos_le_one _)
  have hφ2 : 0 < P2.1 * rad := by rw [c2a]; exact arcsin_pos.2 hsin2
  have hφ2b : P2.1 * rad ≤ b := by
    rw [c2a]
    have := monotone_arcsin hsin2'
    rwa [arcsin_sin (by linarith) (by linarith)] at this
  have hcφ2 : 0 < cos (P2.1 * rad) := cos_pos_of_mem_Ioo ⟨by linarith, by linarith⟩
  -- third corner
  obtain ⟨P3, hP3⟩ : ∃ P3, P3 = sphereGeo R P2 (pyMod (90 + 90) 360) width := ⟨_, rfl⟩
  have c3a := south_lat R P2 (pyMod (90 + 90) 360) width d3c
  rw [← hP3, hw', ← sin_sub, arcsin_sin (by linarith) (by linarith)] at c3a
  have hψ : 0 < cos (P2.1 * rad - 2 * b) := cos_pos_of_mem_Ioo ⟨by linarith, by linarith⟩
  have c3b := meridian_lon R P2 (pyMod (90 + 90) 360) width (-1) d3c (Or.inr rfl) hcφ2 (by
    rw [hw', neg_one_mul, ← sub_eq_add_neg]
    exact hψ) d3s
  rw [← hP3] at c3b
  -- fourth corner
  obtain ⟨P4, hP4⟩ : ∃ P4, P4 = sphereGeo R P3 (pyMod (90 + 180) 360) length := ⟨_, rfl⟩
  have c4a := turn_lat R P3 (pyMod (90 + 180) 360) length d4c
  have c4b := east_lon R P3 (pyMod (90 + 180) 360) length (-1) d4c d4s (by rw [c3a]; exact hψ) hca
  rw [← hP4, ← hadef, c3a] at c4a c4b
  have hsψ : sin (P2.1 * rad - 2 * b) < 0 := sin_neg_of_neg_of_neg_pi_lt (by linarith) (by linarith)
  have hφ4 : P4.1 * rad < 0 := by rw [c4a]; exact arcsin_lt_zero.2 (mul_neg_of_neg_of_pos hsψ hca)
  have hφ4' : P2.1 * rad - 2 * b ≤ P4.1 * rad := by
    rw [c4a]
    have : sin (P2.1 * rad - 2 * b) ≤ sin (P2.1 * rad - 2 * b) * cos a := by
      nlinarith [cos_le_one a]
    have := monotone_arcsin this
    rwa [arcsin_sin (by linarith) (by linarith)] at this
  have hcos : cos (P2.1 * rad - 2 * b) ≤ cos b := by
    rw [← cos_neg (P2.1 * rad - 2 * b)]
    exact cos_le_cos_of_nonneg_of_le_pi (by linarith) (by linarith) (by linarith)
  have harc : arctan (tan a / cos b) ≤ arctan (tan a / cos (P2.1 * rad - 2 * b)) :=
    arctan_strictMono.monotone (div_le_div_of_nonneg_left hta.le hψ hcos)
  rw [neg_one_mul, arctan_neg] at c4b
  -- the quadrilateral
  have hpoly : (getBox (sphereGeo R) (0, l0) 90 length width offset).poly =
      [(l0 + offset / R / rad, b / rad), (P2.2, P2.1), (P2.2, P2.1 - 2 * (b / rad)), (P4.2, P4.1)] := by
    simp only [getBox, boxCorners]
    rw [c1, ← hP2, ← hP3, ← hP4, c3b]
    have : P3.1 = P2.1 - 2 * (b / rad) := by
      rw [← mul_left_inj' hr.ne', c3a, sub_mul, mul_assoc, e1]
    rw [this]
  rw [hpoly]
  have el : ∀ u v : ℝ, u * rad < v * rad → u < v := fun u v h => lt_of_mul_lt_mul_right h hr.le
  have ele : ∀ u v : ℝ, u * rad ≤ v * rad → u ≤ v := fun u v h => le_of_mul_le_mul_right h hr
  have eo : (l0 + offset / R / rad) * rad = l0 * rad + offset / R := by field_simp
  have ey : (l0 + y / rad) * rad = l0 * rad + y := by field_simp
  refine quad_inside _ _ _ _ _ _ _ (ele _ _ ?_) (el _ _ ?_) (el _ _ ?_) (el _ _ ?_) (ele _ _ ?_) (el _ _ ?_) (ele _ _ ?_)
  · rw [c4b, c3b, c2b]; linarith
  · rw [eo, ey]; linarith
  · rw [ey, c2b, eo]; linarith
  · rw [zero_mul]; exact hφ2
  · rw [e1]; exact hφ2b
  · rw [zero_mul]; exact hφ4
  · rw [sub_mul, mul_assoc, e1]; exact hφ4'

/-- The end of a box along the equator is beyond its length. -/
theorem box_too_long (a b : ℝ) (ha : 0 < a) (ha2 : a < π / 2) (hb : 0 < b) (hb2 : b < π / 2) :
    a < arctan (tan a / cos b) := by
  have hcb : 0 < cos b := cos_pos_of_mem_Ioo ⟨by linarith, hb2⟩
  have hc1 : cos b < 1 := by
    have := cos_lt_cos_of_nonneg_of_le_pi_div_two (le_refl 0) hb2.le hb
    rwa [cos_zero] at this
  have hta : 0 < tan a := tan_pos_of_pos_of_lt_pi_div_two ha ha2
  have : arctan (tan a) < arctan (tan a / cos b) := by
    apply arctan_strictMono
    rw [lt_div_iff₀ hcb]
    nlinarith
  rwa [arctan_tan (by linarith) ha2] at this

/-- **C166**, partial: the profile follows the equator.  Every point of the profile in a bin is inside of the box of the
bin; the box found is this box or one before it. -/
theorem C166_equator_partial (R : ℝ) (hR : 0 < R) (l0 : ℝ) (bins : List ℝ) (hinc : bins.Pairwise (· < ·))
    (hbins : ∀ e ∈ bins, -π < e / R ∧ e / R ≤ π) (width : ℝ) (hw : 0 < width) (hw2 : width / R < π / 2)
    (i : ℕ) (hi : i + 1 < bins.length) (hlen : (bins[i + 1] - bins[i]) / R < π / 2) (x : ℝ)
    (h1 : bins[i] < x) (h2 : x ≤ bins[i + 1]) (crs : Bool) :
    ∃ (j : ℕ) (box box' : Box ℝ), j ≤ i ∧
      (getProfileBoxes (sphereGeo R) (0, l0) 90 bins width)[i]? = some box ∧
      planeWithin (sphereGeo R (0, l0) 90 x) box.poly = true ∧
      (getProfileBoxes (sphereGeo R) (0, l0) 90 bins width)[j]? = some box' ∧
      findBox planeWithin (getProfileBoxes (sphereGeo R) (0, l0) 90 bins width) crs (sphereGeo R (0, l0) 90 x) =
        .ok (some box') := by
  have hlt : bins[i] < bins[i + 1] := (List.pairwise_iff_getElem.1 hinc) i (i + 1) (by omega) hi (by omega)
  have hb0 := hbins bins[i] (List.getElem_mem _)
  have hb1 := hbins bins[i + 1] (List.getElem_mem _)
  have hx0 : bins[i] / R < x / R := by gcongr
  have hx1 : x / R ≤ bins[i + 1] / R := by gcongr
  have hpt := equator R l0 x (by linarith) (by linarith)
  have hget := profileBoxes_get (sphereGeo R) (0, l0) 90 width bins i hi
  have hwR : width / R = 2 * (width / 2 / R) := by ring
  have hb : 0 < width / 2 / R := by positivity
  have hin : planeWithin (sphereGeo R (0, l0) 90 x)
      (getBox (sphereGeo R) (0, l0) 90 (bins[i + 1] - bins[i]) width bins[i]).poly = true := by
    rw [planeWithin_true, hpt]
    have hlong := box_too_long ((bins[i + 1] - bins[i]) / R) (width / 2 / R) (div_pos (by linarith) hR) hlen hb
      (by linarith [pi_pos])
    have e : (bins[i + 1] - bins[i]) / R = bins[i + 1] / R - bins[i] / R := by ring
    exact equator_box R hR l0 _ width bins[i] (by linarith) hlen hw hw2 hb0.1 hb0.2 (x / R) hx0 (by linarith)
  cases hf : (getProfileBoxes (sphereGeo R) (0, l0) 90 bins width).find?
      (fun b => planeWithin (sphereGeo R (0, l0) 90 x) b.poly) with
  | none =>
    rw [List.find?_eq_none] at hf
    exact absurd hin (by simpa using hf _ (List.mem_of_getElem? hget))
  | some box' =>
    obtain ⟨-, j, hj, hjb, hbefore⟩ := List.find?_eq_some_iff_getElem.1 hf
    refine ⟨j, _, box', ?_, hget, hin, by rw [List.getElem?_eq_getElem hj, hjb], ?_⟩
    · by_contra hc
      have := hbefore i (by omega)
      obtain ⟨g1, g2⟩ := List.getElem?_eq_some_iff.1 hget
      rw [g2] at this
      simp only [hin] at this
      exact absurd this (by decide)
    · unfold findBox
      rw [if_neg (by
        rintro ⟨-, hnil⟩
        rw [hnil] at hget
        simp at hget), hf]

/-- **C166**, the boxes overlap: on the equator the first points of every bin but the first are inside of the box before
as well, up to the distance `R δ` from its start with `tan δ = tan (length / R) / cos (width / 2 / R)`. -/
theorem C166_overlap (R : ℝ) (hR : 0 < R) (l0 : ℝ) (bins : List ℝ) (hinc : bins.Pairwise (· < ·))
    (hbins : ∀ e ∈ bins, -π < e / R ∧ e / R ≤ π) (width : ℝ) (hw : 0 < width) (hw2 : width / R < π / 2)
    (i : ℕ) (hi : i + 1 < bins.length) (hlen : (bins[i + 1] - bins[i]) / R < π / 2) (box : Box ℝ)
    (hbox : (getProfileBoxes (sphereGeo R) (0, l0) 90 bins width)[i]? = some box) :
    (bins[i + 1] - bins[i]) / R < arctan (tan ((bins[i + 1] - bins[i]) / R) / cos (width / 2 / R)) ∧
    ∀ x, bins[i] < x → x / R ≤ π →
      x / R < bins[i] / R + arctan (tan ((bins[i + 1] - bins[i]) / R) / cos (width / 2 / R)) →
      planeWithin (sphereGeo R (0, l0) 90 x) box.poly = true := by
  have hlt : bins[i] < bins[i + 1] := (List.pairwise_iff_getElem.1 hinc) i (i + 1) (by omega) hi (by omega)
  have hb0 := hbins bins[i] (List.getElem_mem _)
  have hwR : width / R = 2 * (width / 2 / R) := by ring
  have hb : 0 < width / 2 / R := by positivity
  refine ⟨box_too_long _ _ (div_pos (by linarith) hR) hlen hb (by linarith [pi_pos]), fun x h1 h2 h3 => ?_⟩
  rw [profileBoxes_get (sphereGeo R) (0, l0) 90 width bins i hi] at hbox
  simp only [Option.some.injEq] at hbox
  subst hbox
  have hx0 : bins[i] / R < x / R := by gcongr
  rw [planeWithin_true, equator R l0 x (by linarith) h2]
  exact equator_box R hR l0 _ width bins[i] (by linarith) hlen hw hw2 hb0.1 hb0.2 (x / R) hx0 h3

/-- The hypotheses of C166 can be met: boxes of 10 km with the default width, along the equator. -/
example : ∃ bins : List ℝ, bins.Pairwise (· < ·) ∧ (∀ e ∈ bins, -π < e / 6371 ∧ e / 6371 ≤ π) ∧
    (2000 : ℝ) / 6371 < π / 2 ∧ ∃ hi : 1 + 1 < bins.length, (bins[1 + 1] - bins[1]) / 6371 < π / 2 ∧ bins[1] < 15 ∧
      15 ≤ bins[1 + 1] := by
  have := pi_gt_three
  refine ⟨[0, 10, 20], by norm_num, ?_, by linarith, by simp, ?_, by norm_num, by norm_num⟩
  · intro e he
    simp only [List.mem_cons, List.not_mem_nil, or_false] at he
    rcases he with rfl | rfl | rfl <;> constructor <;> linarith
  · norm_num
    linarith

/-- C166, consequence: with two boxes of 10 km and the default width there is a point of the second bin on the equator
for which the first box is found. -/
theorem C166_wrong_box (crs : Bool) : ∃ x box, 10 < x ∧ x < 20 ∧ box.pos = 5 ∧
    findBox planeWithin (getProfileBoxes (sphereGeo 6371) (0, 0) 90 [0, 10, 20] 2000) crs (sphereGeo 6371 (0, 0) 90 x) =
      .ok (some box) := by
  have hπ := pi_gt_three
  have hinc : ([0, 10, 20] : List ℝ).Pairwise (· < ·) := by norm_num
  have hbins : ∀ e ∈ ([0, 10, 20] : List ℝ), -π < e / 6371 ∧ e / 6371 ≤ π := by
    intro e he
    simp only [List.mem_cons, List.not_mem_nil, or_false] at he
    rcases he with rfl | rfl | rfl <;> constructor <;> linarith
  obtain ⟨box, hget, hpos, -⟩ := (C53_boxes (sphereGeo 6371) (0, 0) 90 2000 [0, 10, 20]).2 0 (by simp)
  obtain ⟨h1, h2⟩ := C166_overlap 6371 (by norm_num) 0 [0, 10, 20] hinc hbins 2000 (by norm_num) (by linarith) 0 (by simp)
    (by simp only [List.getElem_cons_zero, List.getElem_cons_succ]; linarith) _ hget
  simp only [List.getElem_cons_zero, List.getElem_cons_succ] at h1 h2
  set δ := arctan (tan ((10 - 0) / 6371) / cos (2000 / 2 / 6371)) with hδ
  refine ⟨min ((10 + 6371 * δ) / 2) 15, box, ?_, ?_, ?_, ?_⟩
  rotate_left 3
  · unfold findBox
    rw [if_neg (by
      rintro ⟨-, hnil⟩
      rw [hnil] at hget
      simp at hget)]
    congr 1
    rw [List.find?_eq_some_iff_getElem]
    obtain ⟨g1, g2⟩ := List.getElem?_eq_some_iff.1 hget
    refine ⟨h2 _ ?_ ?_ ?_, 0, g1, g2, fun j hj => absurd hj (by omega)⟩
    · rw [lt_min_iff]
      constructor <;> linarith
    · have := min_le_right ((10 + 6371 * δ) / 2) 15
      rw [div_le_iff₀ (by norm_num)]
      linarith
    · have := min_le_left ((10 + 6371 * δ) / 2) 15
      rw [div_lt_iff₀ (by norm_num)]
      linarith
  · rw [lt_min_iff]
    constructor <;> linarith
  · have := min_le_right ((10 + 6371 * δ) / 2) 15
    linarith
  · rw [hpos]
    norm_num

end Verif.Props
