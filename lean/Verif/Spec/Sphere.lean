import Mathlib.Analysis.SpecialFunctions.Trigonometric.Inverse
import Mathlib.Analysis.SpecialFunctions.Complex.Arg

/-!
# The direct geodetic problem on a sphere

`util.py` 167-179 `direct_geodetic` calls geographiclib.  On a sphere its result is the point of the great circle through
the given point in the given direction.
-/

namespace Verif.Spec
open Real

/-- Radians per degree. -/
noncomputable def rad : ℝ := π / 180

/-- The point at distance `d` from `p = (latitude, longitude)` in direction `azimuth` (degrees from north over east), on a
sphere of radius `R`; longitudes are not reduced to one turn. -/
noncomputable def sphereGeo (R : ℝ) (p : ℝ × ℝ) (azimuth d : ℝ) : ℝ × ℝ :=
  let s := sin (p.1 * rad) * cos (d / R) + cos (p.1 * rad) * sin (d / R) * cos (azimuth * rad)
  (arcsin s / rad, p.2 + Complex.arg ⟨cos (d / R) - sin (p.1 * rad) * s,
    sin (azimuth * rad) * sin (d / R) * cos (p.1 * rad)⟩ / rad)

/-- Cartesian coordinates of a point of the unit sphere. -/
noncomputable def unitVector (p : ℝ × ℝ) : ℝ × ℝ × ℝ :=
  (cos (p.1 * rad) * cos (p.2 * rad), cos (p.1 * rad) * sin (p.2 * rad), sin (p.1 * rad))

/-- Unit vector at `p` which points into the direction `azimuth`: north times cosine plus east times sine. -/
noncomputable def direction (p : ℝ × ℝ) (azimuth : ℝ) : ℝ × ℝ × ℝ :=
  (cos (azimuth * rad) * (-sin (p.1 * rad) * cos (p.2 * rad)) + sin (azimuth * rad) * (-sin (p.2 * rad)),
    cos (azimuth * rad) * (-sin (p.1 * rad) * sin (p.2 * rad)) + sin (azimuth * rad) * cos (p.2 * rad),
    cos (azimuth * rad) * cos (p.1 * rad))

end Verif.Spec
