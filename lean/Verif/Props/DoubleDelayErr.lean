import Verif.Props.DoubleDelay
import Mathlib.Analysis.Real.Sqrt

/-!
# C218: delay times in double precision are close to the exact ones
-/

set_option linter.unusedSimpArgs false
set_option linter.unusedSectionVars false

namespace Verif.Spec

/-- Relative accuracy of the library functions `v ** (-2)`, `np.sqrt` and the square: four units of rounding, 2^-51. -/
structure Accurate (pw sq sqr : ℚ → ℚ) : Prop where
  pw_err : ∀ v : ℚ, 0 < v → |((pw v : ℚ) : ℝ) - 1 / (v : ℝ) ^ 2| ≤ 1 / (v : ℝ) ^ 2 * (4 / 2 ^ 53)
  sq_err : ∀ x : ℚ, 0 ≤ x → |((sq x : ℚ) : ℝ) - Real.sqrt x| ≤ Real.sqrt x * (4 / 2 ^ 53)
  sqr_err : ∀ y : ℚ, |((sqr y : ℚ) : ℝ) - (y : ℝ) ^ 2| ≤ (y : ℝ) ^ 2 * (4 / 2 ^ 53)

/-- A layer given by doubles as a layer of the exact model. -/
noncomputable def realLayer (l : Layer ℚ) : Layer ℝ := ⟨(l.vp : ℝ), (l.vs : ℝ), (l.dz : ℝ)⟩

end Verif.Spec

namespace Verif.Props
open Verif.Py Verif.Model Verif.Model.Simple Verif.Model.DoubleDelay Verif.Spec

theorem fl64_real (x : ℚ) : |((fl64 x : ℚ) : ℝ) - (x : ℝ)| ≤ |(x : ℝ)| / 2 ^ 53 := by
  have h := fl64_rel x
  have h' : ((|fl64 x - x| : ℚ) : ℝ) ≤ ((|x| / 2 ^ 53 : ℚ) : ℝ) := by exact_mod_cast h
  push_cast at h'
  exact h'

/-- The square of the horizontal slowness. -/
theorem hslow_err (pw sq sqr : ℚ → ℚ) (ha : Accurate pw sq sqr) (s : ℚ) :
    |((sqr (fl64 (s / fl64 deg2km)) : ℚ) : ℝ) - ((s : ℝ) / (1112 / 10)) ^ 2| ≤ ((s : ℝ) / (1112 / 10)) ^ 2 * (16 / 2 ^ 53) := by
  set h : ℝ := (s : ℝ) / (1112 / 10) with hh
  have d1 : ((fl64 deg2km : ℚ) : ℝ) = 1112 / 10 + ((fl64 deg2km - 1112 / 10 : ℚ) : ℝ) := by push_cast; ring
  have dpos : |((fl64 deg2km : ℚ) : ℝ) - 1112 / 10| ≤ 1112 / 10 / 2 ^ 53 := by
    have := fl64_real deg2km
    unfold deg2km at this ⊢
    push_cast at this
    rwa [abs_of_pos (show (0 : ℝ) < 1112 / 10 by norm_num)] at this
  have e1 : |((s / fl64 deg2km : ℚ) : ℝ) - h| ≤ |h| * (2 / 2 ^ 53) := by
    push_cast
    generalize ((fl64 deg2km : ℚ) : ℝ) = D at dpos ⊢
    obtain ⟨l, u⟩ := abs_le.1 dpos
    have hD : 0 < D := by
      have : (1112 / 10 / 2 ^ 53 : ℝ) < 1 := by norm_num
      linarith
    have e : (s : ℝ) / D - h = h * ((1112 / 10 - D) / D) := by
      rw [hh]
      field_simp
    rw [e, abs_mul]
    refine mul_le_mul_of_nonneg_left ?_ (abs_nonneg h)
    rw [abs_div, abs_of_pos hD, div_le_iff₀ hD, abs_le]
    constructor <;> linarith
  have e2 := fl64_real (s / fl64 deg2km)
  generalize ((s / fl64 deg2km : ℚ) : ℝ) = x at e1 e2
  have e3 := ha.sqr_err (fl64 (s / fl64 deg2km))
  generalize ((fl64 (s / fl64 deg2km) : ℚ) : ℝ) = y at e2 e3
  generalize ((sqr (fl64 (s / fl64 deg2km)) : ℚ) : ℝ) = z at e3
  have hx : |x| ≤ |h| * 2 := by
    have := abs_sub_abs_le_abs_sub x h
    have := abs_nonneg h
    linarith
  have e4 : |y - h| ≤ |h| * (4 / 2 ^ 53) := by
    have := abs_sub_le y x h
    have := abs_nonneg h
    linarith
  have e5 : |y + h| ≤ |h| * (9 / 4) := by
    have : y + h = (y - h) + 2 * h := by ring
    rw [this]
    refine (abs_add_le _ _).trans ?_
    rw [abs_mul, abs_two]
    have := abs_nonneg h
    linarith
  have e6 : |y ^ 2 - h ^ 2| ≤ h ^ 2 * (9 / 2 ^ 53) := by
    have : y ^ 2 - h ^ 2 = (y - h) * (y + h) := by ring
    rw [this, abs_mul, ← sq_abs h]
    refine (mul_le_mul e4 e5 (abs_nonneg _) (by positivity)).trans_eq ?_
    ring
  have e7 : y ^ 2 ≤ h ^ 2 * (3 / 2) := by
    have := (abs_le.1 e6).2
    have := sq_nonneg h
    linarith
  have := abs_sub_le z (y ^ 2) (h ^ 2)
  have := sq_nonneg h
  linarith

/-- The vertical slowness of a ray whose angle of incidence has a cosine of at least `c`. -/
theorem vslow64_err (pw sq sqr : ℚ → ℚ) (ha : Accurate pw sq sqr) (v s : ℚ) (hv : 0 < v) (c : ℝ) (hc : 1 / 2 ^ 20 ≤ c) (hc1 : c ≤ 1)
    (hcos : ((s : ℝ) / (1112 / 10)) ^ 2 ≤ (1 - c ^ 2) * (1 / (v : ℝ) ^ 2)) :
    ∃ q, vslow64 pw sq sqr v s = some q ∧ |(q : ℝ) - qSpec Real.sqrt (v : ℝ) (s : ℝ)| ≤ 32 / 2 ^ 53 / c * (1 / (v : ℝ)) ∧
      0 ≤ qSpec Real.sqrt (v : ℝ) (s : ℝ) ∧ qSpec Real.sqrt (v : ℝ) (s : ℝ) ≤ 1 / (v : ℝ) := by
  have hv' : (0 : ℝ) < v := by exact_mod_cast hv
  have hc0 : 0 < c := lt_of_lt_of_le (by norm_num) hc
  have h1 := ha.pw_err v hv
  have h2 := hslow_err pw sq sqr ha s
  have h3 := fl64_real (pw v - sqr (fl64 (s / fl64 deg2km)))
  set P : ℝ := 1 / (v : ℝ) ^ 2 with hP
  set Q : ℝ := ((s : ℝ) / (1112 / 10)) ^ 2 with hQ
  have hQ0 : 0 ≤ Q := sq_nonneg _
  have hP0 : 0 < P := by positivity
  have hcc : 1 / 2 ^ 40 ≤ c ^ 2 := by
    have := mul_le_mul hc hc (by norm_num) hc0.le
    rw [pow_two]
    refine le_trans ?_ this
    norm_num
  have hQP : Q ≤ P - c ^ 2 * P := by linarith
  have hcP : 1 / 2 ^ 40 * P ≤ c ^ 2 * P := mul_le_mul_of_nonneg_right hcc hP0.le
  have hx : |((fl64 (pw v - sqr (fl64 (s / fl64 deg2km))) : ℚ) : ℝ) - (P - Q)| ≤ P * (24 / 2 ^ 53) := by
    push_cast at h3
    generalize ((fl64 (pw v - sqr (fl64 (s / fl64 deg2km))) : ℚ) : ℝ) = x at h3 ⊢
    generalize ((pw v : ℚ) : ℝ) = p at h1 h3
    generalize ((sqr (fl64 (s / fl64 deg2km)) : ℚ) : ℝ) = r at h2 h3
    have b1 := abs_le.1 h1
    have b2 := abs_le.1 h2
    have b4 : |p - r| ≤ 3 * P := by
      rw [abs_le]
      constructor <;> linarith
    have b3 := abs_le.1 (h3.trans (div_le_div_of_nonneg_right b4 (by norm_num)))
    rw [abs_le]
    constructor <;> linarith
  generalize hX : fl64 (pw v - sqr (fl64 (s / fl64 deg2km))) = x at hx
  obtain ⟨b1, b2⟩ := abs_le.1 hx
  have hX0 : c ^ 2 * P ≤ P - Q := by linarith
  have hx0 : (0 : ℝ) ≤ (x : ℝ) := by
    linarith
  have hx0' : 0 ≤ x := by exact_mod_cast hx0
  have hW : Real.sqrt P = 1 / v := by
    rw [hP, show (1 : ℝ) / (v : ℝ) ^ 2 = (1 / v) ^ 2 by rw [div_pow, one_pow]]
    exact Real.sqrt_sq (by positivity)
  have hq1 : c * (1 / (v : ℝ)) ≤ Real.sqrt (P - Q) := by
    rw [← hW]
    have : c * Real.sqrt P = Real.sqrt (c ^ 2 * P) := by rw [Real.sqrt_mul (by positivity), Real.sqrt_sq hc0.le]
    rw [this]
    exact Real.sqrt_le_sqrt hX0
  have hq2 : Real.sqrt (P - Q) ≤ 1 / v := by
    rw [← hW]
    exact Real.sqrt_le_sqrt (by linarith)
  have hx4 : Real.sqrt (x : ℝ) ≤ 2 * (1 / v) := by
    rw [← hW]
    have : 2 * Real.sqrt P = Real.sqrt (4 * P) := by
      rw [Real.sqrt_mul (by norm_num), show (4 : ℝ) = 2 ^ 2 by norm_num, Real.sqrt_sq (by norm_num)]
    rw [this]
    refine Real.sqrt_le_sqrt ?_
    linarith
  have hd : |Real.sqrt (x : ℝ) - Real.sqrt (P - Q)| ≤ 24 / 2 ^ 53 / c * (1 / v) := by
    have e1 : (Real.sqrt (x : ℝ) - Real.sqrt (P - Q)) * (Real.sqrt (x : ℝ) + Real.sqrt (P - Q)) = (x : ℝ) - (P - Q) := by
      have a1 := Real.mul_self_sqrt hx0
      have a2 := Real.mul_self_sqrt (show 0 ≤ P - Q from le_trans (by positivity) hX0)
      linear_combination a1 - a2
    have e2 : c * (1 / (v : ℝ)) ≤ Real.sqrt (x : ℝ) + Real.sqrt (P - Q) := by linarith [Real.sqrt_nonneg (x : ℝ)]
    have e3 : 0 < c * (1 / (v : ℝ)) := by positivity
    have e4 : |Real.sqrt (x : ℝ) - Real.sqrt (P - Q)| * (c * (1 / v)) ≤ P * (24 / 2 ^ 53) := by
      rw [← e1, abs_mul, abs_of_pos (lt_of_lt_of_le e3 e2)] at hx
      exact (mul_le_mul_of_nonneg_left e2 (abs_nonneg _)).trans hx
    rw [← le_div_iff₀ e3] at e4
    refine e4.trans_eq ?_
    rw [hP]
    field_simp
  refine ⟨sq x, ?_, ?_, Real.sqrt_nonneg _, hq2⟩
  · unfold vslow64
    simp only
    rw [hX, if_neg (not_lt.2 hx0')]
  · have h5 := ha.sq_err x hx0'
    have h6 := abs_sub_le ((sq x : ℚ) : ℝ) (Real.sqrt x) (Real.sqrt (P - Q))
    have h7 : Real.sqrt (x : ℝ) * (4 / 2 ^ 53) ≤ 8 / 2 ^ 53 / c * (1 / v) := by
      have : (8 : ℝ) / 2 ^ 53 ≤ 8 / 2 ^ 53 / c := by
        rw [le_div_iff₀ hc0]
        nlinarith
      have h8 := mul_le_mul_of_nonneg_right this (show (0 : ℝ) ≤ 1 / v by positivity)
      have h9 := mul_le_mul_of_nonneg_right hx4 (show (0 : ℝ) ≤ 4 / 2 ^ 53 by positivity)
      linarith
    have h10 : (32 : ℝ) / 2 ^ 53 / c * (1 / v) = 24 / 2 ^ 53 / c * (1 / v) + 8 / 2 ^ 53 / c * (1 / v) := by ring
    unfold qSpec
    rw [← hP, ← hQ, h10]
    linarith

/-- One layer: `a`, `b` and `r` are the calculated vertical slownesses of P, S and of the direct wave, `W` is the largest slowness. -/
theorem layer_err (nP nS : ℕ) (a b r dz : ℚ) (qp qs qr W η : ℝ) (hp0 : 0 ≤ qp) (hp1 : qp ≤ W) (hs0 : 0 ≤ qs) (hs1 : qs ≤ W) (hr0 : 0 ≤ qr)
    (hr1 : qr ≤ W) (ha : |(a : ℝ) - qp| ≤ η) (hb : |(b : ℝ) - qs| ≤ η) (hr : |(r : ℝ) - qr| ≤ η) (hη : 32 / 2 ^ 53 * W ≤ η) (hη1 : η ≤ W)
    (hdz : 0 ≤ dz) :
    |((fl64 (fl64 (fl64 (fl64 (a * (nP : ℚ)) + fl64 (b * (nS : ℚ))) - fl64 (2 * r)) * dz) : ℚ) : ℝ) - ((nP : ℝ) * qp + (nS : ℝ) * qs - 2 * qr) * dz|
      ≤ 2 * ((nP + nS + 2 : ℝ) * η) * dz ∧ |((nP : ℝ) * qp + (nS : ℝ) * qs - 2 * qr) * dz| ≤ (nP + nS + 2 : ℝ) * W * dz := by
  have hdz' : (0 : ℝ) ≤ dz := by exact_mod_cast hdz
  have hnP : (0 : ℝ) ≤ nP := Nat.cast_nonneg _
  have hnS : (0 : ℝ) ≤ nS := Nat.cast_nonneg _
  -- products with the numbers of legs
  have leg : ∀ (n : ℕ) (a : ℚ) (q : ℝ), 0 ≤ q → q ≤ W → |(a : ℝ) - q| ≤ η →
      |((fl64 (a * (n : ℚ)) : ℚ) : ℝ) - n * q| ≤ n * η + n * W * (2 / 2 ^ 53) ∧ |(n : ℝ) * q| ≤ n * W := by
    intro n a q h0 h1 h2
    have hn : (0 : ℝ) ≤ n := Nat.cast_nonneg _
    have e1 := fl64_real (a * (n : ℚ))
    push_cast at e1
    have e2 : |(a : ℝ) * n - n * q| ≤ n * η := by
      rw [show (a : ℝ) * n - n * q = n * (a - q) by ring, abs_mul, abs_of_nonneg hn]
      exact mul_le_mul_of_nonneg_left h2 hn
    have e3 : |(n : ℝ) * q| ≤ n * W := by
      rw [abs_of_nonneg (mul_nonneg hn h0)]
      exact mul_le_mul_of_nonneg_left h1 hn
    have e4 : |(a : ℝ) * n| ≤ n * W * 2 := by
      have := abs_sub_abs_le_abs_sub ((a : ℝ) * n) (n * q)
      have := mul_le_mul_of_nonneg_left hη1 hn
      linarith
    refine ⟨?_, e3⟩
    have := abs_sub_le ((fl64 (a * (n : ℚ)) : ℚ) : ℝ) ((a : ℝ) * n) (n * q)
    linarith
  obtain ⟨p1, p2⟩ := leg nP a qp hp0 hp1 ha
  obtain ⟨s1, s2⟩ := leg nS b qs hs0 hs1 hb
  obtain ⟨r1, r2⟩ := leg 2 r qr hr0 hr1 hr
  rw [show r * ((2 : ℕ) : ℚ) = 2 * r by push_cast; ring] at r1
  push_cast at r1 r2
  -- the bounds as numbers
  have y1 : (nP : ℝ) * (32 / 2 ^ 53 * W) ≤ nP * η := mul_le_mul_of_nonneg_left hη hnP
  have y2 : (nS : ℝ) * (32 / 2 ^ 53 * W) ≤ nS * η := mul_le_mul_of_nonneg_left hη hnS
  have z1 : (nP : ℝ) * η ≤ nP * W := mul_le_mul_of_nonneg_left hη1 hnP
  have z2 : (nS : ℝ) * η ≤ nS * W := mul_le_mul_of_nonneg_left hη1 hnS
  have w1 : 0 ≤ (nP : ℝ) * W := mul_nonneg hnP (hp0.trans hp1)
  have w2 : 0 ≤ (nS : ℝ) * W := mul_nonneg hnS (hp0.trans hp1)
  have hsum := fl64_real (fl64 (a * (nP : ℚ)) + fl64 (b * (nS : ℚ)))
  have hdif := fl64_real (fl64 (fl64 (a * (nP : ℚ)) + fl64 (b * (nS : ℚ))) - fl64 (2 * r))
  have hprd := fl64_real (fl64 (fl64 (fl64 (a * (nP : ℚ)) + fl64 (b * (nS : ℚ))) - fl64 (2 * r)) * dz)
  push_cast at hsum hdif hprd
  generalize ((fl64 (fl64 (fl64 (fl64 (a * (nP : ℚ)) + fl64 (b * (nS : ℚ))) - fl64 (2 * r)) * dz) : ℚ) : ℝ) = F at *
  generalize ((fl64 (fl64 (fl64 (a * (nP : ℚ)) + fl64 (b * (nS : ℚ))) - fl64 (2 * r)) : ℚ) : ℝ) = D at *
  generalize ((fl64 (fl64 (a * (nP : ℚ)) + fl64 (b * (nS : ℚ))) : ℚ) : ℝ) = S at *
  generalize ((fl64 (a * (nP : ℚ)) : ℚ) : ℝ) = A at *
  generalize ((fl64 (b * (nS : ℚ)) : ℚ) : ℝ) = B at *
  generalize ((fl64 (2 * r) : ℚ) : ℝ) = R at *
  generalize (nP : ℝ) * qp = eP at *
  generalize (nS : ℝ) * qs = eS at *
  have yP : 32 / 2 ^ 53 * ((nP : ℝ) * W) ≤ nP * η := by linarith
  have yS : 32 / 2 ^ 53 * ((nS : ℝ) * W) ≤ nS * η := by linarith
  have hM : (nP + nS + 2 : ℝ) * η = nP * η + nS * η + 2 * η := by ring
  have hMW : (nP + nS + 2 : ℝ) * W = nP * W + nS * W + 2 * W := by ring
  rw [hM, hMW]
  generalize (nP : ℝ) * W = xP at *
  generalize (nS : ℝ) * W = xS at *
  generalize (nP : ℝ) * η = gP at *
  generalize (nS : ℝ) * η = gS at *
  have a1 := abs_le.1 p1
  have a2 := abs_le.1 p2
  have a3 := abs_le.1 s1
  have a4 := abs_le.1 s2
  have a5 := abs_le.1 r1
  have a6 := abs_le.1 r2
  have c1 : |A + B| ≤ 3 * (xP + xS) := by
    rw [abs_le]; constructor <;> linarith
  have c2 := abs_le.1 (hsum.trans (div_le_div_of_nonneg_right c1 (by norm_num)))
  have c3 : |S - R| ≤ 4 * (xP + xS + 2 * W) := by
    rw [abs_le]; constructor <;> linarith
  have c4 := abs_le.1 (hdif.trans (div_le_div_of_nonneg_right c3 (by norm_num)))
  have c5 : |D - (eP + eS - 2 * qr)| ≤ 13 / 10 * (gP + gS + 2 * η) := by
    rw [abs_le]; constructor <;> linarith
  have c6 : |eP + eS - 2 * qr| ≤ xP + xS + 2 * W := by
    rw [abs_le]; constructor <;> linarith
  have c7 : |D| ≤ 3 * (xP + xS + 2 * W) := by
    have := abs_sub_abs_le_abs_sub D (eP + eS - 2 * qr)
    linarith
  have c8 : |D * (dz : ℝ)| ≤ 3 * (xP + xS + 2 * W) * dz := by
    rw [abs_mul, abs_of_nonneg hdz']
    exact mul_le_mul_of_nonneg_right c7 hdz'
  have c9 := hprd.trans (div_le_div_of_nonneg_right c8 (by norm_num))
  constructor
  · have e : |D * (dz : ℝ) - (eP + eS - 2 * qr) * dz| ≤ 13 / 10 * (gP + gS + 2 * η) * dz := by
      rw [← sub_mul, abs_mul, abs_of_nonneg hdz']
      exact mul_le_mul_of_nonneg_right c5 hdz'
    have := abs_sub_le F (D * (dz : ℝ)) ((eP + eS - 2 * qr) * dz)
    have key : 3 * (xP + xS + 2 * W) / 2 ^ 53 ≤ 1 / 10 * (gP + gS + 2 * η) := by linarith
    have key' := mul_le_mul_of_nonneg_right key hdz'
    have e2 : 3 * (xP + xS + 2 * W) * (dz : ℝ) / 2 ^ 53 = 3 * (xP + xS + 2 * W) / 2 ^ 53 * dz := by ring
    have pos : 0 ≤ (gP + gS + 2 * η) * (dz : ℝ) := by
      refine mul_nonneg ?_ hdz'
      linarith [abs_nonneg ((r : ℝ) - qr)]
    rw [e2] at c9
    linarith
  · rw [abs_mul, abs_of_nonneg hdz']
    exact mul_le_mul_of_nonneg_right c6 hdz'

/-- Sums one after the other.  `ds` are the exact summands, `zs` thicknesses, `e` and `g` the error and the size of summands per thickness. -/
theorem cumsum64_err (e g : ℝ) (he : 0 ≤ e) (heg : 2 * e ≤ g) (G : ℝ) : ∀ (l : List ℚ) (ds zs : List ℝ) (acc : ℚ) (S Z : ℝ) (k : ℕ),
    l.length = ds.length → l.length = zs.length → (∀ i < l.length, 0 ≤ zs.getD i 0 ∧ |(l.getD i 0 : ℝ) - ds.getD i 0| ≤ e * zs.getD i 0 ∧
      |ds.getD i 0| ≤ g * zs.getD i 0) → |(acc : ℝ) - S| ≤ e * Z + k * (4 * G / 2 ^ 53) → |S| ≤ g * Z → 0 ≤ Z → g * (Z + zs.sum) ≤ G →
      (k + l.length : ℝ) ≤ 2 ^ 50 →
      ∃ t : List ℚ, cumsum64 (some acc) (l.map some) = t.map some ∧ t.length = l.length ∧ ∀ i < l.length,
        |(t.getD i 0 : ℝ) - (S + (ds.take (i + 1)).sum)| ≤ e * (Z + (zs.take (i + 1)).sum) + (k + i + 1 : ℝ) * (4 * G / 2 ^ 53) := by
  intro l
  induction l with
  | nil => intro ds zs acc S Z k _ _ _ _ _ _ _ _; exact ⟨[], rfl, rfl, fun i hi => absurd hi (by simp)⟩
  | cons a l ih =>
    intro ds zs acc S Z k h1 h2 h3 h4 h5 h6 h7 h8
    cases ds with
    | nil => simp at h1
    | cons d ds =>
    cases zs with
    | nil => simp at h2
    | cons z zs =>
    have h0 := h3 0 (by simp)
    simp only [List.getD_cons_zero] at h0
    obtain ⟨z0, z1, z2⟩ := h0
    have hzs : 0 ≤ zs.sum := by
      refine List.sum_nonneg fun x hx => ?_
      obtain ⟨i, hi, rfl⟩ := List.mem_iff_getElem.1 hx
      have := (h3 (i + 1) (by simp only [List.length_cons] at h2 ⊢; omega)).1
      rw [List.getD_cons_succ, List.getD_eq_getElem _ _ hi] at this
      exact this
    rw [List.sum_cons] at h7
    have hg : 0 ≤ g := by linarith
    have hG1 : g * (Z + z) ≤ G := by
      refine le_trans (mul_le_mul_of_nonneg_left ?_ hg) h7
      linarith
    have hG0 : 0 ≤ G := le_trans (mul_nonneg hg (by linarith)) hG1
    have hk : (k : ℝ) ≤ 2 ^ 50 := by
      have : (0 : ℝ) ≤ ((a :: l).length : ℝ) := Nat.cast_nonneg _
      linarith
    have hkG : (k : ℝ) * (4 * G / 2 ^ 53) ≤ G := by
      have := mul_le_mul_of_nonneg_right hk (show 0 ≤ 4 * G / 2 ^ 53 by positivity)
      refine this.trans ?_
      linarith
    have heZ : e * (Z + z) ≤ G := by
      refine le_trans (mul_le_mul_of_nonneg_right ?_ (by linarith)) hG1
      linarith
    have hfl := fl64_real (acc + a)
    push_cast at hfl
    have b1 := abs_le.1 h4
    have b2 := abs_le.1 h5
    have b3 := abs_le.1 z1
    have b4 := abs_le.1 z2
    have c1 : |(acc : ℝ) + a| ≤ 4 * G := by
      rw [mul_add] at hG1 heZ
      rw [abs_le]
      constructor <;> linarith
    have c2 := abs_le.1 (hfl.trans (div_le_div_of_nonneg_right c1 (by norm_num)))
    obtain ⟨t, t1, t2, t3⟩ := ih ds zs (fl64 (acc + a)) (S + d) (Z + z) (k + 1) (by simpa using h1) (by simpa using h2)
      (fun i hi => by
        have := h3 (i + 1) (by simp; omega)
        simpa only [List.getD_cons_succ] using this)
      (by
        push_cast
        rw [abs_le]
        constructor <;> linarith)
      (by
        rw [mul_add, abs_le]
        constructor <;> linarith) (by linarith) (by rw [add_assoc]; exact h7) (by
          push_cast [List.length_cons] at h8 ⊢
          linarith)
    refine ⟨fl64 (acc + a) :: t, ?_, by simp [t2], fun i hi => ?_⟩
    · rw [List.map_cons, cumsum64, List.map_cons, ← t1]
    · cases i with
      | zero =>
        simp only [List.getD_cons_zero, List.take_succ_cons, List.take_zero, List.sum_cons, List.sum_nil, add_zero]
        push_cast
        rw [abs_le]
        constructor <;> linarith
      | succ i =>
        have := t3 i (by simpa using hi)
        simp only [List.getD_cons_succ, List.take_succ_cons, List.sum_cons]
        push_cast at this ⊢
        have e1 : S + (d + (ds.take (i + 1)).sum) = S + d + (ds.take (i + 1)).sum := by ring
        have e2 : Z + (z + (zs.take (i + 1)).sum) = Z + z + (zs.take (i + 1)).sum := by ring
        rw [e1, e2]
        refine this.trans_eq ?_
        ring

/-- One layer of a phase whose letters are P and S. -/
theorem layerDelay64_err (pw sq sqr : ℚ → ℚ) (ha : Accurate pw sq sqr) (ph : Str) (hhead : ph.head? = some 'P' ∨ ph.head? = some 'S') (l : Layer ℚ)
    (v s : ℚ) (hv : 0 < v) (hvs : v ≤ l.vs) (hvp : l.vs ≤ l.vp) (hdz : 0 ≤ l.dz) (c : ℝ) (hc : 1 / 2 ^ 20 ≤ c) (hc1 : c ≤ 1)
    (hcos : ((s : ℝ) / (1112 / 10)) ^ 2 ≤ (1 - c ^ 2) * (1 / (l.vp : ℝ) ^ 2)) :
    ∃ b : ℚ, layerDelay64 ph (if ph.contains 'P' then vslow64 pw sq sqr l.vp s else some 0)
        (if ph.contains 'S' then vslow64 pw sq sqr l.vs s else some 0) l.dz = some b ∧
      |(b : ℝ) - ((ph.count 'P' : ℝ) * qSpec Real.sqrt (l.vp : ℝ) (s : ℝ) + (ph.count 'S' : ℝ) * qSpec Real.sqrt (l.vs : ℝ) (s : ℝ)
        - 2 * (if ph.head? = some 'P' then qSpec Real.sqrt (l.vp : ℝ) (s : ℝ) else qSpec Real.sqrt (l.vs : ℝ) (s : ℝ))) * (l.dz : ℝ)|
        ≤ 2 * ((ph.count 'P' + ph.count 'S' + 2 : ℝ) * (32 / 2 ^ 53 / c * (1 / (v : ℝ)))) * (l.dz : ℝ) ∧
      |((ph.count 'P' : ℝ) * qSpec Real.sqrt (l.vp : ℝ) (s : ℝ) + (ph.count 'S' : ℝ) * qSpec Real.sqrt (l.vs : ℝ) (s : ℝ)
        - 2 * (if ph.head? = some 'P' then qSpec Real.sqrt (l.vp : ℝ) (s : ℝ) else qSpec Real.sqrt (l.vs : ℝ) (s : ℝ))) * (l.dz : ℝ)|
        ≤ (ph.count 'P' + ph.count 'S' + 2 : ℝ) * (1 / (v : ℝ)) * (l.dz : ℝ) := by
  have hc0 : 0 < c := lt_of_lt_of_le (by norm_num) hc
  have hv' : (0 : ℝ) < v := by exact_mod_cast hv
  have hvs' : (v : ℝ) ≤ l.vs := by exact_mod_cast hvs
  have hvp' : (l.vs : ℝ) ≤ l.vp := by exact_mod_cast hvp
  have w1 : 1 / (l.vs : ℝ) ≤ 1 / v := one_div_le_one_div_of_le hv' hvs'
  have w2 : 1 / (l.vp : ℝ) ≤ 1 / v := one_div_le_one_div_of_le hv' (hvs'.trans hvp')
  have hcos2 : ((s : ℝ) / (1112 / 10)) ^ 2 ≤ (1 - c ^ 2) * (1 / (l.vs : ℝ) ^ 2) := by
    refine hcos.trans (mul_le_mul_of_nonneg_left ?_ ?_)
    · have : (0 : ℝ) < l.vs := hv'.trans_le hvs'
      exact one_div_le_one_div_of_le (by positivity) (by gcongr)
    · nlinarith
  have hη0 : 0 ≤ 32 / 2 ^ 53 / c := by positivity
  have hηc : 32 / 2 ^ 53 ≤ 32 / 2 ^ 53 / c := by
    rw [le_div_iff₀ hc0]
    nlinarith
  have hη1 : 32 / 2 ^ 53 / c ≤ 1 := by
    rw [div_le_one hc0]
    refine le_trans ?_ hc
    norm_num
  have hW : 0 ≤ 1 / (v : ℝ) := by positivity
  obtain ⟨a, a1, a2, a3, a4⟩ := vslow64_err pw sq sqr ha l.vp s (hv.trans_le (hvs.trans hvp)) c hc hc1 hcos
  obtain ⟨b, b1, b2, b3, b4⟩ := vslow64_err pw sq sqr ha l.vs s (hv.trans_le hvs) c hc hc1 hcos2
  have a2' := a2.trans (mul_le_mul_of_nonneg_left w2 hη0)
  have b2' := b2.trans (mul_le_mul_of_nonneg_left w1 hη0)
  have a4' := a4.trans w2
  have b4' := b4.trans w1
  rw [a1, b1]
  generalize qSpec Real.sqrt (l.vp : ℝ) (s : ℝ) = qp at *
  generalize qSpec Real.sqrt (l.vs : ℝ) (s : ℝ) = qs at *
  have hη2 : 32 / 2 ^ 53 * (1 / (v : ℝ)) ≤ 32 / 2 ^ 53 / c * (1 / (v : ℝ)) := mul_le_mul_of_nonneg_right hηc hW
  have hη3 : 32 / 2 ^ 53 / c * (1 / (v : ℝ)) ≤ 1 / (v : ℝ) := by
    refine (mul_le_mul_of_nonneg_right hη1 hW).trans_eq (one_mul _)
  have hη4 : 0 ≤ 32 / 2 ^ 53 / c * (1 / (v : ℝ)) := mul_nonneg hη0 hW
  generalize 32 / 2 ^ 53 / c * (1 / (v : ℝ)) = η at *
  generalize 1 / (v : ℝ) = W at *
  -- slownesses which the code uses: 0 for a letter which does not occur
  obtain ⟨a', qp', hA, h1, h2, h3, h4⟩ : ∃ (a' : ℚ) (qp' : ℝ), (if ph.contains 'P' = true then some a else some 0) = some a' ∧ 0 ≤ qp' ∧ qp' ≤ W ∧
      |(a' : ℝ) - qp'| ≤ η ∧ (ph.count 'P' : ℝ) * qp = (ph.count 'P' : ℝ) * qp' ∧ (ph.contains 'P' = true → qp' = qp) := by
    by_cases h : ph.contains 'P' = true
    · exact ⟨a, qp, by rw [if_pos h], a3, a4', a2', rfl, fun _ => rfl⟩
    · refine ⟨0, 0, by rw [if_neg h], le_refl _, hW, by simpa using hη4, ?_, fun h' => absurd h' h⟩
      have : ph.count 'P' = 0 := List.count_eq_zero.2 (by simpa using h)
      rw [this]
      simp
  obtain ⟨b', qs', hB, k1, k2, k3, k4⟩ : ∃ (b' : ℚ) (qs' : ℝ), (if ph.contains 'S' = true then some b else some 0) = some b' ∧ 0 ≤ qs' ∧ qs' ≤ W ∧
      |(b' : ℝ) - qs'| ≤ η ∧ (ph.count 'S' : ℝ) * qs = (ph.count 'S' : ℝ) * qs' ∧ (ph.contains 'S' = true → qs' = qs) := by
    by_cases h : ph.contains 'S' = true
    · exact ⟨b, qs, by rw [if_pos h], b3, b4', b2', rfl, fun _ => rfl⟩
    · refine ⟨0, 0, by rw [if_neg h], le_refl _, hW, by simpa using hη4, ?_, fun h' => absurd h' h⟩
      have : ph.count 'S' = 0 := List.count_eq_zero.2 (by simpa using h)
      rw [this]
      simp
  have hr : (if ph.head? = some 'P' then qp else qs) = if ph.head? = some 'P' then qp' else qs' := by
    rcases hhead with h | h
    · rw [if_pos h, if_pos h, h4.2]
      cases ph with
      | nil => simp at h
      | cons x xs => simp at h; simp [h]
    · rw [if_neg (by simp [h]), if_neg (by simp [h]), k4.2]
      cases ph with
      | nil => simp at h
      | cons x xs => simp at h; simp [h]
  rw [hA, hB, hr, h4.1, k4.1]
  refine ⟨_, rfl, ?_⟩
  refine layer_err (ph.count 'P') (ph.count 'S') a' b' (if ph.head? = some 'P' then a' else b') l.dz qp' qs' _ W η h1 h2 k1 k2 ?_ ?_ h3 k3 ?_ hη2 hη3 hdz
  · split <;> assumption
  · split <;> assumption
  · split <;> assumption

/-- **C218**.  Delay times in double precision are within `(nP + nS + 2) * Z / v * (64 / c + 4 * n) * 2^-53` of the exact ones, where `Z` is the
total thickness, `v` the smallest velocity, `c` a lower bound of the cosines of the angles of incidence and `n` the number of layers. -/
theorem C218_delays (pw sq sqr : ℚ → ℚ) (ha : Accurate pw sq sqr) (m : SimpleModel ℚ) (layers : List (Layer ℚ))
    (hvp : m.vp = layers.map Layer.vp) (hvs : m.vs = layers.map Layer.vs) (hdz : m.dz = layers.map Layer.dz) (v s : ℚ) (hv : 0 < v)
    (hl : ∀ l ∈ layers, v ≤ l.vs ∧ l.vs ≤ l.vp ∧ 0 ≤ l.dz) (c : ℝ) (hc : 1 / 2 ^ 20 ≤ c) (hc1 : c ≤ 1)
    (hcos : ∀ l ∈ layers, ((s : ℝ) / (1112 / 10)) ^ 2 ≤ (1 - c ^ 2) * (1 / (l.vp : ℝ) ^ 2)) (hn : (layers.length : ℝ) ≤ 2 ^ 50)
    (phase : Str) (hhead : (upper phase).head? = some 'P' ∨ (upper phase).head? = some 'S') :
    ∃ t : List ℚ, delayTimes64 pw sq sqr m s phase = .ok (t.map some) ∧ t.length = layers.length ∧ ∀ k < layers.length,
      |(t.getD k 0 : ℝ) - delaySpec Real.sqrt ((upper phase).count 'P') ((upper phase).count 'S') ((upper phase).head? = some 'P')
          (layers.map realLayer) s k|
        ≤ ((upper phase).count 'P' + (upper phase).count 'S' + 2 : ℝ) * (((layers.map Layer.dz).sum : ℚ) / v) *
          ((64 / c + 4 * layers.length) / 2 ^ 53) := by
  have hne : upper phase ≠ [] := by
    rintro h
    rw [h] at hhead
    simp at hhead
  unfold delayTimes64 vertSlow64
  simp only
  rw [if_neg hne, hvp, hvs, hdz, List.map_map, List.map_map, zip3_map]
  simp only [Function.comp_def, upper_idem]
  generalize upper phase = ph at *
  have hv' : (0 : ℝ) < v := by exact_mod_cast hv
  have hc0 : 0 < c := lt_of_lt_of_le (by norm_num) hc
  -- the summands
  let N : ℝ := (ph.count 'P' + ph.count 'S' + 2 : ℝ)
  let W : ℝ := 1 / (v : ℝ)
  let η : ℝ := 32 / 2 ^ 53 / c * W
  let D : Layer ℚ → ℝ := fun l => ((ph.count 'P' : ℝ) * qSpec Real.sqrt (l.vp : ℝ) (s : ℝ) + (ph.count 'S' : ℝ) * qSpec Real.sqrt (l.vs : ℝ) (s : ℝ)
        - 2 * (if ph.head? = some 'P' then qSpec Real.sqrt (l.vp : ℝ) (s : ℝ) else qSpec Real.sqrt (l.vs : ℝ) (s : ℝ))) * (l.dz : ℝ)
  have hlay : ∀ l ∈ layers, ∃ b : ℚ, layerDelay64 ph (if ph.contains 'P' = true then vslow64 pw sq sqr l.vp s else some 0)
        (if ph.contains 'S' = true then vslow64 pw sq sqr l.vs s else some 0) l.dz = some b ∧ |(b : ℝ) - D l| ≤ 2 * (N * η) * l.dz ∧
        |D l| ≤ N * W * l.dz :=
    fun l h => layerDelay64_err pw sq sqr ha ph hhead l v s hv (hl l h).1 (hl l h).2.1 (hl l h).2.2 c hc hc1 (hcos l h)
  obtain ⟨bs, e1, e2, e3⟩ : ∃ bs : List ℚ, (layers.map fun l => layerDelay64 ph (if ph.contains 'P' = true then vslow64 pw sq sqr l.vp s else some 0)
        (if ph.contains 'S' = true then vslow64 pw sq sqr l.vs s else some 0) l.dz) = bs.map some ∧ bs.length = layers.length ∧
        ∀ i < layers.length, 0 ≤ (layers.map fun l => (l.dz : ℝ)).getD i 0 ∧
          |(bs.getD i 0 : ℝ) - (layers.map D).getD i 0| ≤ 2 * (N * η) * (layers.map fun l => (l.dz : ℝ)).getD i 0 ∧
          |(layers.map D).getD i 0| ≤ N * W * (layers.map fun l => (l.dz : ℝ)).getD i 0 := by
    clear hn hvp hvs hdz
    induction layers with
    | nil => exact ⟨[], rfl, rfl, fun i hi => absurd hi (by simp)⟩
    | cons l layers ih =>
      obtain ⟨bs, i1, i2, i3⟩ := ih (fun x hx => hl x (by simp [hx])) (fun x hx => hcos x (by simp [hx])) (fun x hx => hlay x (by simp [hx]))
      obtain ⟨b, b1, b2, b3⟩ := hlay l (by simp)
      refine ⟨b :: bs, by rw [List.map_cons, b1, i1, List.map_cons], by simp [i2], fun i hi => ?_⟩
      cases i with
      | zero =>
        simp only [List.map_cons, List.getD_cons_zero]
        exact ⟨by exact_mod_cast (hl l (by simp)).2.2, b2, b3⟩
      | succ i =>
        simp only [List.map_cons, List.getD_cons_succ]
        exact i3 i (by simpa using hi)
  rw [e1]
  have hN : 0 ≤ N := by positivity
  have hW : 0 < W := by positivity
  have hη : 4 * η ≤ W := by
    have : 4 * (32 / 2 ^ 53 / c) ≤ 1 := by
      rw [← mul_div_assoc, div_le_one hc0]
      refine le_trans ?_ hc
      norm_num
    have := mul_le_mul_of_nonneg_right this hW.le
    simp only [η]
    linarith
  have hη0 : 0 ≤ η := by positivity
  have hZ : (((layers.map Layer.dz).sum : ℚ) : ℝ) = (layers.map fun l => (l.dz : ℝ)).sum := by
    clear hn hvp hvs hdz e1 e2 e3 hlay hcos hl
    induction layers with
    | nil => simp
    | cons l layers ih => simp only [List.map_cons, List.sum_cons]; rw [Rat.cast_add, ih]
  obtain ⟨t, t1, t2, t3⟩ := cumsum64_err (2 * (N * η)) (N * W) (by positivity) (by nlinarith) (N * W * (layers.map fun l => (l.dz : ℝ)).sum) bs
    (layers.map D) (layers.map fun l => (l.dz : ℝ)) 0 0 0 0 (by simp [e2]) (by simp [e2]) (by rw [e2]; exact e3) (by simp) (by simp) (le_refl _)
    (by simp) (by rw [e2]; simpa using hn)
  refine ⟨t, by rw [t1], by rw [t2, e2], fun k hk => ?_⟩
  have h := t3 k (by rw [e2]; exact hk)
  rw [hZ]
  have hspec : delaySpec Real.sqrt (ph.count 'P') (ph.count 'S') (ph.head? = some 'P') (layers.map realLayer) (s : ℝ) k
      = 0 + ((layers.map D).take (k + 1)).sum := by
    unfold delaySpec
    rw [zero_add, ← List.map_take, ← List.map_take, List.map_map]
    simp only [Function.comp_def, realLayer, D, decide_eq_true_eq]
  rw [hspec]
  refine h.trans ?_
  have hz : ((layers.map fun l => (l.dz : ℝ)).take (k + 1)).sum ≤ (layers.map fun l => (l.dz : ℝ)).sum := by
    rw [← List.sum_take_add_sum_drop (layers.map fun l => (l.dz : ℝ)) (k + 1)]
    refine le_add_of_nonneg_right (List.sum_nonneg fun x hx => ?_)
    obtain ⟨l, h1, rfl⟩ := List.mem_map.1 (List.mem_of_mem_drop hx)
    exact_mod_cast (hl l h1).2.2
  have hZ0 : 0 ≤ (layers.map fun l => (l.dz : ℝ)).sum := by
    refine List.sum_nonneg fun x hx => ?_
    obtain ⟨l, h1, rfl⟩ := List.mem_map.1 hx
    exact_mod_cast (hl l h1).2.2
  have hk' : ((0 : ℕ) + k + 1 : ℝ) ≤ layers.length := by
    have : k + 1 ≤ layers.length := hk
    have : ((k + 1 : ℕ) : ℝ) ≤ layers.length := by exact_mod_cast this
    push_cast at this ⊢
    linarith
  rw [zero_add]
  generalize (layers.map fun l => (l.dz : ℝ)).sum = Z at *
  have f1 := mul_le_mul_of_nonneg_left hz (show 0 ≤ 2 * (N * η) by positivity)
  have f2 := mul_le_mul_of_nonneg_right hk' (show 0 ≤ 4 * (N * W * Z) / 2 ^ 53 by positivity)
  refine (add_le_add f1 f2).trans_eq ?_
  simp only [η, W, N]
  field_simp
  ring

/-- There are such library functions: correctly rounded squares and inverse squares, and rational numbers close enough to the roots. -/
theorem accurate_exists : ∃ sq : ℚ → ℚ, Accurate (fun v => fl64 (1 / v ^ 2)) sq (fun y => fl64 (y ^ 2)) := by
  have h : ∀ x : ℚ, ∃ q : ℚ, 0 ≤ x → |((q : ℚ) : ℝ) - Real.sqrt x| ≤ Real.sqrt x * (4 / 2 ^ 53) := by
    intro x
    by_cases hx : 0 < Real.sqrt (x : ℝ)
    · obtain ⟨q, h1, h2⟩ := exists_rat_btwn (show Real.sqrt (x : ℝ) < Real.sqrt x + Real.sqrt x * (4 / 2 ^ 53) by
        have : 0 < Real.sqrt (x : ℝ) * (4 / 2 ^ 53) := by positivity
        linarith)
      refine ⟨q, fun _ => ?_⟩
      rw [abs_le]
      have : 0 < Real.sqrt (x : ℝ) * (4 / 2 ^ 53) := by positivity
      constructor <;> linarith
    · refine ⟨0, fun _ => ?_⟩
      have : Real.sqrt (x : ℝ) = 0 := le_antisymm (not_lt.1 hx) (Real.sqrt_nonneg _)
      rw [this]
      simp
  choose sq hsq using h
  refine ⟨sq, ⟨fun v hv => ?_, fun x hx => hsq x hx, fun y => ?_⟩⟩
  · have hv' : (0 : ℝ) < v := by exact_mod_cast hv
    have := fl64_real (1 / v ^ 2)
    push_cast at this
    have e : 0 < 1 / (v : ℝ) ^ 2 := by positivity
    rw [abs_of_pos e] at this
    refine this.trans ?_
    linarith
  · have := fl64_real (y ^ 2)
    push_cast at this
    rw [abs_of_nonneg (sq_nonneg (y : ℝ))] at this
    refine this.trans ?_
    have := sq_nonneg (y : ℝ)
    linarith

/-- A model with three layers of together 75 km, the phase Ps at 6.4 s/deg (cosines of at least 1/2): the delay times are accurate to 1e-11 s. -/
example : ∃ sq : ℚ → ℚ, ∃ t : List ℚ,
    delayTimes64 (fun v => fl64 (1 / v ^ 2)) sq (fun y => fl64 (y ^ 2))
      ⟨[0, 20, 35], [20, 15, 40], [58 / 10, 65 / 10, 8], [336 / 100, 375 / 100, 447 / 100], []⟩ (64 / 10) "Ps".toList = .ok (t.map some) ∧
    t.length = 3 ∧ ∀ k < 3, |(t.getD k 0 : ℝ) - delaySpec Real.sqrt 1 1 true
      ([⟨58 / 10, 336 / 100, 20⟩, ⟨65 / 10, 375 / 100, 15⟩, ⟨8, 447 / 100, 40⟩].map realLayer) ((64 / 10 : ℚ) : ℝ) k| ≤ 1 / 10 ^ 11 := by
  obtain ⟨sq, ha⟩ := accurate_exists
  obtain ⟨t, h1, h2, h3⟩ := C218_delays _ sq _ ha ⟨[0, 20, 35], [20, 15, 40], [58 / 10, 65 / 10, 8], [336 / 100, 375 / 100, 447 / 100], []⟩
    [⟨58 / 10, 336 / 100, 20⟩, ⟨65 / 10, 375 / 100, 15⟩, ⟨8, 447 / 100, 40⟩] rfl rfl rfl (336 / 100) (64 / 10) (by norm_num) (by decide +kernel)
    (1 / 2) (by norm_num) (by norm_num) (by
      intro l hl
      simp only [List.mem_cons, List.not_mem_nil, or_false] at hl
      rcases hl with rfl | rfl | rfl <;> norm_num) (by norm_num) "Ps".toList (.inl (by decide))
  refine ⟨sq, t, h1, h2, fun k hk => (h3 k hk).trans ?_⟩
  have e1 : (upper "Ps".toList).count 'P' = 1 := by decide
  have e2 : (upper "Ps".toList).count 'S' = 1 := by decide
  rw [e1, e2]
  norm_num

end Verif.Props
