import Verif.Model.DoublePpoint
import Verif.Props.DoubleTables
import Verif.Props.Ppoint
import Verif.Props.MoveoutStream

/-!
# C220: distances of piercing points in double precision are close to the exact ones
-/

set_option linter.unusedSimpArgs false
set_option linter.unusedSectionVars false

namespace Verif.Props
open Verif.Py Verif.Model Verif.Model.Simple Verif.Model.DoubleDelay Verif.Model.DoublePpoint Verif.Spec

/-- `dz * slowness / DEG2KM` in double precision. -/
theorem ppNum_err (dz s : ℚ) :
    |((fl64 (fl64 (dz * s) / fl64 deg2km) : ℚ) : ℝ) - (s : ℝ) / (1112 / 10) * dz| ≤ |(s : ℝ) / (1112 / 10) * dz| * (8 / 2 ^ 53) := by
  have dpos : |((fl64 deg2km : ℚ) : ℝ) - 1112 / 10| ≤ 1112 / 10 / 2 ^ 53 := by
    have := fl64_real deg2km
    unfold deg2km at this ⊢
    push_cast at this
    rwa [abs_of_pos (show (0 : ℝ) < 1112 / 10 by norm_num)] at this
  have h1 := fl64_real (dz * s)
  have h2 := fl64_real (fl64 (dz * s) / fl64 deg2km)
  push_cast at h1 h2
  generalize ((fl64 (fl64 (dz * s) / fl64 deg2km) : ℚ) : ℝ) = F at *
  generalize ((fl64 (dz * s) : ℚ) : ℝ) = a at *
  generalize ((fl64 deg2km : ℚ) : ℝ) = D at *
  obtain ⟨l, u⟩ := abs_le.1 dpos
  have hD : 0 < D := by
    have : (1112 / 10 / 2 ^ 53 : ℝ) < 1 := by norm_num
    linarith
  have e0 : (dz : ℝ) * s = (s : ℝ) / (1112 / 10) * dz * (1112 / 10) := by ring
  rw [e0] at h1
  generalize (s : ℝ) / (1112 / 10) * dz = N at *
  -- a = N * 111.2 up to one rounding
  have e1 : |a / (1112 / 10) - N| ≤ |N| / 2 ^ 53 := by
    have : a / (1112 / 10) - N = (a - N * (1112 / 10)) / (1112 / 10) := by field_simp
    rw [this, abs_div, abs_of_pos (show (0 : ℝ) < 1112 / 10 by norm_num), div_le_iff₀ (by norm_num)]
    rw [abs_mul, abs_of_pos (show (0 : ℝ) < 1112 / 10 by norm_num)] at h1
    linarith
  generalize hb : a / (1112 / 10) = b at *
  have hb2 : |b| ≤ |N| * 2 := by
    have := abs_sub_abs_le_abs_sub b N
    have := abs_nonneg N
    linarith
  have e2 : |a / D - b| ≤ |b| * (2 / 2 ^ 53) := by
    have : a / D - b = b * ((1112 / 10 - D) / D) := by
      rw [← hb]
      field_simp
    rw [this, abs_mul]
    refine mul_le_mul_of_nonneg_left ?_ (abs_nonneg b)
    rw [abs_div, abs_of_pos hD, div_le_iff₀ hD, abs_le]
    constructor <;> linarith
  generalize a / D = x at *
  have hx : |x| ≤ |N| * 3 := by
    have := abs_sub_abs_le_abs_sub x b
    have := abs_nonneg N
    linarith
  have h3 := abs_sub_le F x N
  have h4 := abs_sub_le x b N
  have := abs_nonneg N
  linarith

/-- One layer and one leg: `dz * slowness / DEG2KM / q`. -/
theorem ppTerm_err (pw sq sqr : ℚ → ℚ) (ha : Accurate pw sq sqr) (v vp s dz : ℚ) (hv : 0 < v) (hvp : v ≤ vp) (hdz : 0 ≤ dz) (c : ℝ)
    (hc : 1 / 2 ^ 20 ≤ c) (hc1 : c ≤ 1) (hcos : ((s : ℝ) / (1112 / 10)) ^ 2 ≤ (1 - c ^ 2) * (1 / (vp : ℝ) ^ 2)) :
    ∃ q, vslow64 pw sq sqr v s = some q ∧ q ≠ 0 ∧
      |((fl64 (fl64 (fl64 (dz * s) / fl64 deg2km) / q) : ℚ) : ℝ) - (s : ℝ) / (1112 / 10) / qSpec Real.sqrt (v : ℝ) (s : ℝ) * dz|
        ≤ 64 / 2 ^ 53 / c ^ 3 * dz ∧
      |(s : ℝ) / (1112 / 10) / qSpec Real.sqrt (v : ℝ) (s : ℝ) * dz| ≤ 1 / c * dz := by
  have hc0 : 0 < c := lt_of_lt_of_le (by norm_num) hc
  have hv' : (0 : ℝ) < v := by exact_mod_cast hv
  have hvp' : (v : ℝ) ≤ vp := by exact_mod_cast hvp
  have hdz' : (0 : ℝ) ≤ dz := by exact_mod_cast hdz
  have hinv : 1 / (vp : ℝ) ^ 2 ≤ 1 / (v : ℝ) ^ 2 := one_div_le_one_div_of_le (by positivity) (by gcongr)
  have h1c : 0 ≤ 1 - c ^ 2 := by nlinarith
  have hcos2 : ((s : ℝ) / (1112 / 10)) ^ 2 ≤ (1 - c ^ 2) * (1 / (v : ℝ) ^ 2) := hcos.trans (mul_le_mul_of_nonneg_left hinv h1c)
  obtain ⟨q, q1, q2, q3, q4⟩ := vslow64_err pw sq sqr ha v s hv c hc hc1 hcos2
  have hcc : 1 / 2 ^ 40 ≤ c ^ 2 := by
    have := mul_le_mul hc hc (by norm_num) hc0.le
    rw [pow_two]
    refine le_trans ?_ this
    norm_num
  -- lower bound of the vertical slowness
  have hQ : c * (1 / (v : ℝ)) ≤ qSpec Real.sqrt (v : ℝ) (s : ℝ) := by
    unfold qSpec
    refine Real.le_sqrt_of_sq_le ?_
    have : (c * (1 / (v : ℝ))) ^ 2 = c ^ 2 * (1 / (v : ℝ) ^ 2) := by rw [mul_pow, div_pow, one_pow]
    rw [this]
    linarith
  have hh : |(s : ℝ) / (1112 / 10)| ≤ 1 / (v : ℝ) := by
    refine abs_le_of_sq_le_sq ?_ (by positivity)
    rw [div_pow 1, one_pow]
    refine hcos2.trans ?_
    have : 0 ≤ c ^ 2 * (1 / (v : ℝ) ^ 2) := by positivity
    linarith
  generalize qSpec Real.sqrt (v : ℝ) (s : ℝ) = Q at *
  have hcv : 0 < c * (1 / (v : ℝ)) := by positivity
  have hQ0 : 0 < Q := hcv.trans_le hQ
  have hρ : |(q : ℝ) - Q| ≤ 32 / 2 ^ 53 / c ^ 2 * Q := by
    refine q2.trans ?_
    have e : 32 / 2 ^ 53 / c * (1 / (v : ℝ)) = 32 / 2 ^ 53 / c ^ 2 * (c * (1 / (v : ℝ))) := by field_simp
    rw [e]
    exact mul_le_mul_of_nonneg_left hQ (by positivity)
  have hρ1 : 32 / 2 ^ 53 / c ^ 2 ≤ 1 / 2 ^ 8 := by
    rw [div_le_iff₀ (by positivity)]
    refine le_trans ?_ (mul_le_mul_of_nonneg_left hcc (by norm_num))
    norm_num
  have hu : 1 / 2 ^ 53 ≤ 1 / 32 * (32 / 2 ^ 53 / c ^ 2) := by
    have : 1 / 32 * (32 / 2 ^ 53 / c ^ 2) = 1 / 2 ^ 53 / c ^ 2 := by ring
    rw [this, le_div_iff₀ (by positivity)]
    have : c ^ 2 ≤ 1 := by nlinarith
    linarith
  have hfin : 64 / 2 ^ 53 / c ^ 3 * (dz : ℝ) = 2 * (32 / 2 ^ 53 / c ^ 2) * (1 / c * dz) := by field_simp; ring
  rw [hfin]
  generalize 32 / 2 ^ 53 / c ^ 2 = ρ at *
  have hρ0 : 0 < ρ := by
    have : (0 : ℝ) < 1 / 2 ^ 53 := by norm_num
    linarith
  have hqQ : (255 / 256) * Q ≤ (q : ℝ) := by
    have := (abs_le.1 hρ).1
    have := mul_le_mul_of_nonneg_right hρ1 hQ0.le
    linarith
  have hq0 : (0 : ℝ) < q := lt_of_lt_of_le (by positivity) hqQ
  have hT : |(s : ℝ) / (1112 / 10) / Q * dz| ≤ 1 / c * dz := by
    rw [abs_mul, abs_of_nonneg hdz', abs_div, abs_of_pos hQ0]
    refine mul_le_mul_of_nonneg_right ?_ hdz'
    rw [div_le_iff₀ hQ0]
    refine hh.trans ?_
    rw [div_mul_eq_mul_div, one_mul, le_div_iff₀ hc0]
    linarith
  refine ⟨q, q1, by rintro rfl; simp at hq0, ?_, hT⟩
  have hN := ppNum_err dz s
  have hF := fl64_real (fl64 (fl64 (dz * s) / fl64 deg2km) / q)
  push_cast at hF
  have eT : (s : ℝ) / (1112 / 10) / Q * dz = (s : ℝ) / (1112 / 10) * dz / Q := by ring
  rw [eT] at hT ⊢
  generalize ((fl64 (fl64 (fl64 (dz * s) / fl64 deg2km) / q) : ℚ) : ℝ) = F at *
  generalize ((fl64 (fl64 (dz * s) / fl64 deg2km) : ℚ) : ℝ) = n at *
  generalize (s : ℝ) / (1112 / 10) * dz = N at *
  -- the quotient
  have hdiv : |n / q - N / Q| ≤ |N / Q| * (256 / 255 * (8 / 2 ^ 53 + ρ)) := by
    have e : n / q - N / Q = ((n - N) * Q + N * (Q - q)) / (q * Q) := by field_simp; ring
    rw [e, abs_div, abs_of_pos (mul_pos hq0 hQ0), div_le_iff₀ (mul_pos hq0 hQ0), abs_div, abs_of_pos hQ0]
    have a1 : |(n - N) * Q + N * (Q - q)| ≤ |N| * (8 / 2 ^ 53) * Q + |N| * (ρ * Q) := by
      refine (abs_add_le _ _).trans (add_le_add ?_ ?_)
      · rw [abs_mul, abs_of_pos hQ0]
        exact mul_le_mul_of_nonneg_right hN hQ0.le
      · rw [abs_mul, abs_sub_comm Q]
        exact mul_le_mul_of_nonneg_left hρ (abs_nonneg N)
    refine a1.trans ?_
    have e2 : |N| / Q * (256 / 255 * (8 / 2 ^ 53 + ρ)) * (q * Q) = |N| * (8 / 2 ^ 53 + ρ) * (256 / 255 * q) := by field_simp
    rw [e2]
    have e3 : |N| * (8 / 2 ^ 53) * Q + |N| * (ρ * Q) = |N| * (8 / 2 ^ 53 + ρ) * Q := by ring
    rw [e3]
    refine mul_le_mul_of_nonneg_left ?_ (by positivity)
    linarith
  generalize N / Q = T at *
  generalize n / (q : ℝ) = x at *
  have hx : |x| ≤ |T| * 2 := by
    have h1 := abs_sub_abs_le_abs_sub x T
    have h2 : |T| * (256 / 255 * (8 / 2 ^ 53 + ρ)) ≤ |T| * 1 := mul_le_mul_of_nonneg_left (by linarith) (abs_nonneg T)
    linarith
  have h3 := abs_sub_le F x T
  have h4 : |T| * (256 / 255 * (8 / 2 ^ 53 + ρ)) + |T| * 2 / 2 ^ 53 ≤ |T| * (2 * ρ) := by
    have : |T| * (256 / 255 * (8 / 2 ^ 53 + ρ)) + |T| * 2 / 2 ^ 53 = |T| * (256 / 255 * (8 / 2 ^ 53 + ρ) + 2 / 2 ^ 53) := by ring
    rw [this]
    exact mul_le_mul_of_nonneg_left (by linarith) (abs_nonneg T)
  have h5 := mul_le_mul_of_nonneg_right hT (show 0 ≤ 2 * ρ by positivity)
  linarith

/-- Sums over the layers for one kind of leg, with velocities `f`. -/
theorem ppSum64_err (pw sq sqr : ℚ → ℚ) (ha : Accurate pw sq sqr) (layers : List (Layer ℚ)) (f : Layer ℚ → ℚ) (s : ℚ)
    (hl : ∀ l ∈ layers, 0 < f l ∧ f l ≤ l.vp ∧ 0 ≤ l.dz) (c : ℝ) (hc : 1 / 2 ^ 20 ≤ c) (hc1 : c ≤ 1)
    (hcos : ∀ l ∈ layers, ((s : ℝ) / (1112 / 10)) ^ 2 ≤ (1 - c ^ 2) * (1 / (l.vp : ℝ) ^ 2)) (hn : (layers.length : ℝ) ≤ 2 ^ 50) :
    ∃ t : List ℚ, ppSum64 (layers.map Layer.dz) s (layers.map fun l => vslow64 pw sq sqr (f l) s) = t.map some ∧ t.length = layers.length ∧
      ∀ k < layers.length,
        |(t.getD k 0 : ℝ) - ((layers.take (k + 1)).map fun l => (s : ℝ) / (1112 / 10) / qSpec Real.sqrt (f l : ℝ) (s : ℝ) * (l.dz : ℝ)).sum|
          ≤ (layers.map fun l => (l.dz : ℝ)).sum / c * ((64 / c ^ 2 + 4 * layers.length) / 2 ^ 53) ∧
        |((layers.take (k + 1)).map fun l => (s : ℝ) / (1112 / 10) / qSpec Real.sqrt (f l : ℝ) (s : ℝ) * (l.dz : ℝ)).sum|
          ≤ (layers.map fun l => (l.dz : ℝ)).sum / c := by
  have hc0 : 0 < c := lt_of_lt_of_le (by norm_num) hc
  let D : Layer ℚ → ℝ := fun l => (s : ℝ) / (1112 / 10) / qSpec Real.sqrt (f l : ℝ) (s : ℝ) * (l.dz : ℝ)
  have hlay : ∀ l ∈ layers, ∃ b : ℚ, ((vslow64 pw sq sqr (f l) s).bind fun q =>
        if q = 0 then none else some (fl64 (fl64 (fl64 (l.dz * s) / fl64 deg2km) / q))) = some b ∧ |(b : ℝ) - D l| ≤ 64 / 2 ^ 53 / c ^ 3 * l.dz ∧
        |D l| ≤ 1 / c * l.dz := by
    intro l h
    obtain ⟨q, q1, q2, q3, q4⟩ := ppTerm_err pw sq sqr ha (f l) l.vp s l.dz (hl l h).1 (hl l h).2.1 (hl l h).2.2 c hc hc1 (hcos l h)
    refine ⟨_, ?_, q3, q4⟩
    rw [q1]
    simp [q2]
  obtain ⟨bs, e1, e2, e3⟩ : ∃ bs : List ℚ, (List.zipWith (fun d (q : Option ℚ) => q.bind fun q =>
        if q = 0 then none else some (fl64 (fl64 (fl64 (d * s) / fl64 deg2km) / q))) (layers.map Layer.dz)
          (layers.map fun l => vslow64 pw sq sqr (f l) s)) = bs.map some ∧ bs.length = layers.length ∧
        ∀ i < layers.length, 0 ≤ (layers.map fun l => (l.dz : ℝ)).getD i 0 ∧
          |(bs.getD i 0 : ℝ) - (layers.map D).getD i 0| ≤ 64 / 2 ^ 53 / c ^ 3 * (layers.map fun l => (l.dz : ℝ)).getD i 0 ∧
          |(layers.map D).getD i 0| ≤ 1 / c * (layers.map fun l => (l.dz : ℝ)).getD i 0 := by
    clear hn
    induction layers with
    | nil => exact ⟨[], rfl, rfl, fun i hi => absurd hi (by simp)⟩
    | cons l layers ih =>
      obtain ⟨bs, i1, i2, i3⟩ := ih (fun x hx => hl x (by simp [hx])) (fun x hx => hcos x (by simp [hx])) (fun x hx => hlay x (by simp [hx]))
      obtain ⟨b, b1, b2, b3⟩ := hlay l (by simp)
      refine ⟨b :: bs, by rw [List.map_cons, List.map_cons, List.zipWith_cons_cons, b1, i1, List.map_cons], by simp [i2], fun i hi => ?_⟩
      cases i with
      | zero =>
        simp only [List.map_cons, List.getD_cons_zero]
        exact ⟨by exact_mod_cast (hl l (by simp)).2.2, b2, b3⟩
      | succ i =>
        simp only [List.map_cons, List.getD_cons_succ]
        exact i3 i (by simpa using hi)
  have hcc : 1 / 2 ^ 40 ≤ c ^ 2 := by
    have := mul_le_mul hc hc (by norm_num) hc0.le
    rw [pow_two]
    refine le_trans ?_ this
    norm_num
  obtain ⟨t, t1, t2, t3⟩ := cumsum64_err (64 / 2 ^ 53 / c ^ 3) (1 / c) (by positivity) (by
      have : 2 * (64 / 2 ^ 53 / c ^ 3) = 128 / 2 ^ 53 / c ^ 2 * (1 / c) := by field_simp; norm_num
      rw [this]
      have h1 : 128 / 2 ^ 53 / c ^ 2 ≤ 1 := by
        rw [div_le_one (by positivity)]
        refine le_trans ?_ hcc
        norm_num
      exact (mul_le_mul_of_nonneg_right h1 (by positivity)).trans_eq (one_mul _))
    (1 / c * (layers.map fun l => (l.dz : ℝ)).sum) bs (layers.map D) (layers.map fun l => (l.dz : ℝ)) 0 0 0 0 (by simp [e2]) (by simp [e2])
    (by rw [e2]; exact e3) (by simp) (by simp) (le_refl _) (by simp) (by rw [e2]; simpa using hn)
  refine ⟨t, ?_, by rw [t2, e2], fun k hk => ?_⟩
  · unfold ppSum64
    rw [e1, t1]
  have h := t3 k (by rw [e2]; exact hk)
  have hz : ((layers.map fun l => (l.dz : ℝ)).take (k + 1)).sum ≤ (layers.map fun l => (l.dz : ℝ)).sum := by
    rw [← List.sum_take_add_sum_drop (layers.map fun l => (l.dz : ℝ)) (k + 1)]
    refine le_add_of_nonneg_right (List.sum_nonneg fun x hx => ?_)
    obtain ⟨l, h1, rfl⟩ := List.mem_map.1 (List.mem_of_mem_drop hx)
    exact_mod_cast (hl l h1).2.2
  have hZ0 : 0 ≤ (layers.map fun l => (l.dz : ℝ)).sum := by
    refine List.sum_nonneg fun x hx => ?_
    obtain ⟨l, h1, rfl⟩ := List.mem_map.1 hx
    exact_mod_cast (hl l h1).2.2
  constructor
  · have hk' : ((0 : ℕ) + k + 1 : ℝ) ≤ layers.length := by
      have : k + 1 ≤ layers.length := hk
      have : ((k + 1 : ℕ) : ℝ) ≤ layers.length := by exact_mod_cast this
      push_cast at this ⊢
      linarith
    rw [zero_add, zero_add, ← List.map_take] at h
    refine h.trans ?_
    generalize (layers.map fun l => (l.dz : ℝ)).sum = Z at *
    have f1 := mul_le_mul_of_nonneg_left hz (show 0 ≤ 64 / 2 ^ 53 / c ^ 3 by positivity)
    have f2 := mul_le_mul_of_nonneg_right hk' (show 0 ≤ 4 * (1 / c * Z) / 2 ^ 53 by positivity)
    refine (add_le_add f1 f2).trans_eq ?_
    field_simp
  · have habs : ∀ L : List (Layer ℚ), (∀ l ∈ L, l ∈ layers) → |(L.map D).sum| ≤ 1 / c * (L.map fun l => (l.dz : ℝ)).sum := by
      intro L
      induction L with
      | nil => intro _; simp
      | cons l L ih =>
        intro hL
        obtain ⟨b, _, _, b3⟩ := hlay l (hL l (by simp))
        simp only [List.map_cons, List.sum_cons]
        refine (abs_add_le _ _).trans ?_
        rw [mul_add]
        exact add_le_add b3 (ih fun x hx => hL x (by simp [hx]))
    refine (habs _ fun l hm => List.mem_of_mem_take hm).trans ?_
    rw [List.map_take]
    refine (mul_le_mul_of_nonneg_left hz (by positivity)).trans_eq ?_
    ring

/-- Product with the number of legs. -/
theorem ppLeg_err (n : ℕ) (x : ℚ) (X E M : ℝ) (h1 : |(x : ℝ) - X| ≤ E) (h2 : |X| ≤ M) (hEM : E ≤ M) :
    |((fl64 (x * (n : ℚ)) : ℚ) : ℝ) - n * X| ≤ n * (E + 2 / 2 ^ 53 * M) ∧ |(n : ℝ) * X| ≤ n * M := by
  have hn : (0 : ℝ) ≤ n := Nat.cast_nonneg _
  have h := fl64_real (x * (n : ℚ))
  push_cast at h
  have e3 : |(n : ℝ) * X| ≤ n * M := by
    rw [abs_mul, abs_of_nonneg hn]
    exact mul_le_mul_of_nonneg_left h2 hn
  refine ⟨?_, e3⟩
  have e2 : |(x : ℝ) * n - n * X| ≤ n * E := by
    rw [show (x : ℝ) * n - n * X = n * (x - X) by ring, abs_mul, abs_of_nonneg hn]
    exact mul_le_mul_of_nonneg_left h1 hn
  have e4 : |(x : ℝ) * n| ≤ n * M * 2 := by
    have := abs_sub_abs_le_abs_sub ((x : ℝ) * n) (n * X)
    have := mul_le_mul_of_nonneg_left hEM hn
    linarith
  have := abs_sub_le ((fl64 (x * (n : ℚ)) : ℚ) : ℝ) ((x : ℝ) * n) (n * X)
  rw [mul_add]
  linarith

/-- Sum of the two kinds of legs. -/
theorem ppAdd_err (a b : ℚ) (A B E1 E2 M1 M2 : ℝ) (h1 : |(a : ℝ) - A| ≤ E1) (h2 : |(b : ℝ) - B| ≤ E2) (h3 : |A| ≤ M1) (h4 : |B| ≤ M2)
    (h5 : E1 ≤ 2 * M1) (h6 : E2 ≤ 2 * M2) :
    |((fl64 (a + b) : ℚ) : ℝ) - (A + B)| ≤ E1 + E2 + 3 / 2 ^ 53 * (M1 + M2) := by
  have h := fl64_real (a + b)
  push_cast at h
  have a1 := abs_le.1 h1
  have a2 := abs_le.1 h2
  have a3 := abs_le.1 h3
  have a4 := abs_le.1 h4
  have e : |(a : ℝ) + b| ≤ 3 * (M1 + M2) := by
    rw [abs_le]; constructor <;> linarith
  have a5 := abs_le.1 (h.trans (div_le_div_of_nonneg_right e (by norm_num)))
  rw [abs_le]
  constructor <;> linarith

/-- The distances accumulated by the code in double precision. -/
theorem ppX64_err (pw sq sqr : ℚ → ℚ) (ha : Accurate pw sq sqr) (m : SimpleModel ℚ) (layers : List (Layer ℚ))
    (hvp : m.vp = layers.map Layer.vp) (hvs : m.vs = layers.map Layer.vs) (hdz : m.dz = layers.map Layer.dz) (s : ℚ)
    (hl : ∀ l ∈ layers, 0 < l.vs ∧ l.vs ≤ l.vp ∧ 0 ≤ l.dz) (c : ℝ) (hc : 1 / 2 ^ 20 ≤ c) (hc1 : c ≤ 1)
    (hcos : ∀ l ∈ layers, ((s : ℝ) / (1112 / 10)) ^ 2 ≤ (1 - c ^ 2) * (1 / (l.vp : ℝ) ^ 2)) (hn : (layers.length : ℝ) ≤ 2 ^ 50) (phase : Str) :
    ∃ t : List ℚ, ppX64 pw sq sqr m s phase = t.map some ∧ t.length = layers.length ∧ ∀ k < layers.length,
      |(t.getD k 0 : ℝ) - distSpec Real.sqrt ((upper phase).count 'P') ((upper phase).count 'S') (layers.map realLayer) s (k + 1)|
        ≤ ((upper phase).count 'P' + (upper phase).count 'S' : ℝ) * ((layers.map fun l => (l.dz : ℝ)).sum / c) * ((72 / c ^ 2 + 4 * layers.length) / 2 ^ 53) ∧
      |distSpec Real.sqrt ((upper phase).count 'P') ((upper phase).count 'S') (layers.map realLayer) (s : ℝ) (k + 1)|
        ≤ ((upper phase).count 'P' + (upper phase).count 'S' : ℝ) * ((layers.map fun l => (l.dz : ℝ)).sum / c) := by
  have hc0 : 0 < c := lt_of_lt_of_le (by norm_num) hc
  have hcc : 1 / 2 ^ 40 ≤ c ^ 2 := by
    have := mul_le_mul hc hc (by norm_num) hc0.le
    rw [pow_two]
    refine le_trans ?_ this
    norm_num
  have hZ0 : 0 ≤ (layers.map fun l => (l.dz : ℝ)).sum := by
    refine List.sum_nonneg fun x hx => ?_
    obtain ⟨l, h1, rfl⟩ := List.mem_map.1 hx
    exact_mod_cast (hl l h1).2.2
  have hM0 : 0 ≤ (layers.map fun l => (l.dz : ℝ)).sum / c := by positivity
  have hfac : (64 / c ^ 2 + 4 * layers.length : ℝ) / 2 ^ 53 ≤ 1 := by
    have h1 : 64 / c ^ 2 ≤ 64 * 2 ^ 40 := by
      rw [div_le_iff₀ (by positivity)]
      have := mul_le_mul_of_nonneg_left hcc (show (0 : ℝ) ≤ 64 * 2 ^ 40 by norm_num)
      refine le_trans ?_ this
      norm_num
    rw [div_le_one (by norm_num)]
    have h2 : (64 * 2 ^ 40 + 4 * 2 ^ 50 : ℝ) ≤ 2 ^ 53 := by norm_num
    linarith
  have hE := mul_le_mul_of_nonneg_left hfac hM0
  rw [mul_one] at hE
  -- both kinds of legs in the same way
  have part : ∀ (x : Char) (f : Layer ℚ → ℚ), (∀ l ∈ layers, 0 < f l ∧ f l ≤ l.vp ∧ 0 ≤ l.dz) →
      ∃ t : List ℚ, (if (upper phase).contains x = true then
          (ppSum64 m.dz s (vertSlow64 pw sq sqr x (layers.map f) s (upper phase))).map (Option.map fun y => fl64 (y * ((upper phase).count x : ℚ)))
        else m.dz.map fun _ => some 0) = t.map some ∧ t.length = layers.length ∧ ∀ k < layers.length,
        |(t.getD k 0 : ℝ) - ((upper phase).count x : ℝ) *
            ((layers.take (k + 1)).map fun l => (s : ℝ) / (1112 / 10) / qSpec Real.sqrt (f l : ℝ) (s : ℝ) * (l.dz : ℝ)).sum|
          ≤ ((upper phase).count x : ℝ) * ((layers.map fun l => (l.dz : ℝ)).sum / c * ((64 / c ^ 2 + 4 * layers.length) / 2 ^ 53)
            + 2 / 2 ^ 53 * ((layers.map fun l => (l.dz : ℝ)).sum / c)) ∧
        |((upper phase).count x : ℝ) *
            ((layers.take (k + 1)).map fun l => (s : ℝ) / (1112 / 10) / qSpec Real.sqrt (f l : ℝ) (s : ℝ) * (l.dz : ℝ)).sum|
          ≤ ((upper phase).count x : ℝ) * ((layers.map fun l => (l.dz : ℝ)).sum / c) := by
    intro x f hf
    by_cases hx : (upper phase).contains x = true
    · obtain ⟨t, t1, t2, t3⟩ := ppSum64_err pw sq sqr ha layers f s hf c hc hc1 hcos hn
      refine ⟨t.map fun y => fl64 (y * ((upper phase).count x : ℚ)), ?_, by simp [t2], fun k hk => ?_⟩
      · rw [if_pos hx]
        have : vertSlow64 pw sq sqr x (layers.map f) s (upper phase) = layers.map fun l => vslow64 pw sq sqr (f l) s := by
          unfold vertSlow64
          rw [List.map_map]
          simp only [Function.comp_def, upper_idem, hx, if_true]
        rw [this, hdz, t1, List.map_map, List.map_map]
        rfl
      · obtain ⟨b1, b2⟩ := t3 k hk
        have e : (t.map fun y => fl64 (y * ((upper phase).count x : ℚ))).getD k 0 = fl64 (t.getD k 0 * ((upper phase).count x : ℚ)) := by
          have hk' : k < t.length := by rw [t2]; exact hk
          rw [List.getD_eq_getElem _ _ (by simpa using hk'), List.getD_eq_getElem _ _ hk']
          simp
        rw [e]
        exact ppLeg_err _ _ _ _ _ b1 b2 hE
    · have h0 : (upper phase).count x = 0 := List.count_eq_zero.2 (by simpa using hx)
      refine ⟨layers.map fun _ => 0, ?_, by simp, fun k hk => ?_⟩
      · rw [if_neg hx, hdz, List.map_map, List.map_map]
        rfl
      · have : (layers.map fun _ => (0 : ℚ)).getD k 0 = 0 := by
          rw [List.getD_eq_getElem _ _ (by simpa using hk)]
          simp
        rw [this, h0]
        simp
  obtain ⟨tp, p1, p2, p3⟩ := part 'P' Layer.vp fun l h => ⟨(hl l h).1.trans_le (hl l h).2.1, le_refl _, (hl l h).2.2⟩
  obtain ⟨ts, s1, s2, s3⟩ := part 'S' Layer.vs hl
  have hzip : ∀ (a b : List ℚ), List.zipWith (fun (a b : Option ℚ) => match a, b with
      | some a, some b => some (fl64 (a + b))
      | _, _ => none) (a.map some) (b.map some) = (List.zipWith (fun a b => fl64 (a + b)) a b).map some := by
    intro a
    induction a with
    | nil => intro b; rfl
    | cons x a ih =>
      intro b
      cases b with
      | nil => rfl
      | cons y b => simp only [List.map_cons, List.zipWith_cons_cons, ih]
  refine ⟨List.zipWith (fun a b => fl64 (a + b)) tp ts, ?_, by simp [p2, s2], fun k hk => ?_⟩
  · unfold ppX64
    simp only
    rw [hvp, hvs, p1, s1, ← hzip]
    rfl
  · have hk1 : k < tp.length := by rw [p2]; exact hk
    have hk2 : k < ts.length := by rw [s2]; exact hk
    have e : (List.zipWith (fun a b => fl64 (a + b)) tp ts).getD k 0 = fl64 (tp.getD k 0 + ts.getD k 0) := by
      rw [List.getD_eq_getElem _ _ (by simp; omega), List.getD_eq_getElem _ _ hk1, List.getD_eq_getElem _ _ hk2]
      simp
    obtain ⟨a1, a2⟩ := p3 k hk
    obtain ⟨b1, b2⟩ := s3 k hk
    have hspec : distSpec Real.sqrt ((upper phase).count 'P') ((upper phase).count 'S') (layers.map realLayer) (s : ℝ) (k + 1)
        = ((upper phase).count 'P' : ℝ) *
            ((layers.take (k + 1)).map fun l => (s : ℝ) / (1112 / 10) / qSpec Real.sqrt (l.vp : ℝ) (s : ℝ) * (l.dz : ℝ)).sum
          + ((upper phase).count 'S' : ℝ) *
            ((layers.take (k + 1)).map fun l => (s : ℝ) / (1112 / 10) / qSpec Real.sqrt (l.vs : ℝ) (s : ℝ) * (l.dz : ℝ)).sum := by
      unfold distSpec
      rw [← List.sum_map_mul_left, ← List.sum_map_mul_left, ← List.sum_map_add, ← List.map_take, List.map_map]
      rfl
    rw [e, hspec]
    generalize ((layers.take (k + 1)).map fun l => (s : ℝ) / (1112 / 10) / qSpec Real.sqrt (l.vp : ℝ) (s : ℝ) * (l.dz : ℝ)).sum = XP at *
    generalize ((layers.take (k + 1)).map fun l => (s : ℝ) / (1112 / 10) / qSpec Real.sqrt (l.vs : ℝ) (s : ℝ) * (l.dz : ℝ)).sum = XS at *
    generalize (layers.map fun l => (l.dz : ℝ)).sum / c = M at *
    have hP : (0 : ℝ) ≤ (upper phase).count 'P' := Nat.cast_nonneg _
    have hS : (0 : ℝ) ≤ (upper phase).count 'S' := Nat.cast_nonneg _
    generalize (((upper phase).count 'P' : ℕ) : ℝ) = nP at *
    generalize (((upper phase).count 'S' : ℕ) : ℝ) = nS at *
    have hbig : M * ((64 / c ^ 2 + 4 * layers.length) / 2 ^ 53) + 2 / 2 ^ 53 * M ≤ 2 * M := by linarith
    constructor
    · refine (ppAdd_err _ _ _ _ _ _ _ _ a1 b1 a2 b2 ?_ ?_).trans ?_
      · have := mul_le_mul_of_nonneg_left hbig hP
        linarith
      · have := mul_le_mul_of_nonneg_left hbig hS
        linarith
      · have h1 : M * ((72 / c ^ 2 + 4 * layers.length) / 2 ^ 53) = M * ((64 / c ^ 2 + 4 * layers.length) / 2 ^ 53) + 8 / 2 ^ 53 * (M * (1 / c ^ 2)) := by ring
        have h2 : 1 ≤ 1 / c ^ 2 := by
          rw [le_div_iff₀ (by positivity)]
          nlinarith
        have h3 := mul_le_mul_of_nonneg_left h2 hM0
        rw [mul_one] at h3
        have h4 : (nP + nS) * M * ((72 / c ^ 2 + 4 * layers.length) / 2 ^ 53) = (nP + nS) * (M * ((72 / c ^ 2 + 4 * layers.length) / 2 ^ 53)) := by ring
        rw [h4, h1]
        have h5 := mul_le_mul_of_nonneg_left h3 (add_nonneg hP hS)
        have h6 : 0 ≤ (nP + nS) * M := mul_nonneg (add_nonneg hP hS) hM0
        nlinarith
    · refine (abs_add_le _ _).trans ?_
      rw [add_mul]
      exact add_le_add a2 b2

/-- Linear interpolation between two rounded values at rounded depths. -/
theorem ppInterp_err (x0 x1 d z0 z1 : ℚ) (X0 X1 E M : ℝ) (h0 : |(x0 : ℝ) - X0| ≤ E) (h1 : |(x1 : ℝ) - X1| ≤ E) (m0 : |X0| ≤ M) (m1 : |X1| ≤ M)
    (hEM : E ≤ M) (hd0 : z0 ≤ d) (hd1 : d < z1) :
    |((fl64 (x0 + fl64 (fl64 (fl64 (x1 - x0) * fl64 (d - z0)) / fl64 (z1 - z0))) : ℚ) : ℝ)
      - (X0 + (X1 - X0) * (((d : ℝ) - z0) / ((z1 : ℝ) - z0)))| ≤ 4 * E + 64 / 2 ^ 53 * M := by
  have hd0' : (z0 : ℝ) ≤ d := by exact_mod_cast hd0
  have hd1' : (d : ℝ) < z1 := by exact_mod_cast hd1
  have f1 := fl64_real (x1 - x0)
  have f2 := fl64_real (d - z0)
  have f3 := fl64_real (z1 - z0)
  have f4 := fl64_real (fl64 (x1 - x0) * fl64 (d - z0))
  have f5 := fl64_real (fl64 (fl64 (x1 - x0) * fl64 (d - z0)) / fl64 (z1 - z0))
  have f6 := fl64_real (x0 + fl64 (fl64 (fl64 (x1 - x0) * fl64 (d - z0)) / fl64 (z1 - z0)))
  push_cast at f1 f2 f3 f4 f5 f6
  generalize ((fl64 (x0 + fl64 (fl64 (fl64 (x1 - x0) * fl64 (d - z0)) / fl64 (z1 - z0))) : ℚ) : ℝ) = F at *
  generalize ((fl64 (fl64 (fl64 (x1 - x0) * fl64 (d - z0)) / fl64 (z1 - z0)) : ℚ) : ℝ) = R at *
  generalize ((fl64 (fl64 (x1 - x0) * fl64 (d - z0)) : ℚ) : ℝ) = P at *
  generalize ((fl64 (x1 - x0) : ℚ) : ℝ) = A at *
  generalize ((fl64 (d - z0) : ℚ) : ℝ) = u at *
  generalize ((fl64 (z1 - z0) : ℚ) : ℝ) = w at *
  have hu0 : 0 ≤ (d : ℝ) - z0 := by linarith
  have hw0 : 0 < (z1 : ℝ) - z0 := by linarith
  have huw : (d : ℝ) - z0 ≤ (z1 : ℝ) - z0 := by linarith
  rw [abs_of_nonneg hu0] at f2
  rw [abs_of_pos hw0] at f3
  generalize (d : ℝ) - z0 = U at *
  generalize (z1 : ℝ) - z0 = W at *
  have a1 := abs_le.1 h0
  have a2 := abs_le.1 h1
  have a3 := abs_le.1 m0
  have a4 := abs_le.1 m1
  have a6 := abs_le.1 f2
  have a7 := abs_le.1 f3
  have hw : (255 / 256) * W ≤ w := by linarith
  have hw' : 0 < w := lt_of_lt_of_le (by positivity) hw
  -- theta, the position within the interval
  have hθ0 : 0 ≤ U / W := div_nonneg hu0 hw0.le
  have hθ1 : U / W ≤ 1 := (div_le_one hw0).2 huw
  have hθ : |u / w - U / W| ≤ 3 / 2 ^ 53 := by
    have e : u / w - U / W = ((u - U) * W + U * (W - w)) / (w * W) := by field_simp; ring
    rw [e, abs_div, abs_of_pos (mul_pos hw' hw0), div_le_iff₀ (mul_pos hw' hw0)]
    refine (abs_add_le _ _).trans ?_
    rw [abs_mul, abs_mul, abs_of_pos hw0, abs_of_nonneg hu0, abs_sub_comm W]
    have b1 := mul_le_mul_of_nonneg_right f2 hw0.le
    have b2 := mul_le_mul_of_nonneg_left f3 hu0
    have b3 := mul_le_mul_of_nonneg_right huw hw0.le
    have b4 := mul_le_mul_of_nonneg_right hw hw0.le
    have b5 : 0 ≤ W * W := by positivity
    nlinarith
  have hA : |A - (X1 - X0)| ≤ 2 * E + 4 / 2 ^ 53 * M := by
    have c1 : |(x1 : ℝ) - x0| ≤ 4 * M := by
      rw [abs_le]; constructor <;> linarith
    have c2 := abs_le.1 (f1.trans (div_le_div_of_nonneg_right c1 (by norm_num)))
    rw [abs_le]; constructor <;> linarith
  have hX : |X1 - X0| ≤ 2 * M := by
    rw [abs_le]; constructor <;> linarith
  have hE0 : 0 ≤ E := (abs_nonneg _).trans h0
  have hM0 : 0 ≤ M := hE0.trans hEM
  have hA2 : |A| ≤ 5 * M := by
    have := abs_sub_abs_le_abs_sub A (X1 - X0)
    linarith
  have hθ2 : |u / w| ≤ 2 := by
    have := abs_sub_abs_le_abs_sub (u / w) (U / W)
    rw [abs_of_nonneg hθ0] at this
    linarith
  -- product and quotient
  have hPw : |P / w - A * (u / w)| ≤ 10 / 2 ^ 53 * M := by
    have e : P / w - A * (u / w) = (P - A * u) / w := by field_simp
    rw [e, abs_div, abs_of_pos hw', div_le_iff₀ hw']
    refine f4.trans ?_
    have e2 : |A * u| = |A| * |u / w| * w := by
      rw [abs_mul, abs_div, abs_of_pos hw']
      field_simp
    rw [e2]
    have := mul_le_mul hA2 hθ2 (abs_nonneg _) (by positivity)
    have := mul_le_mul_of_nonneg_right this hw'.le
    linarith
  have hAθ : |A * (u / w) - (X1 - X0) * (U / W)| ≤ 2 * E + 4 / 2 ^ 53 * M + 15 / 2 ^ 53 * M := by
    have e : A * (u / w) - (X1 - X0) * (U / W) = A * (u / w - U / W) + (A - (X1 - X0)) * (U / W) := by ring
    rw [e]
    refine (abs_add_le _ _).trans ?_
    rw [abs_mul, abs_mul, abs_of_nonneg hθ0]
    have g1 := mul_le_mul hA2 hθ (abs_nonneg _) (by positivity)
    have g2 := mul_le_mul hA hθ1 hθ0 (by positivity)
    linarith
  have hXθ : |(X1 - X0) * (U / W)| ≤ 2 * M := by
    rw [abs_mul, abs_of_nonneg hθ0]
    have := mul_le_mul hX hθ1 hθ0 (by positivity)
    linarith
  generalize (X1 - X0) * (U / W) = Y at *
  generalize A * (u / w) = y at *
  generalize P / w = p at *
  have b1 := abs_le.1 hPw
  have b2 := abs_le.1 hAθ
  have b3 := abs_le.1 hXθ
  have c1 : |p| ≤ 5 * M := by
    rw [abs_le]; constructor <;> linarith
  have c2 := abs_le.1 (f5.trans (div_le_div_of_nonneg_right c1 (by norm_num)))
  have c3 : |(x0 : ℝ) + R| ≤ 8 * M := by
    rw [abs_le]; constructor <;> linarith
  have c4 := abs_le.1 (f6.trans (div_le_div_of_nonneg_right c3 (by norm_num)))
  rw [abs_le]
  constructor <;> linarith

/-- **C220**.  The distance of the piercing point in double precision and the exact value of the same formula differ by at most
`(nP + nS) * Z / c * (352 / c^2 + 16 * n) * 2^-53`, where `Z` is the total thickness, `c` a lower bound of the cosines of the angles of incidence
and `n` the number of layers. -/
theorem C220_distance (pw sq sqr : ℚ → ℚ) (ha : Accurate pw sq sqr) (m : SimpleModel ℚ) (layers : List (Layer ℚ))
    (hvp : m.vp = layers.map Layer.vp) (hvs : m.vs = layers.map Layer.vs) (hdz : m.dz = layers.map Layer.dz) (hz : m.z.length = layers.length)
    (hzs : m.z.Pairwise (· ≤ ·)) (s : ℚ) (hl : ∀ l ∈ layers, 0 < l.vs ∧ l.vs ≤ l.vp ∧ 0 ≤ l.dz) (c : ℝ) (hc : 1 / 2 ^ 20 ≤ c) (hc1 : c ≤ 1)
    (hcos : ∀ l ∈ layers, ((s : ℝ) / (1112 / 10)) ^ 2 ≤ (1 - c ^ 2) * (1 / (l.vp : ℝ) ^ 2)) (hn : (layers.length : ℝ) ≤ 2 ^ 50)
    (phase : Str) (hodd : phase.length % 2 = 1) (hletters : 'P' ∈ upper phase ∨ 'S' ∈ upper phase) (depth : ℚ)
    (h0 : m.z.getD 0 0 ≤ depth) (h1 : depth < m.z.getD (m.z.length - 1) 0) :
    ∃ (x : ℚ) (y : ℝ), ppointDistance64 pw sq sqr m depth s phase = .ok (some x) ∧
      ppointDistance Real.sqrt (realModel m) (depth : ℝ) (s : ℝ) phase = .ok (some y) ∧
      |(x : ℝ) - y| ≤ ((upper phase).count 'P' + (upper phase).count 'S' : ℝ) * (((layers.map Layer.dz).sum : ℚ) / c) *
        ((352 / c ^ 2 + 16 * layers.length) / 2 ^ 53) := by
  have hc0 : 0 < c := lt_of_lt_of_le (by norm_num) hc
  have hne : m.z ≠ [] := by
    rintro h
    rw [h] at h0 h1
    simp at h0 h1
    linarith
  obtain ⟨i, hi, i0, i1⟩ := exists_layer m.z depth hne h0 h1
  have hi' : i + 1 < layers.length := by omega
  obtain ⟨t, t1, t2, t3⟩ := ppX64_err pw sq sqr ha m layers hvp hvs hdz s hl c hc hc1 hcos hn phase
  have hprop : PropagatesStrictly (layers.map realLayer) (s : ℝ) := by
    intro l hl'
    obtain ⟨l, hm, rfl⟩ := List.mem_map.1 hl'
    have hvs0 : (0 : ℝ) < l.vs := by exact_mod_cast (hl l hm).1
    have hvp' : (l.vs : ℝ) ≤ l.vp := by exact_mod_cast (hl l hm).2.1
    have hvp0 : (0 : ℝ) < l.vp := hvs0.trans_le hvp'
    have e1 : ((s : ℝ) / (1112 / 10)) ^ 2 < 1 / (l.vp : ℝ) ^ 2 := by
      refine (hcos l hm).trans_lt ?_
      have : 0 < c ^ 2 * (1 / (l.vp : ℝ) ^ 2) := by positivity
      linarith
    refine ⟨e1, e1.trans_le ?_⟩
    show 1 / (l.vp : ℝ) ^ 2 ≤ 1 / (l.vs : ℝ) ^ 2
    exact one_div_le_one_div_of_le (by positivity) (by gcongr)
  have hzget : ∀ j, (realModel m).z.getD j 0 = ((m.z.getD j 0 : ℚ) : ℝ) := by
    intro j
    simp only [realModel, List.getD_eq_getElem?_getD, List.getElem?_map]
    cases m.z[j]? <;> simp
  have hex := C37_value_partial Real.sqrt sqrtStrict_real (realModel m) (layers.map realLayer) (by simp [realModel, hvp, realLayer, Function.comp_def])
    (by simp [realModel, hvs, realLayer, Function.comp_def]) (by simp [realModel, hdz, realLayer, Function.comp_def]) (by simp [realModel, hz])
    (by
      simp only [realModel]
      rw [List.pairwise_map]
      exact hzs.imp fun h => by exact_mod_cast h) (s : ℝ) phase hodd hletters hprop (depth : ℝ) i (by simpa using hi')
    (by rw [hzget]; exact_mod_cast i0) (by rw [hzget]; exact_mod_cast i1) _ rfl
  have h64 : ppointDistance64 pw sq sqr m depth s phase = .ok (some (fl64 (t.getD i 0 + fl64 (fl64 (fl64 (t.getD (i + 1) 0 - t.getD i 0) *
      fl64 (depth - m.z.getD i 0)) / fl64 (m.z.getD (i + 1) 0 - m.z.getD i 0))))) := by
    unfold ppointDistance64
    rw [if_neg (by omega), pp_index m.z depth i hi hzs i0 i1]
    have hlet : ¬¬ ((upper phase).contains 'P' = true ∨ (upper phase).contains 'S' = true) := by
      rw [not_not]; simpa using hletters
    simp only [hlet, if_false, bind, Except.bind, pure, Except.pure]
    have e1 : (((i + 1 : Nat) : Int) - 1) = (i : Int) := by push_cast; ring
    have e2 : (i : Int) + 1 = ((i + 1 : Nat) : Int) := by push_cast; ring
    rw [e1, e2, t1, getItem_nat _ i (by simp [t2]; omega), getItem_nat _ (i + 1) (by simp [t2]; omega),
      getItem_nat m.z i (by omega), getItem_nat m.z (i + 1) (by omega)]
    simp only [List.getElem_map]
    rw [List.getD_eq_getElem _ _ (by omega), List.getD_eq_getElem _ _ (by omega), List.getD_eq_getElem _ _ (by omega),
      List.getD_eq_getElem _ _ (by omega)]
  refine ⟨_, _, h64, hex, ?_⟩
  rw [hzget, hzget]
  have hZ : (((layers.map Layer.dz).sum : ℚ) : ℝ) = (layers.map fun l => (l.dz : ℝ)).sum := by
    clear hn hvp hvs hdz t3 hcos hl hz hi' t2 hprop hex
    induction layers with
    | nil => simp
    | cons l layers ih => simp only [List.map_cons, List.sum_cons]; rw [Rat.cast_add, ih]
  rw [hZ]
  obtain ⟨a1, a2⟩ := t3 i (by omega)
  obtain ⟨b1, b2⟩ := t3 (i + 1) hi'
  have hM0 : 0 ≤ ((upper phase).count 'P' + (upper phase).count 'S' : ℝ) * ((layers.map fun l => (l.dz : ℝ)).sum / c) := (abs_nonneg _).trans a2
  generalize ((upper phase).count 'P' + (upper phase).count 'S' : ℝ) * ((layers.map fun l => (l.dz : ℝ)).sum / c) = M at *
  have hcc : 1 / 2 ^ 40 ≤ c ^ 2 := by
    have := mul_le_mul hc hc (by norm_num) hc0.le
    rw [pow_two]
    refine le_trans ?_ this
    norm_num
  have hfac : (72 / c ^ 2 + 4 * layers.length : ℝ) / 2 ^ 53 ≤ 1 := by
    have h1 : 72 / c ^ 2 ≤ 72 * 2 ^ 40 := by
      rw [div_le_iff₀ (by positivity)]
      have := mul_le_mul_of_nonneg_left hcc (show (0 : ℝ) ≤ 72 * 2 ^ 40 by norm_num)
      refine le_trans ?_ this
      norm_num
    rw [div_le_one (by norm_num)]
    have h2 : (72 * 2 ^ 40 + 4 * 2 ^ 50 : ℝ) ≤ 2 ^ 53 := by norm_num
    linarith
  have hEM := mul_le_mul_of_nonneg_left hfac hM0
  rw [mul_one] at hEM
  refine (ppInterp_err _ _ _ _ _ _ _ _ M a1 b1 a2 b2 hEM i0 i1).trans ?_
  have e : M * ((352 / c ^ 2 + 16 * layers.length) / 2 ^ 53) = 4 * (M * ((72 / c ^ 2 + 4 * layers.length) / 2 ^ 53)) + 64 / 2 ^ 53 * (M * (1 / c ^ 2)) := by
    ring
  have h2 : 1 ≤ 1 / c ^ 2 := by
    rw [le_div_iff₀ (by positivity)]
    nlinarith
  have h3 := mul_le_mul_of_nonneg_left h2 hM0
  rw [mul_one] at h3
  rw [e]
  linarith

/-- Three layers, the S leg at 6.4 s/deg and a depth of 30 km: accurate to 2e-11 km. -/
example : ∃ sq : ℚ → ℚ, ∃ (x : ℚ) (y : ℝ),
    ppointDistance64 (fun v => fl64 (1 / v ^ 2)) sq (fun y => fl64 (y ^ 2))
      ⟨[0, 20, 35], [20, 15, 40], [58 / 10, 65 / 10, 8], [336 / 100, 375 / 100, 447 / 100], []⟩ 30 (64 / 10) "S".toList = .ok (some x) ∧
    ppointDistance Real.sqrt (realModel ⟨[0, 20, 35], [20, 15, 40], [58 / 10, 65 / 10, 8], [336 / 100, 375 / 100, 447 / 100], []⟩)
      ((30 : ℚ) : ℝ) ((64 / 10 : ℚ) : ℝ) "S".toList = .ok (some y) ∧ |(x : ℝ) - y| ≤ 3 / 10 ^ 11 := by
  obtain ⟨sq, ha⟩ := accurate_exists
  obtain ⟨x, y, h1, h2, h3⟩ := C220_distance _ sq _ ha ⟨[0, 20, 35], [20, 15, 40], [58 / 10, 65 / 10, 8], [336 / 100, 375 / 100, 447 / 100], []⟩
    [⟨58 / 10, 336 / 100, 20⟩, ⟨65 / 10, 375 / 100, 15⟩, ⟨8, 447 / 100, 40⟩] rfl rfl rfl rfl (by decide +kernel) (64 / 10) (by decide +kernel)
    (1 / 2) (by norm_num) (by norm_num) (by
      intro l hl
      simp only [List.mem_cons, List.not_mem_nil, or_false] at hl
      rcases hl with rfl | rfl | rfl <;> norm_num) (by norm_num) "S".toList (by decide) (.inr (by decide)) 30 (by decide +kernel) (by decide +kernel)
  refine ⟨sq, x, y, h1, h2, h3.trans ?_⟩
  have e1 : (upper "S".toList).count 'P' = 0 := by decide
  have e2 : (upper "S".toList).count 'S' = 1 := by decide
  rw [e1, e2]
  norm_num

end Verif.Props
