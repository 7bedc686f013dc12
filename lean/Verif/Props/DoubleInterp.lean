import Verif.Model.DoubleInterp
import Verif.Props.DoubleMean

/-!
# C213: the interpolations of move out in double precision
-/

set_option linter.unusedSimpArgs false
set_option linter.unusedSectionVars false

namespace Verif.Spec
open Verif.Py

/-- Neighbouring values are at least `m` apart, in increasing order. -/
def Spaced (m : ℚ) (l : List ℚ) : Prop := ∀ i, i + 1 < l.length → m ≤ l.getD (i + 1) 0 - l.getD i 0

/-- Neighbouring values differ by at most `D`. -/
def Smooth (D : ℚ) (l : List ℚ) : Prop := ∀ i, i + 1 < l.length → |l.getD (i + 1) 0 - l.getD i 0| ≤ D

end Verif.Spec

namespace Verif.Props
open Verif.Py Verif.Model.DoubleInterp Verif.Spec

/-! ## One interpolation -/

/-- A rounded product of rounded factors. -/
theorem rel_fl (x y c : ℚ) (h : |x - y| ≤ c * |y|) : |fl64 x - y| ≤ ((1 + 1 / 2 ^ 53) * (1 + c) - 1) * |y| := by
  have h1 := fl64_rel x
  have h2 : |x| ≤ (1 + c) * |y| := by
    have := abs_sub_abs_le_abs_sub x y
    linarith
  have h3 : |fl64 x - y| ≤ |fl64 x - x| + |x - y| := abs_sub_le _ _ _
  have h4 : |x| / 2 ^ 53 ≤ (1 + c) * |y| / 2 ^ 53 := by gcongr
  have : ((1 + 1 / 2 ^ 53) * (1 + c) - 1) * |y| = (1 + c) * |y| / 2 ^ 53 + c * |y| := by ring
  rw [this]
  linarith

theorem rel_mul (x y u v a b : ℚ) (ha : 0 ≤ a) (h : |x - y| ≤ a * |y|) (h' : |u - v| ≤ b * |v|) :
    |x * u - y * v| ≤ ((1 + a) * (1 + b) - 1) * |y * v| := by
  have e : x * u - y * v = (x - y) * v + y * (u - v) + (x - y) * (u - v) := by ring
  have h1 : |(x - y) * v| ≤ a * |y| * |v| := by rw [abs_mul]; gcongr
  have h2 : |y * (u - v)| ≤ |y| * (b * |v|) := by rw [abs_mul]; gcongr
  have h3 : |(x - y) * (u - v)| ≤ a * |y| * (b * |v|) := by
    rw [abs_mul]
    exact mul_le_mul h h' (abs_nonneg _) (mul_nonneg ha (abs_nonneg _))
  rw [e, abs_mul y v]
  have := abs_add_le ((x - y) * v + y * (u - v)) ((x - y) * (u - v))
  have := abs_add_le ((x - y) * v) (y * (u - v))
  nlinarith

theorem rel_inv (x y : ℚ) (hy : y ≠ 0) (h : |x - y| ≤ 1 / 2 ^ 53 * |y|) : |x⁻¹ - y⁻¹| ≤ 1 / 2 ^ 52 * |y⁻¹| := by
  have hpos : 0 < |y| := abs_pos.2 hy
  have hx : |y| / 2 ≤ |x| := by
    have := abs_sub_abs_le_abs_sub y x
    rw [abs_sub_comm] at this
    have : 1 / 2 ^ 53 * |y| ≤ |y| / 2 := by
      have : (1 : ℚ) / 2 ^ 53 ≤ 1 / 2 := by norm_num
      nlinarith
    linarith
  have hx0 : x ≠ 0 := by
    intro h0
    rw [h0, abs_zero] at hx
    linarith
  have e : x⁻¹ - y⁻¹ = (y - x) * x⁻¹ * y⁻¹ := by field_simp
  rw [e, abs_mul, abs_mul, abs_sub_comm]
  have hi : |x⁻¹| ≤ 2 / |y| := by
    rw [abs_inv, inv_le_comm₀ (by linarith) (by positivity), inv_div]
    exact hx
  have : |x - y| * |x⁻¹| ≤ 1 / 2 ^ 53 * |y| * (2 / |y|) := mul_le_mul h hi (abs_nonneg _) (by positivity)
  have e2 : 1 / 2 ^ 53 * |y| * (2 / |y|) = 1 / 2 ^ 52 := by field_simp
  rw [e2] at this
  exact mul_le_mul_of_nonneg_right this (abs_nonneg _)

/-- The value between two knots: all six roundings together. -/
theorem segment_err (x0 x1 f0 f1 x A : ℚ) (h0 : x0 ≤ x) (h1 : x < x1) (hf0 : |f0| ≤ A) (hf1 : |f1| ≤ A) :
    |fl64 (fl64 (fl64 (fl64 (f1 - f0) / fl64 (x1 - x0)) * fl64 (x - x0)) + f0) - ((f1 - f0) / (x1 - x0) * (x - x0) + f0)|
      ≤ A / 2 ^ 49 := by
  have hA : 0 ≤ A := (abs_nonneg _).trans hf0
  have hd : x1 - x0 ≠ 0 := by intro h; linarith
  have hrel : ∀ y : ℚ, |fl64 y - y| ≤ 1 / 2 ^ 53 * |y| := fun y => by
    have := fl64_rel y
    rw [one_div_mul_eq_div]
    exact this
  set u : ℚ := 1 / 2 ^ 53 with hu
  have hu0 : 0 ≤ u := by rw [hu]; positivity
  have a1 := rel_mul (fl64 (f1 - f0)) (f1 - f0) (fl64 (x1 - x0))⁻¹ (x1 - x0)⁻¹ u (1 / 2 ^ 52) hu0 (hrel _) (rel_inv _ _ hd (hrel _))
  rw [← div_eq_mul_inv, ← div_eq_mul_inv] at a1
  have a2 := rel_fl _ _ _ a1
  have a3 := rel_mul _ _ (fl64 (x - x0)) (x - x0) _ u (by rw [hu]; norm_num) a2 (hrel _)
  have a4 := rel_fl _ _ _ a3
  set p := (f1 - f0) / (x1 - x0) * (x - x0) with hp
  set q := fl64 (fl64 (fl64 (f1 - f0) / fl64 (x1 - x0)) * fl64 (x - x0)) with hq
  have hlam : 0 ≤ (x - x0) / (x1 - x0) ∧ (x - x0) / (x1 - x0) ≤ 1 :=
    ⟨div_nonneg (by linarith) (by linarith), (div_le_one (by linarith)).2 (by linarith)⟩
  have hpl : p = (f1 - f0) * ((x - x0) / (x1 - x0)) := by rw [hp]; ring
  have hpA : |p| ≤ 2 * A := by
    rw [hpl, abs_mul, abs_of_nonneg hlam.1]
    have : |f1 - f0| ≤ |f1| + |f0| := abs_sub _ _
    have := mul_le_mul_of_nonneg_left hlam.2 (abs_nonneg (f1 - f0))
    linarith
  have hsum : |p + f0| ≤ A := by
    have e : p + f0 = (1 - (x - x0) / (x1 - x0)) * f0 + (x - x0) / (x1 - x0) * f1 := by rw [hpl]; ring
    rw [e]
    refine (abs_add_le _ _).trans ?_
    rw [abs_mul, abs_mul, abs_of_nonneg hlam.1, abs_of_nonneg (by linarith [hlam.2] : 0 ≤ 1 - (x - x0) / (x1 - x0))]
    have := mul_le_mul_of_nonneg_left hf0 (by linarith [hlam.2] : 0 ≤ 1 - (x - x0) / (x1 - x0))
    have := mul_le_mul_of_nonneg_left hf1 hlam.1
    linarith
  have hqp : |q - p| ≤ 13 / 2 ^ 53 * A := by
    refine a4.trans ?_
    have hc : (1 + 1 / 2 ^ 53) * (1 + ((1 + ((1 + 1 / 2 ^ 53) * (1 + ((1 + u) * (1 + 1 / 2 ^ 52) - 1)) - 1)) * (1 + u) - 1)) - 1
        ≤ 13 / 2 ^ 54 := by rw [hu]; norm_num
    refine (mul_le_mul hc hpA (abs_nonneg _) (by norm_num)).trans (le_of_eq ?_)
    ring
  have h5 := fl64_rel (q + f0)
  have h6 : |q + f0 - (p + f0)| ≤ 13 / 2 ^ 53 * A := by rw [add_sub_add_right_eq_sub]; exact hqp
  have h7 : |q + f0| ≤ 2 * A := by
    have := abs_sub_abs_le_abs_sub (q + f0) (p + f0)
    have : 13 / 2 ^ 53 * A ≤ A := by
      have : (13 : ℚ) / 2 ^ 53 ≤ 1 := by norm_num
      nlinarith
    linarith
  have h8 := abs_sub_le (fl64 (q + f0)) (q + f0) (p + f0)
  have h9 : |q + f0| / 2 ^ 53 ≤ 2 * A / 2 ^ 53 := by gcongr
  refine h8.trans ((add_le_add (h5.trans h9) h6).trans ?_)
  have : 2 * A / 2 ^ 53 + 13 / 2 ^ 53 * A = 15 / 2 ^ 53 * A := by ring
  rw [this]
  have : A / 2 ^ 49 = 16 / 2 ^ 53 * A := by ring
  rw [this]
  nlinarith [show (15 : ℚ) / 2 ^ 53 ≤ 16 / 2 ^ 53 by norm_num]

theorem getD_le_of_all (f : List ℚ) (A : ℚ) (hA : 0 ≤ A) (h : ∀ y ∈ f, |y| ≤ A) (i : ℕ) : |f.getD i 0| ≤ A := by
  by_cases hi : i < f.length
  · rw [List.getD_eq_getElem _ _ hi]
    exact h _ (List.getElem_mem hi)
  · rw [List.getD_eq_default _ _ (by omega), abs_zero]
    exact hA

/-- **C213** (one interpolation).  `np.interp` in double precision differs from the exact interpolation by at most `2⁻⁴⁹` of the largest
absolute value in the table, for any table. -/
theorem C213_interp (find : List ℚ → ℚ → Nat) (hf : FindSpec find) (xp fp : List ℚ) (hne : xp ≠ []) (left right : Option ℚ) (A : ℚ)
    (hA0 : 0 ≤ A) (hA : ∀ y ∈ fp, |y| ≤ A) (x : ℚ) :
    |interp64 find xp fp left right x - interp1 find xp fp left right x| ≤ A / 2 ^ 49 := by
  have h0 : 0 ≤ A / 2 ^ 49 := by positivity
  unfold interp64 interp1
  split
  · simpa using h0
  · rename_i hl
    split
    · simpa using h0
    · rename_i hr
      simp only
      split
      · simpa using h0
      · rename_i hj
        split
        · simpa using h0
        · obtain ⟨a, b, c⟩ := hf xp x hne (not_lt.1 hl) (not_lt.1 hr)
          exact segment_err _ _ _ _ _ _ b (c (by omega)) (getD_le_of_all fp A hA0 hA _) (getD_le_of_all fp A hA0 hA _)

/-! ## Positions in a table -/

/-- The value at the fraction `a` of the interval after entry `i`. -/
def posVal (l : List ℚ) (i : ℕ) (a : ℚ) : ℚ := l.getD i 0 + a * (l.getD (i + 1) 0 - l.getD i 0)

theorem spaced_chain (m : ℚ) (l : List ℚ) (h : Spaced m l) (i n : ℕ) (hn : i + n < l.length) :
    m * n ≤ l.getD (i + n) 0 - l.getD i 0 := by
  induction n with
  | zero => simp
  | succ n ih =>
    have h1 := ih (by omega)
    have h2 := h (i + n) (by omega)
    have e : l.getD (i + (n + 1)) 0 = l.getD (i + n + 1) 0 := rfl
    rw [e]
    push_cast
    linarith

theorem smooth_chain (D : ℚ) (l : List ℚ) (h : Smooth D l) (i n : ℕ) (hn : i + n < l.length) :
    |l.getD (i + n) 0 - l.getD i 0| ≤ D * n := by
  induction n with
  | zero => simp
  | succ n ih =>
    have h1 := ih (by omega)
    have h2 := h (i + n) (by omega)
    have h3 := abs_sub_le (l.getD (i + n + 1) 0) (l.getD (i + n) 0) (l.getD i 0)
    have e : l.getD (i + (n + 1)) 0 = l.getD (i + n + 1) 0 := rfl
    rw [e]
    push_cast
    linarith

/-- Two positions in order: the knots are apart and the values are close, in terms of the difference of the positions. -/
theorem pos_order (m D : ℚ) (k f : List ℚ) (hk : Spaced m k) (hf : Smooth D f) (hlen : k.length = f.length)
    (i j : ℕ) (a b : ℚ) (hi : i + 1 < k.length) (hj : j + 1 < k.length) (ha : 0 ≤ a ∧ a ≤ 1) (hb : 0 ≤ b ∧ b ≤ 1)
    (hle : (i : ℚ) + a ≤ j + b) :
    m * (j + b - (i + a)) ≤ posVal k j b - posVal k i a ∧ |posVal f j b - posVal f i a| ≤ D * (j + b - (i + a)) := by
  unfold posVal
  rcases lt_trichotomy i j with h | h | h
  · obtain ⟨n, rfl⟩ : ∃ n, j = i + 1 + n := ⟨j - i - 1, by omega⟩
    have c1 := spaced_chain m k hk (i + 1) n (by omega)
    have c2 := hk i hi
    have c3 := hk (i + 1 + n) hj
    have d1 := smooth_chain D f hf (i + 1) n (by omega)
    have d2 := hf i (by omega)
    have d3 := hf (i + 1 + n) (by omega)
    constructor
    · push_cast
      nlinarith [mul_le_mul_of_nonneg_left c2 (by linarith [ha.2] : 0 ≤ 1 - a), mul_le_mul_of_nonneg_left c3 hb.1]
    · have e : f.getD (i + 1 + n) 0 + b * (f.getD (i + 1 + n + 1) 0 - f.getD (i + 1 + n) 0)
          - (f.getD i 0 + a * (f.getD (i + 1) 0 - f.getD i 0))
          = b * (f.getD (i + 1 + n + 1) 0 - f.getD (i + 1 + n) 0) + (f.getD (i + 1 + n) 0 - f.getD (i + 1) 0)
            + (1 - a) * (f.getD (i + 1) 0 - f.getD i 0) := by ring
      rw [e]
      refine (abs_add_le _ _).trans ((add_le_add_left (abs_add_le _ _) _).trans ?_)
      rw [abs_mul, abs_mul, abs_of_nonneg hb.1, abs_of_nonneg (by linarith [ha.2] : 0 ≤ 1 - a)]
      push_cast
      nlinarith [mul_le_mul_of_nonneg_left d2 (by linarith [ha.2] : 0 ≤ 1 - a), mul_le_mul_of_nonneg_left d3 hb.1]
  · subst h
    have hab : 0 ≤ b - a := by linarith
    constructor
    · nlinarith [mul_le_mul_of_nonneg_left (hk i hi) hab]
    · have e : f.getD i 0 + b * (f.getD (i + 1) 0 - f.getD i 0) - (f.getD i 0 + a * (f.getD (i + 1) 0 - f.getD i 0))
          = (b - a) * (f.getD (i + 1) 0 - f.getD i 0) := by ring
      rw [e, abs_mul, abs_of_nonneg hab]
      nlinarith [mul_le_mul_of_nonneg_left (hf i (by omega)) hab]
  · have h2 : (j : ℚ) + 1 ≤ i := by exact_mod_cast h
    have ha0 : a = 0 := by linarith [ha.1, hb.2]
    have hb1 : b = 1 := by linarith [ha.1, hb.2]
    have hij : i = j + 1 := by
      have : (i : ℚ) = j + 1 := by linarith
      exact_mod_cast this
    subst hij ha0 hb1
    push_cast
    constructor
    · ring_nf
      exact le_refl _
    · ring_nf
      simp

/-- Positions whose knots are within `e` have values within `D * e / m`. -/
theorem pos_close (m D e : ℚ) (hm : 0 < m) (hD : 0 ≤ D) (k f : List ℚ) (hk : Spaced m k) (hf : Smooth D f) (hlen : k.length = f.length)
    (i j : ℕ) (a b : ℚ) (hi : i + 1 < k.length) (hj : j + 1 < k.length) (ha : 0 ≤ a ∧ a ≤ 1) (hb : 0 ≤ b ∧ b ≤ 1)
    (h : |posVal k j b - posVal k i a| ≤ e) : |posVal f j b - posVal f i a| ≤ D * e / m := by
  have key : ∀ (i j : ℕ) (a b : ℚ), i + 1 < k.length → j + 1 < k.length → (0 ≤ a ∧ a ≤ 1) → (0 ≤ b ∧ b ≤ 1) →
      (i : ℚ) + a ≤ j + b → |posVal k j b - posVal k i a| ≤ e → |posVal f j b - posVal f i a| ≤ D * e / m := by
    intro i j a b hi hj ha hb hle h
    obtain ⟨h1, h2⟩ := pos_order m D k f hk hf hlen i j a b hi hj ha hb hle
    have h3 : m * (j + b - (i + a)) ≤ e := h1.trans ((le_abs_self _).trans h)
    have h4 : (j : ℚ) + b - (i + a) ≤ e / m := by rw [le_div_iff₀ hm]; linarith
    rw [mul_div_assoc]
    exact h2.trans (mul_le_mul_of_nonneg_left h4 hD)
  rcases le_total ((i : ℚ) + a) (j + b) with hle | hle
  · exact key i j a b hi hj ha hb hle h
  · rw [abs_sub_comm]
    exact key j i b a hj hi hb ha hle (by rw [abs_sub_comm]; exact h)

/-- An interpolated value as value at a position whose knot is `x`. -/
theorem interp_pos (find : List ℚ → ℚ → Nat) (hf : FindSpec find) (k f : List ℚ) (hk2 : 2 ≤ k.length) (left right : Option ℚ) (x : ℚ)
    (h0 : k.getD 0 0 ≤ x) (h1 : x ≤ k.getD (k.length - 1) 0) :
    ∃ i a, i + 1 < k.length ∧ (0 ≤ a ∧ a ≤ 1) ∧ posVal k i a = x ∧ interp1 find k f left right x = posVal f i a := by
  obtain ⟨c1, c2, c3⟩ := hf k x (by intro h; rw [h] at hk2; simp at hk2) h0 h1
  unfold interp1
  rw [if_neg (not_lt.2 h0), if_neg (not_lt.2 h1)]
  simp only
  by_cases hj : find k x + 1 = k.length
  · rw [if_pos hj]
    refine ⟨find k x - 1, 1, by omega, ⟨zero_le_one, le_refl _⟩, ?_, ?_⟩
    · have e : find k x - 1 + 1 = find k x := by omega
      unfold posVal
      rw [e]
      have e2 : k.length - 1 = find k x := by omega
      rw [e2] at h1
      linarith
    · have e : find k x - 1 + 1 = find k x := by omega
      unfold posVal
      rw [e]
      ring
  · rw [if_neg hj]
    have c3' := c3 (by omega)
    by_cases hx : k.getD (find k x) 0 = x
    · rw [if_pos hx]
      exact ⟨find k x, 0, by omega, ⟨le_refl _, zero_le_one⟩, by simpa [posVal] using hx, by simp [posVal]⟩
    · rw [if_neg hx]
      have hpos : 0 < k.getD (find k x + 1) 0 - k.getD (find k x) 0 := by linarith
      refine ⟨find k x, (x - k.getD (find k x) 0) / (k.getD (find k x + 1) 0 - k.getD (find k x) 0), by omega,
        ⟨div_nonneg (by linarith) hpos.le, (div_le_one hpos).2 (by linarith)⟩, ?_, ?_⟩
      · unfold posVal
        rw [div_mul_cancel₀ _ hpos.ne']
        ring
      · unfold posVal
        ring

theorem posVal_near (e : ℚ) (k k' : List ℚ) (h : ∀ i < k.length, |k'.getD i 0 - k.getD i 0| ≤ e) (i : ℕ) (a : ℚ) (hi : i + 1 < k.length)
    (ha : 0 ≤ a ∧ a ≤ 1) : |posVal k' i a - posVal k i a| ≤ e := by
  have h1 := h i (by omega)
  have h2 := h (i + 1) hi
  have e1 : posVal k' i a - posVal k i a = (1 - a) * (k'.getD i 0 - k.getD i 0) + a * (k'.getD (i + 1) 0 - k.getD (i + 1) 0) := by
    unfold posVal; ring
  rw [e1]
  refine (abs_add_le _ _).trans ?_
  rw [abs_mul, abs_mul, abs_of_nonneg ha.1, abs_of_nonneg (by linarith [ha.2] : 0 ≤ 1 - a)]
  nlinarith [mul_le_mul_of_nonneg_left h1 (by linarith [ha.2] : 0 ≤ 1 - a), mul_le_mul_of_nonneg_left h2 ha.1]

/-- **C213** (other knots).  Interpolation between knots which are off by at most `e`: values off by at most `D e / m`, unless the point is
between the two first or the two last knots and another value is used outside of the table. -/
theorem C213_knots (find : List ℚ → ℚ → Nat) (hfind : FindSpec find) (m D e : ℚ) (hm : 0 < m) (hD : 0 ≤ D) (he : 0 ≤ e) (k k' f : List ℚ)
    (hk : Spaced m k) (hf : Smooth D f) (hlen : k.length = f.length) (hlen' : k'.length = k.length) (hk2 : 2 ≤ k.length)
    (hnear : ∀ i < k.length, |k'.getD i 0 - k.getD i 0| ≤ e) (left right : Option ℚ) (x : ℚ)
    (hleft : left = none ∨ (k.getD 0 0 ≤ x ↔ k'.getD 0 0 ≤ x))
    (hright : x ≤ k.getD (k.length - 1) 0 ↔ x ≤ k'.getD (k.length - 1) 0)
    (hord : k.getD 0 0 ≤ k'.getD (k.length - 1) 0 ∧ k'.getD 0 0 ≤ k.getD (k.length - 1) 0) :
    |interp1 find k' f left right x - interp1 find k f left right x| ≤ D * e / m := by
  have h0 : 0 ≤ D * e / m := by positivity
  by_cases hr : x ≤ k.getD (k.length - 1) 0
  · have hr' := hright.1 hr
    -- the value in one of the two tables as value at a position near `x`
    by_cases hl : k.getD 0 0 ≤ x
    · obtain ⟨i, a, hi, ha, p1, p2⟩ := interp_pos find hfind k f hk2 left right x hl hr
      by_cases hl' : k'.getD 0 0 ≤ x
      · obtain ⟨j, b, hj, hb, q1, q2⟩ := interp_pos find hfind k' f (by omega) left right x hl' (by rw [hlen']; exact hr')
        rw [p2, q2]
        refine pos_close m D e hm hD k f hk hf hlen i j a b hi (by omega) ha hb ?_
        rw [p1, ← q1, abs_sub_comm]
        exact posVal_near e k k' hnear j b (by omega) hb
      · have hn : left = none := by
          rcases hleft with h | h
          · exact h
          · exact absurd (h.1 hl) hl'
        have v : interp1 find k' f left right x = posVal f 0 0 := by
          unfold interp1
          rw [if_pos (not_le.1 hl'), hn]
          simp [posVal]
        rw [p2, v]
        refine pos_close m D e hm hD k f hk hf hlen i 0 a 0 hi (by omega) ha ⟨le_refl _, zero_le_one⟩ ?_
        rw [p1]
        have := hnear 0 (by omega)
        simp only [posVal, zero_mul, add_zero]
        rw [abs_sub_comm, abs_of_nonneg (by linarith)]
        have := le_abs_self (k'.getD 0 0 - k.getD 0 0)
        linarith [not_le.1 hl']
    · have v : left = none → interp1 find k f left right x = posVal f 0 0 := by
        intro hn
        unfold interp1
        rw [if_pos (not_le.1 hl), hn]
        simp [posVal]
      by_cases hl' : k'.getD 0 0 ≤ x
      · have hn : left = none := by
          rcases hleft with h | h
          · exact h
          · exact absurd (h.2 hl') hl
        obtain ⟨j, b, hj, hb, q1, q2⟩ := interp_pos find hfind k' f (by omega) left right x hl' (by rw [hlen']; exact hr')
        rw [v hn, q2]
        refine pos_close m D e hm hD k f hk hf hlen 0 j 0 b (by omega) (by omega) ⟨le_refl _, zero_le_one⟩ hb ?_
        have h1 := posVal_near e k k' hnear j b (by omega) hb
        rw [q1] at h1
        have h2 := (pos_order m D k f hk hf hlen 0 j 0 b (by omega) (by omega) ⟨le_refl _, zero_le_one⟩ hb (by
          have : (0 : ℚ) ≤ j := Nat.cast_nonneg j
          push_cast
          linarith [hb.1])).1
        have h3 : 0 ≤ m * ((j : ℚ) + b - (((0 : ℕ) : ℚ) + 0)) := by
          have : (0 : ℚ) ≤ j := Nat.cast_nonneg j
          refine mul_nonneg hm.le ?_
          push_cast
          linarith [hb.1]
        rw [abs_of_nonneg (h3.trans h2)]
        simp only [posVal, zero_mul, add_zero] at h2 ⊢
        have := neg_abs_le (x - posVal k j b)
        unfold posVal at this h1
        linarith [not_le.1 hl]
      · have e1 : interp1 find k f left right x = interp1 find k' f left right x := by
          unfold interp1
          rw [if_pos (not_le.1 hl), if_pos (not_le.1 hl')]
        rw [e1, sub_self, abs_zero]
        exact h0
  · have hr' : ¬ x ≤ k'.getD (k.length - 1) 0 := fun h => hr (hright.2 h)
    have e1 : interp1 find k f left right x = interp1 find k' f left right x := by
      unfold interp1
      rw [hlen', if_neg (not_lt.2 (hord.2.trans (not_le.1 hr).le)), if_pos (not_le.1 hr'),
        if_neg (not_lt.2 (hord.1.trans (not_le.1 hr').le)), if_pos (not_le.1 hr)]
    rw [e1, sub_self, abs_zero]
    exact h0

/-! ## Move out -/

theorem interpAll64_ok (find : List ℚ → ℚ → Nat) (xs xp fp : List ℚ) (left right : Option ℚ) (h : xp.length = fp.length) (hne : xp ≠ []) :
    interpAll64 find xs xp fp left right = .ok (xs.map (interp64 find xp fp left right)) := by
  unfold interpAll64
  rw [if_neg (not_not.2 h), if_neg hne]

theorem interpAll_ok' (find : List ℚ → ℚ → Nat) (xs xp fp : List ℚ) (left right : Option ℚ) (h : xp.length = fp.length) (hne : xp ≠ []) :
    interpAll find xs xp fp left right = .ok (xs.map (interp1 find xp fp left right)) := by
  unfold interpAll
  rw [if_neg (not_not.2 h), if_neg hne]

theorem getD_map0 (g : ℚ → ℚ) (l : List ℚ) (i : ℕ) (hi : i < l.length) : (l.map g).getD i 0 = g (l.getD i 0) := by
  rw [List.getD_eq_getElem _ _ (by simpa using hi), List.getElem_map, List.getD_eq_getElem _ _ hi]

/-- The new times are off by at most `2⁻⁴⁹` of the largest time of the table, and stay in order. -/
theorem C213_times (find : List ℚ → ℚ → Nat) (hfind : FindSpec find) (l1 r1 : Option ℚ) (t t0 t1 : List ℚ) (hne : t0 ≠ []) (T m : ℚ)
    (hT0 : 0 ≤ T) (hT : ∀ y ∈ t1, |y| ≤ T) 
    (hsp : Spaced m (t.map (interp1 find t0 t1 l1 r1))) :
    (∀ i < t.length, |(t.map (interp64 find t0 t1 l1 r1)).getD i 0 - (t.map (interp1 find t0 t1 l1 r1)).getD i 0| ≤ T / 2 ^ 49) ∧
    Spaced (m - T / 2 ^ 48) (t.map (interp64 find t0 t1 l1 r1)) := by
  have h1 : ∀ i < t.length,
      |(t.map (interp64 find t0 t1 l1 r1)).getD i 0 - (t.map (interp1 find t0 t1 l1 r1)).getD i 0| ≤ T / 2 ^ 49 := by
    intro i hi
    rw [getD_map0 _ _ _ hi, getD_map0 _ _ _ hi]
    exact C213_interp find hfind t0 t1 hne l1 r1 T hT0 hT _
  refine ⟨h1, fun i hi => ?_⟩
  rw [List.length_map] at hi
  have a := (abs_le.1 (h1 i (by omega))).2
  have b := (abs_le.1 (h1 (i + 1) hi)).1
  have c := hsp i (by rw [List.length_map]; exact hi)
  have e : T / 2 ^ 48 = T / 2 ^ 49 + T / 2 ^ 49 := by ring
  rw [e]
  linarith

/-- **C213** (move out).  Let the new times of the samples be at least `m` apart, the times of the table at most `T`, the samples at most `A`
with differences of neighbours at most `D`.  Then the samples computed in double precision differ from the exact ones by at most
`2⁻⁴⁹ (A + D T / m)`, except for sample times which are within `2⁻⁴⁹ T` of the last new time, after which zeros are filled in, or of the
first one if values are filled in there too. -/
theorem C213_moveout (find : List ℚ → ℚ → Nat) (hfind : FindSpec find) (l1 r1 l2 r2 : Option ℚ) (t t0 t1 old : List ℚ) (T A D m : ℚ)
    (hlen : t0.length = t1.length) (hne : t0 ≠ []) (hold : old.length = t.length) (ht2 : 2 ≤ t.length)
    (hT0 : 0 ≤ T) (hT : ∀ y ∈ t1, |y| ≤ T) (hA0 : 0 ≤ A) (hA : ∀ y ∈ old, |y| ≤ A) (hD0 : 0 ≤ D) (hD : Smooth D old)
    (hm : T / 2 ^ 48 < m) (hsp : Spaced m (t.map (interp1 find t0 t1 l1 r1))) :
    ∃ newt data newt64 data64, stretch2 find l1 r1 l2 r2 t t0 t1 old = .ok (newt, data) ∧
      stretch2_64 find l1 r1 l2 r2 t t0 t1 old = .ok (newt64, data64) ∧ data.length = t.length ∧ data64.length = t.length ∧
      newt.length = t.length ∧ newt64.length = t.length ∧
      (∀ i < t.length, |newt64.getD i 0 - newt.getD i 0| ≤ T / 2 ^ 49) ∧ Spaced (m - T / 2 ^ 48) newt64 ∧
      ∀ i < t.length, T / 2 ^ 49 < |t.getD i 0 - newt.getD (t.length - 1) 0| →
        (l2 = none ∨ T / 2 ^ 49 < |t.getD i 0 - newt.getD 0 0|) →
        |data64.getD i 0 - data.getD i 0| ≤ (A + D * T / m) / 2 ^ 49 := by
  obtain ⟨h1, h2⟩ := C213_times find hfind l1 r1 t t0 t1 hne T m hT0 hT hsp
  set k := t.map (interp1 find t0 t1 l1 r1) with hk
  set k' := t.map (interp64 find t0 t1 l1 r1) with hk'
  have hkl : k.length = t.length := by rw [hk, List.length_map]
  have hkl' : k'.length = t.length := by rw [hk', List.length_map]
  have hkne : k ≠ [] := by intro h; rw [h] at hkl; simp at hkl; omega
  have hkne' : k' ≠ [] := by intro h; rw [h] at hkl'; simp at hkl'; omega
  have hm0 : 0 < m := by
    have : 0 ≤ T / 2 ^ 48 := by positivity
    linarith
  refine ⟨k, t.map (interp1 find k old l2 r2), k', t.map (interp64 find k' old l2 r2), ?_, ?_, by simp, by simp, hkl, hkl', h1, h2, ?_⟩
  · unfold stretch2
    rw [interpAll_ok' find t t0 t1 l1 r1 hlen hne, ← hk]
    simp only [bind, Except.bind]
    rw [interpAll_ok' find t k old l2 r2 (by omega) hkne]
  · unfold stretch2_64
    rw [interpAll64_ok find t t0 t1 l1 r1 hlen hne, ← hk']
    simp only [bind, Except.bind]
    rw [interpAll64_ok find t k' old l2 r2 (by omega) hkne']
  intro i hi hlast hfirst
  rw [getD_map0 _ _ _ hi, getD_map0 _ _ _ hi]
  set x := t.getD i 0 with hx
  set e := T / 2 ^ 49 with he
  have he0 : 0 ≤ e := by rw [he]; positivity
  have hem : 2 * e < m := by
    have : T / 2 ^ 48 = 2 * e := by rw [he]; ring
    linarith
  have hnear : ∀ j < k.length, |k'.getD j 0 - k.getD j 0| ≤ e := fun j hj => h1 j (by omega)
  have side : ∀ j < k.length, e < |x - k.getD j 0| → (x ≤ k.getD j 0 ↔ x ≤ k'.getD j 0) ∧ (k.getD j 0 ≤ x ↔ k'.getD j 0 ≤ x) := by
    intro j hj h
    obtain ⟨a, b⟩ := abs_le.1 (hnear j hj)
    rcases le_or_gt 0 (x - k.getD j 0) with h0 | h0
    · rw [abs_of_nonneg h0] at h
      exact ⟨⟨fun _ => by linarith, fun _ => by linarith⟩, ⟨fun _ => by linarith, fun _ => by linarith⟩⟩
    · rw [abs_of_neg h0] at h
      exact ⟨⟨fun _ => by linarith, fun _ => by linarith⟩, ⟨fun _ => by linarith, fun _ => by linarith⟩⟩
  have hch := spaced_chain m k hsp 0 (k.length - 1) (by omega)
  rw [Nat.zero_add] at hch
  have hone : (1 : ℚ) ≤ ((k.length - 1 : ℕ) : ℚ) := by exact_mod_cast (by omega : 1 ≤ k.length - 1)
  have hgap : m ≤ k.getD (k.length - 1) 0 - k.getD 0 0 := by nlinarith
  have n0 := abs_le.1 (hnear 0 (by omega))
  have n1 := abs_le.1 (hnear (k.length - 1) (by omega))
  have c := C213_knots find hfind m D e hm0 hD0 he0 k k' old hsp hD (by omega) (by omega) (by omega) hnear l2 r2 x
    (hfirst.imp id fun h => (side 0 (by omega) h).2)
    ((side (k.length - 1) (by omega) (by rw [hkl]; exact hlast)).1)
    ⟨by linarith, by linarith⟩
  have c2 := C213_interp find hfind k' old hkne' l2 r2 A hA0 hA x
  have c3 := abs_sub_le (interp64 find k' old l2 r2 x) (interp1 find k' old l2 r2 x) (interp1 find k old l2 r2 x)
  have e2 : (A + D * T / m) / 2 ^ 49 = A / 2 ^ 49 + D * e / m := by rw [he]; ring
  rw [e2]
  linarith

/-- **C213** (trace).  The samples of a trace after move out in double precision are those before the onset and the samples of
`C213_moveout`. -/
theorem C213_trace (find : List ℚ → ℚ → Nat) (hfind : FindSpec find) (index0 : ℤ) (tr : Trace ℚ) (onset : ℚ)
    (t0 t1 : List ℚ) (a b : ℚ) (ha : getItem t0 (-1) = .ok a) (hb : getItem t1 (-1) = .ok b) (i0 : ℤ)
    (hi0 : i0 = if a > b then index0 + 1 else index0) (t old : List ℚ) (ht : t = sampleTimes64 i0 tr onset)
    (hold : old = sliceFrom tr.data i0) (hol : old.length = t.length) (T A D m : ℚ)
    (hlen : t0.length = t1.length) (hne : t0 ≠ []) (ht2 : 2 ≤ t.length)
    (hT0 : 0 ≤ T) (hT : ∀ y ∈ t1, |y| ≤ T) (hA0 : 0 ≤ A) (hA : ∀ y ∈ old, |y| ≤ A) (hD0 : 0 ≤ D) (hD : Smooth D old)
    (hm : T / 2 ^ 48 < m) (hsp : Spaced m (t.map (interp1 find t0 t1 (some 0) none))) :
    ∃ newt data data64, stretch2 find (some 0) none none (some 0) t t0 t1 old = .ok (newt, data) ∧
      moveoutP64 find index0 tr onset t0 t1 = .ok (sliceTo tr.data i0 ++ data64) ∧ data64.length = t.length ∧
      ∀ i < t.length, T / 2 ^ 49 < |t.getD i 0 - newt.getD (t.length - 1) 0| →
        |data64.getD i 0 - data.getD i 0| ≤ (A + D * T / m) / 2 ^ 49 := by
  obtain ⟨newt, data, newt64, data64, h1, h2, -, h4, -, -, -, -, h9⟩ := C213_moveout find hfind (some 0) none none (some 0) t t0 t1 old
    T A D m hlen hne hol ht2 hT0 hT hA0 hA hD0 hD hm hsp
  refine ⟨newt, data, data64, h1, ?_, h4, fun i hi h => h9 i hi h (.inl rfl)⟩
  unfold moveoutP64
  rw [ha, hb]
  simp only [bind, Except.bind]
  rw [← hi0, ← ht, ← hold, h2]

/-- **C213** (sample times).  The times of the samples in double precision are those relative to the onset up to some roundings. -/
theorem C213_sampleTimes (i0 : ℤ) (tr : Trace ℚ) (onset M : ℚ) (h1 : |tr.start - onset| ≤ M) (h2 : |(i0 : ℚ) * tr.delta| ≤ M)
    (h3 : ∀ k < tr.npts - i0.toNat, |(k : ℚ) * tr.delta| ≤ M) :
    (sampleTimes64 i0 tr onset).length = tr.npts - i0.toNat ∧ ∀ k < tr.npts - i0.toNat,
      |(sampleTimes64 i0 tr onset).getD k 0 - (tr.start + ((i0 : ℚ) + k) * tr.delta - onset)| ≤ 20 * M / 2 ^ 53 := by
  refine ⟨by simp [sampleTimes64], fun k hk => ?_⟩
  have e : (sampleTimes64 i0 tr onset).getD k 0 = fl64 (fl64 (fl64 (tr.start - onset) + fl64 ((i0 : ℚ) * fl64 tr.delta)) + fl64 ((k : ℚ) * fl64 tr.delta)) := by
    unfold sampleTimes64
    rw [List.getD_eq_getElem _ _ (by simpa using hk)]
    simp
  rw [e]
  have h3' := h3 k hk
  -- products with the rounded step
  have prod : ∀ n : ℚ, |n * tr.delta| ≤ M → |fl64 (n * fl64 tr.delta) - n * tr.delta| ≤ 3 * M / 2 ^ 53 := by
    intro n hn
    have a1 := fl64_rel tr.delta
    have a2 := fl64_rel (n * fl64 tr.delta)
    have a3 : |n * fl64 tr.delta - n * tr.delta| ≤ M / 2 ^ 53 := by
      rw [← mul_sub, abs_mul]
      refine (mul_le_mul_of_nonneg_left a1 (abs_nonneg n)).trans ?_
      rw [← mul_div_assoc, ← abs_mul]
      exact div_le_div_of_nonneg_right hn (by norm_num)
    have a4 : |n * fl64 tr.delta| ≤ 2 * M := by
      have := abs_sub_abs_le_abs_sub (n * fl64 tr.delta) (n * tr.delta)
      have : 0 ≤ M := (abs_nonneg _).trans hn
      linarith
    have := abs_sub_le (fl64 (n * fl64 tr.delta)) (n * fl64 tr.delta) (n * tr.delta)
    have := div_le_div_of_nonneg_right a4 (show (0 : ℚ) ≤ 2 ^ 53 by norm_num)
    linarith
  have p1 := prod _ h2
  have p2 := prod _ h3'
  have f1 := fl64_rel (tr.start - onset)
  have f2 := fl64_rel (fl64 (tr.start - onset) + fl64 ((i0 : ℚ) * fl64 tr.delta))
  have f3 := fl64_rel (fl64 (fl64 (tr.start - onset) + fl64 ((i0 : ℚ) * fl64 tr.delta)) + fl64 ((k : ℚ) * fl64 tr.delta))
  have goal : tr.start + ((i0 : ℚ) + k) * tr.delta - onset = (tr.start - onset) + (i0 : ℚ) * tr.delta + (k : ℚ) * tr.delta := by ring
  rw [goal]
  have hM : 0 ≤ M := (abs_nonneg _).trans h1
  generalize fl64 (fl64 (fl64 (tr.start - onset) + fl64 ((i0 : ℚ) * fl64 tr.delta)) + fl64 ((k : ℚ) * fl64 tr.delta)) = F at *
  generalize fl64 (fl64 (tr.start - onset) + fl64 ((i0 : ℚ) * fl64 tr.delta)) = B at *
  generalize fl64 (tr.start - onset) = a at *
  generalize fl64 ((i0 : ℚ) * fl64 tr.delta) = b at *
  generalize fl64 ((k : ℚ) * fl64 tr.delta) = c at *
  generalize tr.start - onset = A at *
  generalize (i0 : ℚ) * tr.delta = I at *
  generalize (k : ℚ) * tr.delta = L at *
  have f1' := abs_le.1 (f1.trans (div_le_div_of_nonneg_right h1 (by norm_num)))
  have b1 := abs_le.1 p1
  have b2 := abs_le.1 p2
  have b3 := abs_le.1 h1
  have b4 := abs_le.1 h2
  have b5 := abs_le.1 h3'
  have c1 : |a + b| ≤ 5 / 2 * M := by rw [abs_le]; constructor <;> linarith
  have f2' := abs_le.1 (f2.trans (div_le_div_of_nonneg_right c1 (by norm_num)))
  have c2 : |B + c| ≤ 4 * M := by rw [abs_le]; constructor <;> linarith
  have f3' := abs_le.1 (f3.trans (div_le_div_of_nonneg_right c2 (by norm_num)))
  rw [abs_le]
  constructor <;> linarith

/-! ## Cases -/

/-- Five samples, a table which shortens times by the factor 2/3: new times two thirds of a second apart. -/
example : let t : List ℚ := [0, 1, 2, 3, 4]
    let t0 : List ℚ := [0, 3, 5]
    let t1 : List ℚ := [0, 2, 10 / 3]
    Spaced (2 / 3) (t.map (interp1 npFind t0 t1 (some 0) none)) ∧ Smooth 4 [(1 : ℚ), -3, 0, 2, 1] ∧ (4 : ℚ) / 2 ^ 48 < 2 / 3 ∧
    t.map (interp1 npFind t0 t1 (some 0) none) = [0, 2 / 3, 4 / 3, 2, 8 / 3] ∧
    -- the last sample is 4/3 s after the last new time, the others before it or well after it
    (∀ i < 5, (4 : ℚ) / 2 ^ 49 < |t.getD i 0 - 8 / 3|) := by
  refine ⟨?_, ?_, by norm_num, by decide +kernel, by decide +kernel⟩
  · intro i hi
    have hi : i + 1 < 5 := by simpa using hi
    have hi : i < 4 := by omega
    interval_cases i <;> decide +kernel
  · intro i hi
    have hi : i + 1 < 5 := by simpa using hi
    have hi : i < 4 := by omega
    interval_cases i <;> decide +kernel

end Verif.Props
