import Verif.Py.Basic
import Mathlib.Data.List.GetD
import Mathlib.Algebra.Order.Field.Basic
import Mathlib.Tactic.Linarith
import Mathlib.Tactic.FieldSimp
import Mathlib.Tactic.Ring

/-!
# `numpy.interp`

`np.interp(x, xp, fp, left, right)` over exact numbers.  NumPy looks up a bracketing index by a
(guess assisted) binary search.  For increasing `xp` the index is determined; for other `xp` it depends on
the search strategy, so the search `find` is a parameter with the specification `FindSpec`,
which is what the C function `binary_search_with_guess` guarantees for every `xp`.
-/

namespace Verif.Py

variable {K : Type} [Field K] [LinearOrder K]

/-- What NumPy's `binary_search_with_guess` guarantees for `xp[0] ≤ x ≤ xp[-1]`. -/
def FindSpec (find : List K → K → Nat) : Prop :=
  ∀ (xp : List K) (x : K), xp ≠ [] → xp.getD 0 0 ≤ x → x ≤ xp.getD (xp.length - 1) 0 →
    find xp x < xp.length ∧ xp.getD (find xp x) 0 ≤ x ∧
      (find xp x + 1 < xp.length → x < xp.getD (find xp x + 1) 0)

/-- A concrete search (linear, from the left). -/
def npFind : List K → K → Nat
  | [], _ => 0
  | [_], _ => 0
  | _ :: b :: r, x => if x < b then 0 else npFind (b :: r) x + 1

theorem npFind_spec : FindSpec (npFind (K := K)) := by
  intro xp x hne h0 h1
  induction xp with
  | nil => exact absurd rfl hne
  | cons a xp ih =>
    cases xp with
    | nil => simpa [npFind] using h0
    | cons b r =>
      unfold npFind
      split
      · rename_i h
        refine ⟨by simp, by simpa using h0, fun _ => by simpa using h⟩
      · rename_i h
        have := ih (by simp) (by simpa using h) (by simpa using h1)
        refine ⟨by simpa using this.1, by simpa using this.2.1, fun hl => ?_⟩
        have h3 := this.2.2 (by simpa using hl)
        simpa using h3

/-- One value of `np.interp` for non-empty `xp`. -/
def interp1 (find : List K → K → Nat) (xp fp : List K) (left right : Option K) (x : K) : K :=
  if x < xp.getD 0 0 then left.getD (fp.getD 0 0)
  else if xp.getD (xp.length - 1) 0 < x then right.getD (fp.getD (xp.length - 1) 0)
  else
    let j := find xp x
    if j + 1 = xp.length then fp.getD j 0
    else if xp.getD j 0 = x then fp.getD j 0
    else
      (fp.getD (j + 1) 0 - fp.getD j 0) / (xp.getD (j + 1) 0 - xp.getD j 0) * (x - xp.getD j 0)
        + fp.getD j 0

/-- `np.interp(xs, xp, fp, left, right)`; `ValueError` for empty `xp` or different lengths. -/
def interpAll (find : List K → K → Nat) (xs xp fp : List K) (left right : Option K) :
    Res (List K) :=
  if xp.length ≠ fp.length then .error .valueError
  else if xp = [] then .error .valueError
  else .ok (xs.map (interp1 find xp fp left right))

/-- Increasing (not necessarily strictly) table, by index. -/
def Increasing (l : List K) : Prop :=
  ∀ i j, i ≤ j → j < l.length → l.getD i 0 ≤ l.getD j 0

theorem increasing_iff_pairwise (l : List K) : Increasing l ↔ l.Pairwise (· ≤ ·) := by
  rw [List.pairwise_iff_getElem]
  constructor
  · intro h i j hi hj hij
    have := h i j hij.le hj
    rwa [List.getD_eq_getElem _ _ hi, List.getD_eq_getElem _ _ hj] at this
  · intro h i j hij hj
    rw [List.getD_eq_getElem _ _ (by omega), List.getD_eq_getElem _ _ hj]
    rcases Nat.eq_or_lt_of_le hij with rfl | hlt
    · exact le_refl _
    · exact h i j _ _ hlt

set_option linter.unusedSectionVars false
variable [IsStrictOrderedRing K]

theorem slope_mem (a b c d x m M : K) (h1 : a ≤ x) (h2 : x < b) (hc : m ≤ c ∧ c ≤ M)
    (hd : m ≤ d ∧ d ≤ M) : m ≤ (d - c) / (b - a) * (x - a) + c ∧
      (d - c) / (b - a) * (x - a) + c ≤ M := by
  have hba : 0 < b - a := by linarith
  have hrew : (d - c) / (b - a) * (x - a) + c
      = c * ((b - x) / (b - a)) + d * ((x - a) / (b - a)) := by
    field_simp; ring
  have hsum : (b - x) / (b - a) + (x - a) / (b - a) = 1 := by field_simp; ring
  have h3 : 0 ≤ (b - x) / (b - a) := div_nonneg (by linarith) hba.le
  have h4 : 0 ≤ (x - a) / (b - a) := div_nonneg (by linarith) hba.le
  rw [hrew]
  constructor
  · calc m = m * ((b - x) / (b - a) + (x - a) / (b - a)) := by rw [hsum, mul_one]
      _ = m * ((b - x) / (b - a)) + m * ((x - a) / (b - a)) := by ring
      _ ≤ _ := add_le_add (mul_le_mul_of_nonneg_right hc.1 h3) (mul_le_mul_of_nonneg_right hd.1 h4)
  · calc _ ≤ M * ((b - x) / (b - a)) + M * ((x - a) / (b - a)) :=
        add_le_add (mul_le_mul_of_nonneg_right hc.2 h3) (mul_le_mul_of_nonneg_right hd.2 h4)
      _ = M * ((b - x) / (b - a) + (x - a) / (b - a)) := by ring
      _ = M := by rw [hsum, mul_one]

/-- Values never leave the interval spanned by the table values and the outside values; no
assumption on the order of `xp`. -/
theorem interp1_mem (find : List K → K → Nat) (hf : FindSpec find) (xp fp : List K)
    (left right : Option K) (x m M : K) (hlen : xp.length = fp.length) (hne : xp ≠ [])
    (hfp : ∀ y ∈ fp, m ≤ y ∧ y ≤ M) (hl : ∀ y, left = some y → m ≤ y ∧ y ≤ M)
    (hr : ∀ y, right = some y → m ≤ y ∧ y ≤ M) :
    m ≤ interp1 find xp fp left right x ∧ interp1 find xp fp left right x ≤ M := by
  have hpos : 0 < xp.length := List.length_pos_iff.2 hne
  have hget : ∀ i, i < xp.length → m ≤ fp.getD i 0 ∧ fp.getD i 0 ≤ M := by
    intro i hi
    rw [List.getD_eq_getElem _ _ (by omega : i < fp.length)]
    exact hfp _ (List.getElem_mem _)
  unfold interp1
  split
  · cases left with
    | none => exact hget 0 hpos
    | some y => exact hl y rfl
  · rename_i h0
    split
    · cases right with
      | none => exact hget _ (by omega)
      | some y => exact hr y rfl
    · rename_i h1
      obtain ⟨hj, hle, hlt⟩ := hf xp x hne (not_lt.1 h0) (not_lt.1 h1)
      simp only
      split
      · exact hget _ hj
      · split
        · exact hget _ hj
        · have hj1 : find xp x + 1 < xp.length := by omega
          exact slope_mem _ _ _ _ _ _ _ hle (hlt hj1) (hget _ hj) (hget _ hj1)

omit [IsStrictOrderedRing K] in
/-- In an increasing table the bracketing index is unique. -/
theorem find_unique (xp : List K) (x : K) (hs : Increasing xp) (j k : Nat)
    (hj : j < xp.length ∧ xp.getD j 0 ≤ x ∧ (j + 1 < xp.length → x < xp.getD (j + 1) 0))
    (hk : k < xp.length ∧ xp.getD k 0 ≤ x ∧ (k + 1 < xp.length → x < xp.getD (k + 1) 0)) :
    j = k := by
  rcases lt_trichotomy j k with h | h | h
  · have h1 := hj.2.2 (by omega)
    have h2 := hs (j + 1) k h hk.1
    exact absurd (lt_of_lt_of_le h1 (le_trans h2 hk.2.1)) (lt_irrefl _)
  · exact h
  · have h1 := hk.2.2 (by omega)
    have h2 := hs (k + 1) j h hj.1
    exact absurd (lt_of_lt_of_le h1 (le_trans h2 hj.2.1)) (lt_irrefl _)

/-- For an increasing table `np.interp` does not depend on the search strategy. -/
theorem interp1_find_indep (f g : List K → K → Nat) (hf : FindSpec f) (hg : FindSpec g)
    (xp fp : List K) (left right : Option K) (x : K) (hne : xp ≠ []) (hs : Increasing xp) :
    interp1 f xp fp left right x = interp1 g xp fp left right x := by
  unfold interp1
  split
  · rfl
  · rename_i h0
    split
    · rfl
    · rename_i h1
      have := find_unique xp x hs _ _ (hf xp x hne (not_lt.1 h0) (not_lt.1 h1))
        (hg xp x hne (not_lt.1 h0) (not_lt.1 h1))
      rw [this]

/-- At a knot the table value is returned (repeated knots must have the same value). -/
theorem interp1_knot (find : List K → K → Nat) (hf : FindSpec find) (xp fp : List K)
    (left right : Option K) (hne : xp ≠ []) (hs : Increasing xp) (i : Nat) (hi : i < xp.length)
    (hdup : ∀ j, j < xp.length → xp.getD j 0 = xp.getD i 0 → fp.getD j 0 = fp.getD i 0) :
    interp1 find xp fp left right (xp.getD i 0) = fp.getD i 0 := by
  have hpos : 0 < xp.length := List.length_pos_iff.2 hne
  have h0 : xp.getD 0 0 ≤ xp.getD i 0 := hs 0 i (by omega) hi
  have h1 : xp.getD i 0 ≤ xp.getD (xp.length - 1) 0 := hs i _ (by omega) (by omega)
  obtain ⟨hj, hle, hlt⟩ := hf xp (xp.getD i 0) hne h0 h1
  have heq : xp.getD (find xp (xp.getD i 0)) 0 = xp.getD i 0 := by
    apply le_antisymm hle
    by_contra hcon
    rw [not_le] at hcon
    have hij : find xp (xp.getD i 0) < i := by
      by_contra hge
      exact absurd (hs i _ (not_lt.1 hge) hj) (not_le.2 hcon)
    have := hlt (by omega)
    exact absurd (hs (find xp (xp.getD i 0) + 1) i (by omega) hi) (not_le.2 this)
  unfold interp1
  rw [if_neg (not_lt.2 h0), if_neg (not_lt.2 h1)]
  simp only
  split
  · exact hdup _ hj heq
  · exact hdup _ hj heq

/-- Inside one interval of an increasing table the value lies between the two table values, and more
precisely on the chord. -/
theorem interp1_chord (find : List K → K → Nat) (hf : FindSpec find) (xp fp : List K)
    (left right : Option K) (hs : Increasing xp) (i : Nat)
    (hi : i + 1 < xp.length) (x : K) (hx0 : xp.getD i 0 ≤ x) (hx1 : x < xp.getD (i + 1) 0) :
    interp1 find xp fp left right x =
      (fp.getD (i + 1) 0 - fp.getD i 0) / (xp.getD (i + 1) 0 - xp.getD i 0) * (x - xp.getD i 0)
        + fp.getD i 0 := by
  have hne : xp ≠ [] := by rintro rfl; simp at hi
  have h0 : xp.getD 0 0 ≤ x := le_trans (hs 0 i (by omega) (by omega)) hx0
  have h1 : x ≤ xp.getD (xp.length - 1) 0 := le_trans hx1.le (hs _ _ (by omega) (by omega))
  have hu := find_unique xp x hs _ i (hf xp x hne h0 h1) ⟨by omega, hx0, fun _ => hx1⟩
  unfold interp1
  rw [if_neg (not_lt.2 h0), if_neg (not_lt.2 h1)]
  simp only [hu]
  rw [if_neg (by omega)]
  split
  · rename_i h; rw [h]; simp
  · rfl

/-- Monotone tables give a monotone interpolation. -/
theorem interp1_mono (find : List K → K → Nat) (hf : FindSpec find) (xp fp : List K)
    (left right : Option K) (hlen : xp.length = fp.length) (hne : xp ≠ []) (hs : Increasing xp)
    (hfs : Increasing fp) (hl : ∀ y, left = some y → y ≤ fp.getD 0 0)
    (hr : ∀ y, right = some y → fp.getD (fp.length - 1) 0 ≤ y) (x y : K) (hxy : x ≤ y) :
    interp1 find xp fp left right x ≤ interp1 find xp fp left right y := by
  have hpos : 0 < xp.length := List.length_pos_iff.2 hne
  -- value inside the table lies between the neighbouring table values
  have inside : ∀ x, xp.getD 0 0 ≤ x → x ≤ xp.getD (xp.length - 1) 0 →
      fp.getD (find xp x) 0 ≤ interp1 find xp fp left right x ∧
      (find xp x + 1 < xp.length → interp1 find xp fp left right x ≤ fp.getD (find xp x + 1) 0) ∧
      (find xp x + 1 = xp.length → interp1 find xp fp left right x = fp.getD (find xp x) 0) := by
    intro x h0 h1
    obtain ⟨hj, hle, hlt⟩ := hf xp x hne h0 h1
    by_cases hlast : find xp x + 1 = xp.length
    · have : interp1 find xp fp left right x = fp.getD (find xp x) 0 := by
        unfold interp1
        rw [if_neg (not_lt.2 h0), if_neg (not_lt.2 h1)]
        simp only [if_pos hlast]
      exact ⟨this.ge, fun h => by omega, fun _ => this⟩
    · have hj1 : find xp x + 1 < xp.length := by omega
      rw [interp1_chord find hf xp fp left right hs _ hj1 x hle (hlt hj1)]
      have hmono := hfs (find xp x) (find xp x + 1) (by omega) (by omega)
      have := slope_mem _ _ _ _ x (fp.getD (find xp x) 0) (fp.getD (find xp x + 1) 0)
        hle (hlt hj1) ⟨le_refl _, hmono⟩ ⟨hmono, le_refl _⟩
      exact ⟨this.1, fun _ => this.2, fun h => absurd h hlast⟩
  have below : ∀ x, x < xp.getD 0 0 → interp1 find xp fp left right x = left.getD (fp.getD 0 0) := by
    intro x h; unfold interp1; rw [if_pos h]
  have hleft : left.getD (fp.getD 0 0) ≤ fp.getD 0 0 := by
    cases left with
    | none => exact le_refl _
    | some y => exact hl y rfl
  have hright : fp.getD (xp.length - 1) 0 ≤ right.getD (fp.getD (xp.length - 1) 0) := by
    cases right with
    | none => exact le_refl _
    | some y => rw [hlen]; exact hr y rfl
  have above : ∀ x, xp.getD 0 0 ≤ x → xp.getD (xp.length - 1) 0 < x →
      interp1 find xp fp left right x = right.getD (fp.getD (xp.length - 1) 0) := by
    intro x h h'; unfold interp1; rw [if_neg (not_lt.2 h), if_pos h']
  -- bounds of inside values
  have ib : ∀ x, xp.getD 0 0 ≤ x → x ≤ xp.getD (xp.length - 1) 0 →
      fp.getD 0 0 ≤ interp1 find xp fp left right x ∧
      interp1 find xp fp left right x ≤ fp.getD (xp.length - 1) 0 := by
    intro x h0 h1
    obtain ⟨hj, -, -⟩ := hf xp x hne h0 h1
    obtain ⟨i1, i2, i3⟩ := inside x h0 h1
    refine ⟨le_trans (hfs 0 _ (by omega) (by omega)) i1, ?_⟩
    by_cases hlast : find xp x + 1 = xp.length
    · rw [i3 hlast]; exact hfs _ _ (by omega) (by omega)
    · exact le_trans (i2 (by omega)) (hfs _ _ (by omega) (by omega))
  by_cases hx0 : x < xp.getD 0 0
  · rw [below x hx0]
    by_cases hy0 : y < xp.getD 0 0
    · rw [below y hy0]
    · by_cases hy1 : xp.getD (xp.length - 1) 0 < y
      · rw [above y (not_lt.1 hy0) hy1]
        exact le_trans hleft (le_trans (hfs 0 _ (by omega) (by omega)) hright)
      · exact le_trans hleft (ib y (not_lt.1 hy0) (not_lt.1 hy1)).1
  · have hx0' := not_lt.1 hx0
    have hy0 := le_trans hx0' hxy
    by_cases hy1 : xp.getD (xp.length - 1) 0 < y
    · rw [above y hy0 hy1]
      by_cases hx1 : xp.getD (xp.length - 1) 0 < x
      · rw [above x hx0' hx1]
      · exact le_trans (ib x hx0' (not_lt.1 hx1)).2 hright
    · have hy1' := not_lt.1 hy1
      have hx1' := le_trans hxy hy1'
      obtain ⟨hjx, hjx1, hjx2⟩ := hf xp x hne hx0' hx1'
      obtain ⟨hjy, hjy1, hjy2⟩ := hf xp y hne hy0 hy1'
      have hij : find xp x ≤ find xp y := by
        by_contra hcon
        have h1 := hjy2 (by omega)
        have h2 := hs (find xp y + 1) (find xp x) (by omega) hjx
        linarith
      obtain ⟨x1, x2, x3⟩ := inside x hx0' hx1'
      obtain ⟨y1, y2, y3⟩ := inside y hy0 hy1'
      rcases Nat.eq_or_lt_of_le hij with heq | hlt
      · by_cases hlast : find xp x + 1 = xp.length
        · rw [x3 hlast]; exact le_trans (hfs _ _ hij (by omega)) y1
        · have hj1 : find xp x + 1 < xp.length := by omega
          rw [interp1_chord find hf xp fp left right hs _ hj1 x hjx1 (hjx2 hj1),
            interp1_chord find hf xp fp left right hs _ (heq ▸ hj1) y hjy1 (hjy2 (heq ▸ hj1)), ← heq]
          have hmono := hfs (find xp x) (find xp x + 1) (by omega) (by omega)
          have hb := hjx2 hj1
          have : 0 ≤ (fp.getD (find xp x + 1) 0 - fp.getD (find xp x) 0) /
              (xp.getD (find xp x + 1) 0 - xp.getD (find xp x) 0) :=
            div_nonneg (by linarith) (by linarith)
          have := mul_le_mul_of_nonneg_left (sub_le_sub_right hxy (xp.getD (find xp x) 0)) this
          linarith
      · have hx2 := x2 (by omega)
        exact le_trans hx2 (le_trans (hfs _ _ hlt (by omega)) y1)

end Verif.Py
