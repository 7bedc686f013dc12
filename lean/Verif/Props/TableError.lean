import Verif.Model.Simple
import Verif.Props.DoubleTables
import Mathlib.Tactic.Positivity

/-!
# C222: small errors of the delay times stay small in the move out correction
-/

set_option linter.unusedSimpArgs false
set_option linter.unusedSectionVars false

namespace Verif.Spec
variable {K : Type} [Field K] [LinearOrder K]

/-- Two tables of the same length whose entries differ by at most `ε`. -/
def NearTables (ε : K) (l l' : List K) : Prop := l'.length = l.length ∧ ∀ i < l.length, |l'.getD i 0 - l.getD i 0| ≤ ε

/-- The table `t0` of times is increasing and a step of `t1` is between `lo` and `hi` times the one of `t0`. -/
def Stretch (lo hi : K) (t0 t1 : List K) : Prop :=
  ∀ i, i + 1 < t0.length → 0 ≤ t0.getD (i + 1) 0 - t0.getD i 0 ∧
    lo * (t0.getD (i + 1) 0 - t0.getD i 0) ≤ t1.getD (i + 1) 0 - t1.getD i 0 ∧
    t1.getD (i + 1) 0 - t1.getD i 0 ≤ hi * (t0.getD (i + 1) 0 - t0.getD i 0)

end Verif.Spec

namespace Verif.Props
open Verif.Py Verif.Model Verif.Model.Simple Verif.Spec
variable {K : Type} [Field K] [LinearOrder K] [IsStrictOrderedRing K]

/-- The value at the fraction `a` of the interval after entry `i`. -/
def pv (g : ℕ → K) (i : ℕ) (a : K) : K := g i + a * (g (i + 1) - g i)

theorem steps_mono (g : ℕ → K) (n : ℕ) (h : ∀ i, i + 1 < n → 0 ≤ g (i + 1) - g i) (i d : ℕ) (hd : i + d < n) : g i ≤ g (i + d) := by
  induction d with
  | zero => simp
  | succ d ih =>
    have h1 := ih (by omega)
    have h2 := h (i + d) (by omega)
    have e : i + (d + 1) = i + d + 1 := by omega
    rw [e]
    linarith

/-- Values at later positions are larger. -/
theorem pv_mono (g : ℕ → K) (n : ℕ) (h : ∀ i, i + 1 < n → 0 ≤ g (i + 1) - g i) (i j : ℕ) (a b : K) (hi : i + 1 < n) (hj : j + 1 < n)
    (ha : 0 ≤ a ∧ a ≤ 1) (hb : 0 ≤ b ∧ b ≤ 1) (hle : i < j ∨ (i = j ∧ a ≤ b)) : pv g i a ≤ pv g j b := by
  unfold pv
  rcases hle with hlt | ⟨rfl, hab⟩
  · obtain ⟨d, rfl⟩ : ∃ d, j = i + 1 + d := ⟨j - (i + 1), by omega⟩
    have h1 := steps_mono g n h (i + 1) d (by omega)
    have h2 := mul_nonneg (sub_nonneg.2 ha.2) (h i hi)
    have h3 := mul_nonneg hb.1 (h (i + 1 + d) hj)
    linarith
  · have := mul_nonneg (sub_nonneg.2 hab) (h i hi)
    linarith

theorem pv_linear (f g : ℕ → K) (c : K) (i : ℕ) (a : K) : pv (fun j => f j + c * g j) i a = pv f i a + c * pv g i a := by
  unfold pv; ring

/-- Positions in the order of their times. -/
theorem pos_cases (i j : ℕ) (a b : K) : (i < j ∨ (i = j ∧ a ≤ b)) ∨ (j < i ∨ (j = i ∧ b ≤ a)) := by
  rcases lt_trichotomy i j with h | h | h
  · exact .inl (.inl h)
  · rcases le_total a b with h2 | h2
    · exact .inl (.inr ⟨h, h2⟩)
    · exact .inr (.inr ⟨h.symm, h2⟩)
  · exact .inr (.inl h)

/-- Values at positions whose times differ by `e` differ by at most `L e`. -/
theorem pv_lip (k f : ℕ → K) (n : ℕ) (L : K) (hk : ∀ i, i + 1 < n → 0 ≤ k (i + 1) - k i)
    (h : ∀ i, i + 1 < n → |f (i + 1) - f i| ≤ L * (k (i + 1) - k i)) (i j : ℕ) (a b : K)
    (hi : i + 1 < n) (hj : j + 1 < n) (ha : 0 ≤ a ∧ a ≤ 1) (hb : 0 ≤ b ∧ b ≤ 1) : |pv f j b - pv f i a| ≤ L * |pv k j b - pv k i a| := by
  have key : ∀ (i j : ℕ) (a b : K), i + 1 < n → j + 1 < n → (0 ≤ a ∧ a ≤ 1) → (0 ≤ b ∧ b ≤ 1) → (i < j ∨ (i = j ∧ a ≤ b)) →
      |pv f j b - pv f i a| ≤ L * |pv k j b - pv k i a| := by
    intro i j a b hi hj ha hb hle
    have m0 := pv_mono k n hk i j a b hi hj ha hb hle
    have m1 := pv_mono (fun x => f x + L * k x) n (fun x hx => by
      have := (abs_le.1 (h x hx)).1
      linarith) i j a b hi hj ha hb hle
    have m2 := pv_mono (fun x => (fun y => L * k y) x + (-1) * f x) n (fun x hx => by
      have := (abs_le.1 (h x hx)).2
      simp only
      linarith) i j a b hi hj ha hb hle
    rw [pv_linear, pv_linear] at m1 m2
    have e : ∀ (x : ℕ) (c : K), pv (fun y => L * k y) x c = L * pv k x c := by intro x c; unfold pv; ring
    rw [e, e] at m2
    rw [abs_of_nonneg (sub_nonneg.2 m0), abs_le]
    constructor <;> linarith
  rcases pos_cases i j a b with hc | hc
  · exact key i j a b hi hj ha hb hc
  · rw [abs_sub_comm, abs_sub_comm (pv k j b)]
    exact key j i b a hj hi hb ha hc

theorem pv_near (k k' : ℕ → K) (n : ℕ) (e : K) (h : ∀ i < n, |k' i - k i| ≤ e) (i : ℕ) (a : K) (hi : i + 1 < n) (ha : 0 ≤ a ∧ a ≤ 1) :
    |pv k' i a - pv k i a| ≤ e := by
  have h1 := abs_le.1 (h i (by omega))
  have h2 := abs_le.1 (h (i + 1) hi)
  have e1 : pv k' i a - pv k i a = (1 - a) * (k' i - k i) + a * (k' (i + 1) - k (i + 1)) := by unfold pv; ring
  have p1 := mul_le_mul_of_nonneg_left h1.1 (sub_nonneg.2 ha.2)
  have p2 := mul_le_mul_of_nonneg_left h1.2 (sub_nonneg.2 ha.2)
  have p3 := mul_le_mul_of_nonneg_left h2.1 ha.1
  have p4 := mul_le_mul_of_nonneg_left h2.2 ha.1
  rw [e1, abs_le]
  constructor <;> linarith

/-- An interpolated value is the value at the position of the time, moved to the ends of the table if it is outside. -/
theorem interp_position (find : List K → K → Nat) (hf : FindSpec find) (k f : List K) (hk2 : 2 ≤ k.length) (left right : Option K) (x : K)
    (hord : k.getD 0 0 ≤ k.getD (k.length - 1) 0) (hl : left = none ∨ k.getD 0 0 ≤ x) (hr : right = none ∨ x ≤ k.getD (k.length - 1) 0) :
    ∃ i a, i + 1 < k.length ∧ (0 ≤ a ∧ a ≤ 1) ∧ pv (fun j => k.getD j 0) i a = max (k.getD 0 0) (min x (k.getD (k.length - 1) 0)) ∧
      interp1 find k f left right x = pv (fun j => f.getD j 0) i a := by
  unfold interp1
  by_cases h0 : x < k.getD 0 0
  · rw [if_pos h0]
    have hn : left = none := hl.resolve_right (not_le.2 h0)
    rw [hn]
    refine ⟨0, 0, by omega, ⟨le_refl _, zero_le_one⟩, ?_, by simp [pv]⟩
    rw [max_eq_left ((min_le_left _ _).trans h0.le)]
    simp [pv]
  · rw [if_neg h0]
    have h0' := not_lt.1 h0
    by_cases h1 : k.getD (k.length - 1) 0 < x
    · rw [if_pos h1]
      have hn : right = none := hr.resolve_right (not_le.2 h1)
      rw [hn, min_eq_right h1.le, max_eq_right hord]
      have e : k.length - 2 + 1 = k.length - 1 := by omega
      refine ⟨k.length - 2, 1, by omega, ⟨zero_le_one, le_refl _⟩, ?_, ?_⟩
      · unfold pv; rw [e]; ring
      · unfold pv; rw [e]; simp
    · rw [if_neg h1]
      have h1' := not_lt.1 h1
      obtain ⟨c1, c2, c3⟩ := hf k x (by intro h; rw [h] at hk2; simp at hk2) h0' h1'
      rw [min_eq_left h1', max_eq_right h0']
      simp only
      by_cases hj : find k x + 1 = k.length
      · rw [if_pos hj]
        have e : find k x - 1 + 1 = find k x := by omega
        have e2 : k.length - 1 = find k x := by omega
        rw [e2] at h1'
        refine ⟨find k x - 1, 1, by omega, ⟨zero_le_one, le_refl _⟩, ?_, ?_⟩
        · unfold pv; rw [e]; linarith
        · unfold pv; rw [e]; ring
      · rw [if_neg hj]
        have c3' := c3 (by omega)
        by_cases hx : k.getD (find k x) 0 = x
        · rw [if_pos hx]
          exact ⟨find k x, 0, by omega, ⟨le_refl _, zero_le_one⟩, by simpa [pv] using hx, by simp [pv]⟩
        · rw [if_neg hx]
          have hpos : 0 < k.getD (find k x + 1) 0 - k.getD (find k x) 0 := by linarith
          refine ⟨find k x, (x - k.getD (find k x) 0) / (k.getD (find k x + 1) 0 - k.getD (find k x) 0), by omega,
            ⟨div_nonneg (by linarith) hpos.le, (div_le_one hpos).2 (by linarith)⟩, ?_, ?_⟩
          · unfold pv
            rw [div_mul_cancel₀ _ hpos.ne']
            ring
          · unfold pv
            ring

theorem clamp_near (l h l' h' x e : K) (he : 0 ≤ e) (hl : |l' - l| ≤ e) (hh : |h' - h| ≤ e) :
    |max l' (min x h') - max l (min x h)| ≤ e := by
  obtain ⟨a1, a2⟩ := abs_le.1 hl
  obtain ⟨b1, b2⟩ := abs_le.1 hh
  have m1 : min x h' ≤ min x h + e := by
    rcases min_cases x h with ⟨q, _⟩ | ⟨q, _⟩ <;> rw [q]
    · exact (min_le_left _ _).trans (by linarith)
    · exact (min_le_right _ _).trans (by linarith)
  have m2 : min x h ≤ min x h' + e := by
    rcases min_cases x h' with ⟨q, _⟩ | ⟨q, _⟩ <;> rw [q]
    · exact (min_le_left _ _).trans (by linarith)
    · exact (min_le_right _ _).trans (by linarith)
  rw [abs_le]
  constructor
  · have : max l (min x h) ≤ max l' (min x h') + e :=
      max_le (by have := le_max_left l' (min x h'); linarith) (by have := le_max_right l' (min x h'); linarith)
    linarith
  · have : max l' (min x h') ≤ max l (min x h) + e :=
      max_le (by have := le_max_left l (min x h); linarith) (by have := le_max_right l (min x h); linarith)
    linarith

theorem clamp_point (l h x x' d : K) (hd : 0 ≤ d) (hx : |x' - x| ≤ d) : |max l (min x' h) - max l (min x h)| ≤ d := by
  obtain ⟨a1, a2⟩ := abs_le.1 hx
  have m1 : min x' h ≤ min x h + d := by
    rcases min_cases x h with ⟨q, _⟩ | ⟨q, _⟩ <;> rw [q]
    · exact (min_le_left _ _).trans (by linarith)
    · exact (min_le_right _ _).trans (by linarith)
  have m2 : min x h ≤ min x' h + d := by
    rcases min_cases x' h with ⟨q, _⟩ | ⟨q, _⟩ <;> rw [q]
    · exact (min_le_left _ _).trans (by linarith)
    · exact (min_le_right _ _).trans (by linarith)
  rw [abs_le]
  constructor
  · have : max l (min x h) ≤ max l (min x' h) + d :=
      max_le (by have := le_max_left l (min x' h); linarith) (by have := le_max_right l (min x' h); linarith)
    linarith
  · have : max l (min x' h) ≤ max l (min x h) + d :=
      max_le (by have := le_max_left l (min x h); linarith) (by have := le_max_right l (min x h); linarith)
    linarith

/-- **C222** (one interpolation).  If the steps of the values are at most `L` times those of the times, then times which are off by `e`,
values which are off by `e'` and a point which is off by `d` change the interpolated value by at most `e' + L (2 e + d)`. -/
theorem C222_interp (find : List K → K → Nat) (hfind : FindSpec find) (k f k' f' : List K) (L e e' d : K) (hL : 0 ≤ L) (he : 0 ≤ e)
    (hlen : k.length = f.length) (hk2 : 2 ≤ k.length) (hk : ∀ i, i + 1 < k.length → 0 ≤ k.getD (i + 1) 0 - k.getD i 0)
    (hs : ∀ i, i + 1 < k.length → |f.getD (i + 1) 0 - f.getD i 0| ≤ L * (k.getD (i + 1) 0 - k.getD i 0))
    (hnk : NearTables e k k') (hnf : NearTables e' f f') (hord' : k'.getD 0 0 ≤ k'.getD (k.length - 1) 0) (left right : Option K) (x x' : K)
    (hx : |x' - x| ≤ d)
    (hl : left = none ∨ (k.getD 0 0 ≤ x ∧ k'.getD 0 0 ≤ x')) (hr : right = none ∨ (x ≤ k.getD (k.length - 1) 0 ↔ x' ≤ k'.getD (k.length - 1) 0)) :
    |interp1 find k' f' left right x' - interp1 find k f left right x| ≤ e' + L * (2 * e + d) := by
  have he' : 0 ≤ e' := (abs_nonneg _).trans (hnf.2 0 (by omega))
  have hd : 0 ≤ d := (abs_nonneg _).trans hx
  have hord : k.getD 0 0 ≤ k.getD (k.length - 1) 0 := by
    have := steps_mono (fun i => k.getD i 0) k.length hk 0 (k.length - 1) (by omega)
    simpa using this
  by_cases hout : right ≠ none ∧ k.getD (k.length - 1) 0 < x
  · obtain ⟨y, hy⟩ := Option.ne_none_iff_exists'.1 hout.1
    have h2 : ¬ x' ≤ k'.getD (k.length - 1) 0 := fun h => absurd ((hr.resolve_left hout.1).2 h) (not_le.2 hout.2)
    unfold interp1
    rw [hnk.1, if_neg (not_lt.2 (hord'.trans (not_le.1 h2).le)), if_pos (not_le.1 h2), if_neg (not_lt.2 (hord.trans hout.2.le)),
      if_pos hout.2, hy]
    simp only [Option.getD_some, sub_self, abs_zero]
    positivity
  · have hr1 : right = none ∨ x ≤ k.getD (k.length - 1) 0 := by
      by_cases h : right = none
      · exact .inl h
      · exact .inr (not_lt.1 fun h' => hout ⟨h, h'⟩)
    have hr2 : right = none ∨ x' ≤ k'.getD (k'.length - 1) 0 := by
      rw [hnk.1]
      by_cases h : right = none
      · exact .inl h
      · exact .inr ((hr.resolve_left h).1 (hr1.resolve_left h))
    obtain ⟨i, a, hi, ha, p1, p2⟩ := interp_position find hfind k f hk2 left right x hord (hl.imp id And.left) hr1
    obtain ⟨j, b, hj, hb, q1, q2⟩ := interp_position find hfind k' f' (by rw [hnk.1]; exact hk2) left right x' (by rw [hnk.1]; exact hord')
      (hl.imp id And.right) hr2
    rw [hnk.1] at hj q1
    rw [p2, q2]
    have c1 := pv_near (fun i => f.getD i 0) (fun i => f'.getD i 0) k.length e' (fun i hi => hnf.2 i (by omega)) j b hj hb
    have c2 := pv_lip (fun i => k.getD i 0) (fun i => f.getD i 0) k.length L hk hs i j a b hi hj ha hb
    have c3 := pv_near (fun i => k.getD i 0) (fun i => k'.getD i 0) k.length e (fun i hi => hnk.2 i hi) j b hj hb
    have c4 := clamp_near (k.getD 0 0) (k.getD (k.length - 1) 0) (k'.getD 0 0) (k'.getD (k.length - 1) 0) x e he (hnk.2 0 (by omega))
      (hnk.2 (k.length - 1) (by omega))
    have c4' := clamp_point (k'.getD 0 0) (k'.getD (k.length - 1) 0) x x' d hd hx
    rw [← q1] at c4'
    rw [← p1] at c4
    have c5 : |pv (fun i => k.getD i 0) j b - pv (fun i => k.getD i 0) i a| ≤ 2 * e + d := by
      have g1 := abs_le.1 c3
      have g2 := abs_le.1 c4
      have g3 := abs_le.1 c4'
      rw [abs_le]
      constructor <;> linarith
    have c6 := mul_le_mul_of_nonneg_left c5 hL
    have := abs_sub_le (pv (fun i => f'.getD i 0) j b) (pv (fun i => f.getD i 0) j b) (pv (fun i => f.getD i 0) i a)
    linarith

theorem getD_map_zero (g : K → K) (l : List K) (i : ℕ) (hi : i < l.length) : (l.map g).getD i 0 = g (l.getD i 0) := by
  rw [List.getD_eq_getElem _ _ (by simpa using hi), List.getElem_map, List.getD_eq_getElem _ _ hi]

/-- New times of two samples inside of the table are at least `lo` times their distance apart. -/
theorem stretch_spaced (find : List K → K → Nat) (hfind : FindSpec find) (t0 t1 : List K) (lo hi : K) (hs : Stretch lo hi t0 t1)
    (h2 : 2 ≤ t0.length) (left right : Option K) (x y : K) (hxy : x < y) (hx : t0.getD 0 0 ≤ x) (hy : y ≤ t0.getD (t0.length - 1) 0) :
    lo * (y - x) ≤ interp1 find t0 t1 left right y - interp1 find t0 t1 left right x := by
  have hk : ∀ i, i + 1 < t0.length → 0 ≤ t0.getD (i + 1) 0 - t0.getD i 0 := fun i h => (hs i h).1
  have hord : t0.getD 0 0 ≤ t0.getD (t0.length - 1) 0 := by linarith
  obtain ⟨i, a, hi', ha, p1, p2⟩ := interp_position find hfind t0 t1 h2 left right x hord (.inr hx) (.inr (by linarith))
  obtain ⟨j, b, hj, hb, q1, q2⟩ := interp_position find hfind t0 t1 h2 left right y hord (.inr (by linarith)) (.inr hy)
  rw [min_eq_left (by linarith), max_eq_right hx] at p1
  rw [min_eq_left hy, max_eq_right (by linarith)] at q1
  have hle : i < j ∨ (i = j ∧ a ≤ b) := by
    rcases pos_cases i j a b with h | h
    · exact h
    · have := pv_mono (fun i => t0.getD i 0) t0.length hk j i b a hj hi' hb ha h
      rw [p1, q1] at this
      linarith
  have m := pv_mono (fun i => (fun x => t1.getD x 0) i + (-lo) * (fun x => t0.getD x 0) i) t0.length (fun i h => by
    have := (hs i h).2.1
    simp only
    linarith) i j a b hi' hj ha hb hle
  rw [pv_linear, pv_linear, p1, q1] at m
  rw [p2, q2]
  linarith

variable [FloorRing K]

/-- The times of the samples from number `i0` on, relative to the onset (rf/simple_model.py 180-182). -/
def timesFrom (tr : Trace K) (onset : K) (i0 : ℤ) : List K :=
  (List.range (tr.npts - i0.toNat)).map fun (k : Nat) => tr.start - onset + (i0 : K) * tr.delta + (k : K) * tr.delta

/-- **C222** (trace).  Let the delay times of both tables be off by at most `ε`, the stretching be between `lo` and `hi`, the samples inside of
the tables, and neighbouring samples differ by at most `D`.  Then the samples after move out are off by at most
`2 D (1 + 2 hi) ε / (lo Δt)`, except at times within `(1 + 2 hi) ε` of the new time of the last sample, after which zeros are filled in. -/
theorem C222_moveout (find : List K → K → Nat) (hfind : FindSpec find) (tr : Trace K) (onset : K) (t0 t1 t0' t1' : List K) (lo hi ε D : K)
    (hlo : 0 < lo) (hhi : 0 ≤ hi) (hε : 0 ≤ ε) (hD : 0 ≤ D) (hlen : t0.length = t1.length) (h2 : 2 ≤ t0.length) (hs : Stretch lo hi t0 t1)
    (hn0 : NearTables ε t0 t0') (hn1 : NearTables ε t1 t1') (hord : t0'.getD 0 0 ≤ t0'.getD (t0.length - 1) 0)
    (a b a' b' : K) (ha : getItem t0 (-1) = .ok a) (hb : getItem t1 (-1) = .ok b) (ha' : getItem t0' (-1) = .ok a')
    (hb' : getItem t1' (-1) = .ok b') (hcmp : a > b ↔ a' > b') (i0 : ℤ) (hi0 : i0 = if a > b then index0 tr onset + 1 else index0 tr onset)
    (old : List K) (hold : old = sliceFrom tr.data i0) (hol : old.length = tr.npts - i0.toNat) (ho2 : 2 ≤ old.length) (hδ : 0 < tr.delta)
    (hdiff : ∀ i, i + 1 < old.length → |old.getD (i + 1) 0 - old.getD i 0| ≤ D)
    (hin : ∀ x ∈ timesFrom tr onset i0, t0.getD 0 0 ≤ x ∧ t0'.getD 0 0 ≤ x ∧ x ≤ t0.getD (t0.length - 1) 0)
    (hsmall : 2 * ((1 + 2 * hi) * ε) ≤ lo * tr.delta) :
    ∃ newt data data', moveoutP find tr onset t0 t1 = .ok (sliceTo tr.data i0 ++ data) ∧
      moveoutP find tr onset t0' t1' = .ok (sliceTo tr.data i0 ++ data') ∧
      interpAll find (timesFrom tr onset i0) t0 t1 (some 0) none = .ok newt ∧ newt.length = old.length ∧
      data.length = old.length ∧ data'.length = old.length ∧
      ∀ i < old.length, (1 + 2 * hi) * ε < |(timesFrom tr onset i0).getD i 0 - newt.getD (old.length - 1) 0| →
        |data'.getD i 0 - data.getD i 0| ≤ 2 * D * ((1 + 2 * hi) * ε) / (lo * tr.delta) := by
  set t := timesFrom tr onset i0 with ht
  set η := (1 + 2 * hi) * ε with hη
  have hη0 : 0 ≤ η := by rw [hη]; positivity
  have hc : 0 < lo * tr.delta := mul_pos hlo hδ
  have htl : t.length = old.length := by rw [ht, hol]; simp [timesFrom]
  have htg : ∀ i < old.length, t.getD i 0 = tr.start - onset + (i0 : K) * tr.delta + (i : K) * tr.delta := by
    intro i hi
    rw [List.getD_eq_getElem _ _ (by rw [htl]; exact hi)]
    simp [ht, timesFrom]
  have htm : ∀ i < old.length, t.getD i 0 ∈ t := by
    intro i hi
    rw [List.getD_eq_getElem _ _ (by rw [htl]; exact hi)]
    exact List.getElem_mem _
  have hne : t0 ≠ [] := by intro h; rw [h] at h2; simp at h2
  have hne' : t0' ≠ [] := by intro h; have := hn0.1; rw [h] at this; simp at this; omega
  set k := t.map (interp1 find t0 t1 (some 0) none) with hk
  set k' := t.map (interp1 find t0' t1' (some 0) none) with hk'
  have hkl : k.length = old.length := by rw [hk, List.length_map, htl]
  have hkl' : k'.length = old.length := by rw [hk', List.length_map, htl]
  have hkne : k ≠ [] := by intro h; rw [h] at hkl; simp at hkl; omega
  have hkne' : k' ≠ [] := by intro h; rw [h] at hkl'; simp at hkl'; omega
  -- new times
  have hkk : NearTables η k k' := by
    refine ⟨by omega, fun i hi => ?_⟩
    have hi' : i < t.length := by omega
    rw [hk, hk', getD_map_zero _ _ _ hi', getD_map_zero _ _ _ hi']
    obtain ⟨g1, g2, g3⟩ := hin _ (htm i (by omega))
    have := C222_interp find hfind t0 t1 t0' t1' _ ε ε 0 hhi hε hlen h2 (fun i h => (hs i h).1) (fun i h => by
      obtain ⟨s1, s2, s3⟩ := hs i h
      rw [abs_of_nonneg ((mul_nonneg hlo.le s1).trans s2)]
      exact s3) hn0 hn1 hord (some 0) none (t.getD i 0) (t.getD i 0) (by simp) (.inr ⟨g1, g2⟩) (.inl rfl)
    refine this.trans (le_of_eq ?_)
    rw [hη]; ring
  have hsp : ∀ i, i + 1 < k.length → lo * tr.delta ≤ k.getD (i + 1) 0 - k.getD i 0 := by
    intro i hi
    rw [hk, getD_map_zero _ _ _ (by omega), getD_map_zero _ _ _ (by omega)]
    have e : t.getD (i + 1) 0 - t.getD i 0 = tr.delta := by
      rw [htg _ (by omega), htg _ (by omega)]; push_cast; ring
    have := stretch_spaced find hfind t0 t1 lo _ hs h2 (some 0) none (t.getD i 0) (t.getD (i + 1) 0) (by linarith)
      (hin _ (htm i (by omega))).1 (hin _ (htm (i + 1) (by omega))).2.2
    rwa [e] at this
  have hgap : lo * tr.delta ≤ k.getD (k.length - 1) 0 - k.getD 0 0 := by
    have q1 := hsp 0 (by omega)
    have q2 := steps_mono (fun i => k.getD i 0) k.length (fun i h => hc.le.trans (hsp i h)) 1 (k.length - 2) (by omega)
    have e : 1 + (k.length - 2) = k.length - 1 := by omega
    simp only [e] at q2
    rw [Nat.zero_add] at q1
    linarith
  refine ⟨k, t.map (interp1 find k old none (some 0)), t.map (interp1 find k' old none (some 0)), ?_, ?_, ?_, hkl, by simp [htl],
    by simp [htl], ?_⟩
  · unfold moveoutP
    rw [ha, hb]
    simp only [bind, Except.bind]
    rw [← hi0, ← hold]
    unfold interpAll
    rw [if_neg (not_not.2 hlen), if_neg hne]
    simp only
    rw [show ((List.range (tr.npts - i0.toNat)).map fun (k : Nat) => tr.start - onset + (i0 : K) * tr.delta + (k : K) * tr.delta) = t from rfl,
      ← hk, if_neg (not_not.2 hkl), if_neg hkne]
  · unfold moveoutP
    rw [ha', hb']
    simp only [bind, Except.bind, ← hcmp]
    rw [← hi0, ← hold]
    unfold interpAll
    rw [if_neg (not_not.2 (by rw [hn0.1, hn1.1]; exact hlen)), if_neg hne']
    simp only
    rw [show ((List.range (tr.npts - i0.toNat)).map fun (k : Nat) => tr.start - onset + (i0 : K) * tr.delta + (k : K) * tr.delta) = t from rfl,
      ← hk', if_neg (not_not.2 hkl'), if_neg hkne']
  · unfold interpAll
    rw [if_neg (not_not.2 hlen), if_neg hne]
  intro i hi hfar
  rw [getD_map_zero _ _ _ (by omega), getD_map_zero _ _ _ (by omega)]
  have n0 := abs_le.1 (hkk.2 0 (by omega))
  have n1 := abs_le.1 (hkk.2 (k.length - 1) (by omega))
  rw [← hkl] at hfar
  have := C222_interp find hfind k old k' old (D / (lo * tr.delta)) η 0 0 (by positivity) hη0 hkl (by omega)
    (fun i h => hc.le.trans (hsp i h)) (fun i h => by
      refine (hdiff i (by omega)).trans ?_
      rw [div_mul_eq_mul_div, le_div_iff₀ hc]
      exact mul_le_mul_of_nonneg_left (hsp i h) hD) hkk ⟨rfl, fun i _ => by simp⟩ (by linarith) none (some 0) (t.getD i 0) (t.getD i 0) (by simp) (.inl rfl) (.inr (by
        rcases le_or_gt 0 (t.getD i 0 - k.getD (k.length - 1) 0) with h0 | h0
        · rw [abs_of_nonneg h0] at hfar
          exact ⟨fun _ => by linarith, fun _ => by linarith⟩
        · rw [abs_of_neg h0] at hfar
          exact ⟨fun _ => by linarith, fun _ => by linarith⟩))
  refine this.trans (le_of_eq ?_)
  ring

/-- The tables of C219 in double precision are near the exact tables in the sense of `C222_moveout`. -/
theorem C222_double (ε : ℝ) (t : List (Option ℚ)) (u : List (Option ℝ)) (h : CloseTables ε t u) :
    ∃ (x : List ℚ) (y : List ℝ), t = x.map some ∧ u = y.map some ∧ NearTables ε y (x.map fun (q : ℚ) => (q : ℝ)) := by
  unfold CloseTables at h
  induction h with
  | nil => exact ⟨[], [], rfl, rfl, rfl, fun i hi => by simp at hi⟩
  | cons hd _ ih =>
    obtain ⟨x, y, rfl, rfl, hn, hv⟩ := ih
    obtain ⟨p, q, rfl, rfl, hpq⟩ := hd
    refine ⟨p :: x, q :: y, rfl, rfl, by simpa using hn, fun i hi => ?_⟩
    cases i with
    | zero => simpa using hpq
    | succ i => simpa using hv i (by simpa using hi)

/-- Trace of the example below. -/
def errTrace : Trace ℚ :=
  { net := [], sta := [], loc := [], cha := [], start := 0, sr := 1, data := [9, 0, 1, 3, 2, 0], ext := [] }

-- delay times which are off by 1/100 s: the samples differ by at most 2 * 2 * (3 / 100) / (1 / 2) = 6 / 25
example : ∃ newt data data', moveoutP npFind errTrace 1 [-2, 0, 4, 8] [-2, 0, 3, 5] = .ok ([9, 0] ++ data) ∧
    moveoutP npFind errTrace 1 [-2, 0, 401 / 100, 8] [-2, 0, 299 / 100, 5] = .ok ([9, 0] ++ data') ∧
    interpAll npFind (timesFrom errTrace 1 2) [-2, 0, 4, 8] [-2, 0, 3, 5] (some 0) none = .ok newt ∧ newt.length = 4 ∧
    data.length = 4 ∧ data'.length = 4 ∧
    ∀ i < 4, (1 + 2 * 1) * (1 / 100) < |(timesFrom errTrace 1 2).getD i 0 - newt.getD 3 0| →
      |data'.getD i 0 - data.getD i 0| ≤ 2 * 2 * ((1 + 2 * 1) * (1 / 100)) / (1 / 2 * errTrace.delta) :=
  C222_moveout npFind npFind_spec errTrace 1 [-2, 0, 4, 8] [-2, 0, 3, 5] [-2, 0, 401 / 100, 8] [-2, 0, 299 / 100, 5] (1 / 2) 1 (1 / 100) 2
    (by norm_num) (by norm_num) (by norm_num) (by norm_num) rfl (by decide)
    (by intro i hi
        have : i = 0 ∨ i = 1 ∨ i = 2 := by simp at hi; omega
        rcases this with rfl | rfl | rfl <;> norm_num)
    ⟨rfl, by
        intro i hi
        have : i = 0 ∨ i = 1 ∨ i = 2 ∨ i = 3 := by simp at hi; omega
        rcases this with rfl | rfl | rfl | rfl <;> norm_num⟩
    ⟨rfl, by
        intro i hi
        have : i = 0 ∨ i = 1 ∨ i = 2 ∨ i = 3 := by simp at hi; omega
        rcases this with rfl | rfl | rfl | rfl <;> norm_num⟩
    (by norm_num) 8 5 8 5 rfl rfl rfl rfl (by norm_num) 2 (by decide +kernel) [1, 3, 2, 0] (by decide +kernel) (by decide +kernel)
    (by decide) (by decide +kernel)
    (by intro i hi
        have : i = 0 ∨ i = 1 ∨ i = 2 := by simp at hi; omega
        rcases this with rfl | rfl | rfl <;> decide +kernel)
    (by decide +kernel) (by decide +kernel)

-- the samples of both corrections
example : moveoutP npFind errTrace 1 [-2, 0, 4, 8] [-2, 0, 3, 5] = .ok [9, 0, 5 / 3, 7 / 3, 0, 0] := by decide +kernel

end Verif.Props
