import Verif.Props.Ppoint
import Mathlib.Analysis.SpecialFunctions.Sqrt
import Mathlib.Analysis.Calculus.Deriv.Add
import Mathlib.Analysis.Calculus.Deriv.Mul
import Mathlib.Analysis.Calculus.Deriv.Pow

/-!
# Delay times as functions of the slowness (C155, C156)
-/

set_option linter.unusedSimpArgs false
set_option linter.unusedSectionVars false

namespace Verif.Props
open Verif.Py Verif.Model.Simple Verif.Spec Filter Topology

theorem qSpec_hasDerivAt (v s : ℝ) (h : (s / (1112 / 10)) ^ 2 < 1 / v ^ 2) :
    HasDerivAt (fun x => qSpec Real.sqrt v x) (-(s / (1112 / 10) / qSpec Real.sqrt v s) / (1112 / 10)) s := by
  have h1 : HasDerivAt (fun x : ℝ => 1 / v ^ 2 - (x / (1112 / 10)) ^ 2) (-(2 * (s / (1112 / 10)) * (1 / (1112 / 10)))) s := by
    have h2 : HasDerivAt (fun x : ℝ => x / (1112 / 10)) (1 / (1112 / 10)) s := (hasDerivAt_id s).div_const _
    have h3 := (h2.pow 2).const_sub (1 / v ^ 2)
    simpa using h3
  have h4 := h1.sqrt (sub_pos.2 h).ne'
  have h5 : 0 < Real.sqrt (1 / v ^ 2 - (s / (1112 / 10)) ^ 2) := Real.sqrt_pos.2 (sub_pos.2 h)
  unfold qSpec
  convert h4 using 1
  field_simp

theorem sum_hasDerivAt {ι : Type} (l : List ι) (f : ι → ℝ → ℝ) (f' : ι → ℝ) (s : ℝ)
    (h : ∀ i ∈ l, HasDerivAt (f i) (f' i) s) :
    HasDerivAt (fun x => (l.map fun i => f i x).sum) (l.map f').sum s := by
  induction l with
  | nil => simpa using hasDerivAt_const s (0 : ℝ)
  | cons a l ih =>
    simp only [List.map_cons, List.sum_cons]
    exact (h a List.mem_cons_self).add (ih fun i hi => h i (List.mem_cons_of_mem _ hi))

/-- The rays with neighbouring slownesses propagate as well. -/
theorem propagates_near (layers : List (Layer ℝ)) (s : ℝ) (h : PropagatesStrictly layers s) :
    ∀ᶠ x in 𝓝 s, Propagates layers x := by
  induction layers with
  | nil => exact Eventually.of_forall fun x l hl => by cases hl
  | cons a l ih =>
    have hc : ContinuousAt (fun x : ℝ => (x / (1112 / 10)) ^ 2) s := by fun_prop
    have h1 := hc.eventually (gt_mem_nhds (h a List.mem_cons_self).1)
    have h2 := hc.eventually (gt_mem_nhds (h a List.mem_cons_self).2)
    filter_upwards [h1, h2, ih fun i hi => h i (List.mem_cons_of_mem _ hi)] with x e1 e2 e3 i hi
    rcases List.mem_cons.1 hi with rfl | hi
    · exact ⟨le_of_lt e1, le_of_lt e2⟩
    · exact e3 i hi

/-- C155.  The derivative of the delay time at a depth of the model with respect to the slowness is the sum of the
horizontal distances of the legs of the direct wave minus that of the legs of the phase, as returned by
`ppoint_distance` for this depth. -/
theorem C155_derivative (m : SimpleModel ℝ) (layers : List (Layer ℝ))
    (hvp : m.vp = layers.map Layer.vp) (hvs : m.vs = layers.map Layer.vs)
    (hdz : m.dz = layers.map Layer.dz) (hz : m.z.length = layers.length)
    (hzs : m.z.Pairwise (· ≤ ·)) (s : ℝ) (phase : Str) (hne : phase ≠ [])
    (hletters : ∀ c ∈ upper phase, c = 'P' ∨ c = 'S') (hprop : PropagatesStrictly layers s)
    (i : Nat) (hi : i + 1 < layers.length) (hzi : m.z.getD i 0 < m.z.getD (i + 1) 0) :
    ∃ (T : ℝ → ℝ) (xP xS : ℝ),
      (∀ᶠ x in 𝓝 s, ∃ l, delayTimes Real.sqrt m x phase = .ok l ∧ l[i]? = some (some (T x))) ∧
      ppointDistance Real.sqrt m (m.z.getD i 0) s ['P'] = .ok (some xP) ∧
      ppointDistance Real.sqrt m (m.z.getD i 0) s ['S'] = .ok (some xS) ∧
      HasDerivAt T ((2 * (if (upper phase).head? = some 'P' then xP else xS) -
        ((upper phase).count 'P' * xP + (upper phase).count 'S' * xS)) / (1112 / 10)) s := by
  have hP := C37_value_partial Real.sqrt sqrtStrict_real m layers hvp hvs hdz hz hzs s ['P'] (by decide)
    (by left; decide) hprop (m.z.getD i 0) i hi le_rfl hzi _ rfl
  have hS := C37_value_partial Real.sqrt sqrtStrict_real m layers hvp hvs hdz hz hzs s ['S'] (by decide)
    (by right; decide) hprop (m.z.getD i 0) i hi le_rfl hzi _ rfl
  simp only [sub_self, zero_div, mul_zero, add_zero] at hP hS
  refine ⟨fun x => delaySpec Real.sqrt ((upper phase).count 'P') ((upper phase).count 'S')
    ((upper phase).head? = some 'P') layers x i, _, _, ?_, hP, hS, ?_⟩
  · filter_upwards [propagates_near layers s hprop] with x hx
    exact ⟨_, C28_delay_times Real.sqrt m layers hvp hvs hdz x phase hne hletters hx, by
      simp [show i < layers.length by omega]⟩
  · set a := (upper phase).count 'P' with ha
    set b := (upper phase).count 'S' with hb
    set f := decide ((upper phase).head? = some 'P') with hf
    have hd : ∀ l ∈ layers.take (i + 1), HasDerivAt (fun x =>
        ((a : ℝ) * qSpec Real.sqrt l.vp x + (b : ℝ) * qSpec Real.sqrt l.vs x
          - 2 * (if f = true then qSpec Real.sqrt l.vp x else qSpec Real.sqrt l.vs x)) * l.dz)
        (((a : ℝ) * (-(s / (1112 / 10) / qSpec Real.sqrt l.vp s) / (1112 / 10)) +
          (b : ℝ) * (-(s / (1112 / 10) / qSpec Real.sqrt l.vs s) / (1112 / 10)) -
          2 * (if f = true then -(s / (1112 / 10) / qSpec Real.sqrt l.vp s) / (1112 / 10)
            else -(s / (1112 / 10) / qSpec Real.sqrt l.vs s) / (1112 / 10))) * l.dz) s := by
      intro l hl
      have hl' := hprop l (List.mem_of_mem_take hl)
      have e1 := qSpec_hasDerivAt l.vp s hl'.1
      have e2 := qSpec_hasDerivAt l.vs s hl'.2
      refine HasDerivAt.mul_const (((e1.const_mul (a : ℝ)).add (e2.const_mul (b : ℝ))).sub
        (HasDerivAt.const_mul 2 ?_)) l.dz
      cases f
      · simpa using e2
      · simpa using e1
    have := sum_hasDerivAt _ _ _ s hd
    refine HasDerivAt.congr_deriv this ?_
    have hcP : (upper ['P']).count 'P' = 1 ∧ (upper ['P']).count 'S' = 0 ∧ (upper ['S']).count 'P' = 0 ∧
        (upper ['S']).count 'S' = 1 := by decide
    unfold distSpec
    simp only [hcP.1, hcP.2.1, hcP.2.2.1, hcP.2.2.2, Nat.cast_one, Nat.cast_zero, zero_mul, one_mul, add_zero, zero_add]
    have hite : ∀ u v : ℝ, (if (upper phase).head? = some 'P' then u else v) = if f = true then u else v := by
      intro u v
      rw [hf]
      simp
    rw [hite]
    generalize layers.take (i + 1) = ls
    induction ls with
    | nil => simp
    | cons l ls ih =>
      simp only [List.map_cons, List.sum_cons]
      rw [ih]
      cases f <;> simp <;> ring

/-! ## Monotonicity -/

theorem qSpec_anti (v x y : ℝ) (hx : 0 ≤ x) (hxy : x ≤ y) : qSpec Real.sqrt v y ≤ qSpec Real.sqrt v x := by
  unfold qSpec
  apply Real.sqrt_le_sqrt
  have : (x / (1112 / 10)) ^ 2 ≤ (y / (1112 / 10)) ^ 2 :=
    pow_le_pow_left₀ (by positivity) (div_le_div_of_nonneg_right hxy (by norm_num)) 2
  linarith

theorem sqrt_sub_sqrt_le (a b u v : ℝ) (hab : b ≤ a) (huv : u ≤ v) (hv : v ≤ b) :
    Real.sqrt (a - u) - Real.sqrt (b - u) ≤ Real.sqrt (a - v) - Real.sqrt (b - v) := by
  have h1 := Real.sq_sqrt (show 0 ≤ a - u by linarith)
  have h2 := Real.sq_sqrt (show 0 ≤ b - u by linarith)
  have h3 := Real.sq_sqrt (show 0 ≤ a - v by linarith)
  have h4 := Real.sq_sqrt (show 0 ≤ b - v by linarith)
  have m1 : Real.sqrt (a - v) ≤ Real.sqrt (a - u) := Real.sqrt_le_sqrt (by linarith)
  have m2 : Real.sqrt (b - v) ≤ Real.sqrt (b - u) := Real.sqrt_le_sqrt (by linarith)
  have m3 : Real.sqrt (b - u) ≤ Real.sqrt (a - u) := Real.sqrt_le_sqrt (by linarith)
  have m4 : Real.sqrt (b - v) ≤ Real.sqrt (a - v) := Real.sqrt_le_sqrt (by linarith)
  have n4 := Real.sqrt_nonneg (b - v)
  set A := Real.sqrt (a - u)
  set B := Real.sqrt (b - u)
  set C := Real.sqrt (a - v)
  set D := Real.sqrt (b - v)
  by_contra hcon
  push Not at hcon
  have e : (A - B) * (A + B) = (C - D) * (C + D) := by nlinarith
  have hpos : 0 < A - B := by linarith
  have hsum : C + D ≤ A + B := by linarith
  rcases eq_or_lt_of_le (show 0 ≤ A + B by linarith) with h0 | h0
  · have : A = 0 ∧ B = 0 := ⟨by linarith, by linarith⟩
    linarith
  · have : (C - D) * (C + D) ≤ (C - D) * (A + B) := mul_le_mul_of_nonneg_left hsum (by linarith)
    have : (C - D) * (A + B) < (A - B) * (A + B) := mul_lt_mul_of_pos_right hcon h0
    linarith

theorem qDiff_mono (vp vs x y : ℝ) (hv : 0 < vs) (hvv : vs ≤ vp) (hx : 0 ≤ x) (hxy : x ≤ y)
    (hp : (y / (1112 / 10)) ^ 2 ≤ 1 / vp ^ 2) :
    qSpec Real.sqrt vs x - qSpec Real.sqrt vp x ≤ qSpec Real.sqrt vs y - qSpec Real.sqrt vp y := by
  unfold qSpec
  refine sqrt_sub_sqrt_le _ _ _ _ ?_ ?_ hp
  · exact one_div_le_one_div_of_le (by positivity) (pow_le_pow_left₀ hv.le hvv 2)
  · exact pow_le_pow_left₀ (by positivity) (div_le_div_of_nonneg_right hxy (by norm_num)) 2

theorem propagates_smaller (layers : List (Layer ℝ)) (x y : ℝ) (hx : 0 ≤ x) (hxy : x ≤ y)
    (h : Propagates layers y) : Propagates layers x := fun l hl => by
  have h1 : (x / (1112 / 10)) ^ 2 ≤ (y / (1112 / 10)) ^ 2 :=
    pow_le_pow_left₀ (by positivity) (div_le_div_of_nonneg_right hxy (by norm_num)) 2
  exact ⟨h1.trans (h l hl).1, h1.trans (h l hl).2⟩

theorem sum_le_of_le {ι : Type} (l : List ι) (f g : ι → ℝ) (h : ∀ i ∈ l, f i ≤ g i) : (l.map f).sum ≤ (l.map g).sum := by
  induction l with
  | nil => simp
  | cons a l ih =>
    simp only [List.map_cons, List.sum_cons]
    exact add_le_add (h a List.mem_cons_self) (ih fun i hi => h i (List.mem_cons_of_mem _ hi))

/-- C156.  Conversions (`Ps`) are later for larger slownesses, `Sp` conversions earlier (their delay is negative), and
multiples with at least two P legs, the first of them the direct wave, are earlier. -/
theorem C156_direction (m : SimpleModel ℝ) (layers : List (Layer ℝ))
    (hvp : m.vp = layers.map Layer.vp) (hvs : m.vs = layers.map Layer.vs)
    (hdz : m.dz = layers.map Layer.dz) (hv : ∀ l ∈ layers, 0 < l.vs ∧ l.vs ≤ l.vp ∧ 0 ≤ l.dz)
    (x y : ℝ) (hx : 0 ≤ x) (hxy : x ≤ y) (hprop : Propagates layers y) (phase : Str)
    (hletters : ∀ c ∈ upper phase, c = 'P' ∨ c = 'S') :
    (upper phase = ['P', 'S'] → ∃ t u, delayTimes Real.sqrt m x phase = .ok (t.map some) ∧
      delayTimes Real.sqrt m y phase = .ok (u.map some) ∧ List.Forall₂ (· ≤ ·) t u) ∧
    (upper phase = ['S', 'P'] → ∃ t u, delayTimes Real.sqrt m x phase = .ok (t.map some) ∧
      delayTimes Real.sqrt m y phase = .ok (u.map some) ∧ List.Forall₂ (· ≥ ·) t u) ∧
    ((upper phase).head? = some 'P' → 2 ≤ (upper phase).count 'P' →
      ∃ t u, delayTimes Real.sqrt m x phase = .ok (t.map some) ∧
      delayTimes Real.sqrt m y phase = .ok (u.map some) ∧ List.Forall₂ (· ≥ ·) t u) := by
  have hpx := propagates_smaller layers x y hx hxy hprop
  have key : ∀ R : ℝ → ℝ → Prop, phase ≠ [] → (∀ k, R
      (delaySpec Real.sqrt ((upper phase).count 'P') ((upper phase).count 'S') ((upper phase).head? = some 'P') layers x k)
      (delaySpec Real.sqrt ((upper phase).count 'P') ((upper phase).count 'S') ((upper phase).head? = some 'P') layers y k)) →
      ∃ t u, delayTimes Real.sqrt m x phase = .ok (t.map some) ∧
      delayTimes Real.sqrt m y phase = .ok (u.map some) ∧ List.Forall₂ R t u := by
    intro R hne hR
    refine ⟨(List.range layers.length).map fun k => delaySpec Real.sqrt ((upper phase).count 'P')
      ((upper phase).count 'S') ((upper phase).head? = some 'P') layers x k,
      (List.range layers.length).map fun k => delaySpec Real.sqrt ((upper phase).count 'P')
      ((upper phase).count 'S') ((upper phase).head? = some 'P') layers y k, ?_, ?_, ?_⟩
    · rw [C28_delay_times Real.sqrt m layers hvp hvs hdz x phase hne hletters hpx, List.map_map]; rfl
    · rw [C28_delay_times Real.sqrt m layers hvp hvs hdz y phase hne hletters hprop, List.map_map]; rfl
    · rw [List.forall₂_map_left_iff, List.forall₂_map_right_iff]
      exact List.forall₂_same.2 fun k _ => hR k
  have hup : ∀ u : Str, upper phase = u → u ≠ [] → phase ≠ [] := by
    rintro u rfl h rfl
    exact h rfl
  refine ⟨fun h => key _ (hup _ h (by decide)) fun k => ?_, fun h => key _ (hup _ h (by decide)) fun k => ?_,
    fun h h2 => key _ (by rintro rfl; simp [upper] at h) fun k => ?_⟩
  · rw [h]
    simp only [show ['P', 'S'].count 'P' = 1 by decide, show ['P', 'S'].count 'S' = 1 by decide, List.head?_cons,
      decide_true, delaySpec, if_true]
    refine sum_le_of_le _ _ _ fun l hl => ?_
    obtain ⟨h1, h2, h3⟩ := hv l (List.mem_of_mem_take hl)
    refine mul_le_mul_of_nonneg_right ?_ h3
    have := qDiff_mono l.vp l.vs x y h1 h2 hx hxy (hprop l (List.mem_of_mem_take hl)).1
    simp only [Nat.cast_one]
    linarith
  · have hb : decide ((upper phase).head? = some 'P') = false := by
      rw [decide_eq_false_iff_not, h]
      decide
    rw [hb, h]
    simp only [show ['S', 'P'].count 'P' = 1 by decide, show ['S', 'P'].count 'S' = 1 by decide, List.head?_cons,
      delaySpec]
    refine sum_le_of_le _ _ _ fun l hl => ?_
    obtain ⟨h1, h2, h3⟩ := hv l (List.mem_of_mem_take hl)
    refine mul_le_mul_of_nonneg_right ?_ h3
    have := qDiff_mono l.vp l.vs x y h1 h2 hx hxy (hprop l (List.mem_of_mem_take hl)).1
    simp only [Nat.cast_one, Bool.false_eq_true, if_false]
    linarith
  · rw [h]
    simp only [decide_true, delaySpec, if_true]
    refine sum_le_of_le _ _ _ fun l hl => ?_
    obtain ⟨-, -, h3⟩ := hv l (List.mem_of_mem_take hl)
    refine mul_le_mul_of_nonneg_right ?_ h3
    have e1 := qSpec_anti l.vp x y hx hxy
    have e2 := qSpec_anti l.vs x y hx hxy
    have e3 : (2 : ℝ) ≤ ((upper phase).count 'P' : ℝ) := by exact_mod_cast h2
    have e4 : (0 : ℝ) ≤ ((upper phase).count 'S' : ℝ) := by positivity
    nlinarith [mul_le_mul_of_nonneg_left e1 (sub_nonneg.2 e3), mul_le_mul_of_nonneg_left e2 e4]

/-! ## Cases meeting the hypotheses -/

example : ∃ (T : ℝ → ℝ) (xP xS : ℝ),
    ppointDistance Real.sqrt pyModel 0 pySlow ['P'] = .ok (some xP) ∧
    ppointDistance Real.sqrt pyModel 0 pySlow ['S'] = .ok (some xS) ∧
    HasDerivAt T ((xP - xS) / (1112 / 10)) pySlow ∧
    ∀ᶠ x in 𝓝 pySlow, ∃ l, delayTimes Real.sqrt pyModel x "Ps".toList = .ok l ∧ l[1]? = some (some (T x)) := by
  obtain ⟨T, xP, xS, h1, h2, h3, h4⟩ := C155_derivative pyModel pyLayers rfl rfl rfl rfl (by simp [pyModel]) pySlow
    "Ps".toList (by decide) (by decide) pyLayers_strict 1 (by simp [pyLayers]) (by simp [pyModel])
  refine ⟨T, xP, xS, by simpa [pyModel] using h2, by simpa [pyModel] using h3, ?_, h1⟩
  refine h4.congr_deriv ?_
  rw [if_pos (by decide), show (upper "Ps".toList).count 'P' = 1 by decide, show (upper "Ps".toList).count 'S' = 1 by decide]
  push_cast
  ring

example : ∃ t u, delayTimes Real.sqrt pyModel 0 "Ps".toList = .ok (t.map some) ∧
    delayTimes Real.sqrt pyModel pySlow "Ps".toList = .ok (u.map some) ∧ List.Forall₂ (· ≤ ·) t u :=
  (C156_direction pyModel pyLayers rfl rfl rfl (fun l hl => ⟨(pyLayers_vel l hl).1, (pyLayers_vel l hl).2.1.le,
    (pyLayers_vel l hl).2.2⟩) 0 pySlow le_rfl (by norm_num [pySlow]) pyLayers_prop.1 "Ps".toList (by decide)).1 (by decide)

end Verif.Props
