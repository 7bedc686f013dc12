import Verif.Props.Delay
import Mathlib.Analysis.Real.Sqrt

/-!
# C217: delay times of all phases, the direction in which they run with depth
-/

set_option linter.unusedSimpArgs false
set_option linter.unusedSectionVars false

namespace Verif.Props
open Verif.Py Verif.Model Verif.Model.Simple Verif.Spec

/-- Partial sums run upwards if and only if no summand is negative. -/
theorem sums_sorted (a : List ℝ) :
    ((List.range (a.length + 1)).map fun k => (a.take k).sum).Pairwise (· ≤ ·) ↔ ∀ x ∈ a, 0 ≤ x := by
  rw [List.pairwise_map]
  constructor
  · intro h x hx
    obtain ⟨k, hk, rfl⟩ := List.mem_iff_getElem.1 hx
    rw [List.pairwise_iff_getElem] at h
    have := h k (k + 1) (by simp; omega) (by simp; omega) (by omega)
    simp only [List.getElem_range] at this
    rw [List.take_add_one, List.sum_append, List.getElem?_eq_getElem hk] at this
    simpa using this
  · intro h
    refine List.Pairwise.imp (fun {i j} hij => ?_) List.pairwise_lt_range
    have : a.take j = a.take i ++ (a.take j).drop i := by
      conv_lhs => rw [← List.take_append_drop i (a.take j)]
      rw [List.take_take, min_eq_left (by omega)]
    rw [this, List.sum_append]
    apply le_add_of_nonneg_right
    apply List.sum_nonneg
    intro x hx
    exact h x (List.mem_of_mem_take (List.mem_of_mem_drop hx))

/-- Delay times of a phase run upwards from 0 if and only if no layer contributes a negative time. -/
theorem delays_sorted (m : SimpleModel ℝ) (layers : List (Layer ℝ)) (hvp : m.vp = layers.map Layer.vp) (hvs : m.vs = layers.map Layer.vs)
    (hdz : m.dz = layers.map Layer.dz) (s : ℝ) (phase : Str) (hne : phase ≠ []) (hletters : ∀ c ∈ upper phase, c = 'P' ∨ c = 'S')
    (hprop : Propagates layers s) :
    ∃ t : List ℝ, delayTimes Real.sqrt m s phase = .ok (t.map some) ∧ t.length = layers.length ∧
      ((0 :: t).Pairwise (· ≤ ·) ↔ ∀ l ∈ layers, 0 ≤ (((upper phase).count 'P' : ℝ) * qSpec Real.sqrt l.vp s
        + ((upper phase).count 'S' : ℝ) * qSpec Real.sqrt l.vs s
        - 2 * (if (decide ((upper phase).head? = some 'P')) = true then qSpec Real.sqrt l.vp s else qSpec Real.sqrt l.vs s)) * l.dz) := by
  rw [C28_delay_times Real.sqrt m layers hvp hvs hdz s phase hne hletters hprop]
  refine ⟨(List.range layers.length).map fun k => delaySpec Real.sqrt ((upper phase).count 'P') ((upper phase).count 'S')
    ((upper phase).head? = some 'P') layers s k, by simp [List.map_map, Function.comp_def], by simp, ?_⟩
  have := sums_sorted (layers.map fun l => (((upper phase).count 'P' : ℝ) * qSpec Real.sqrt l.vp s
        + ((upper phase).count 'S' : ℝ) * qSpec Real.sqrt l.vs s
        - 2 * (if (decide ((upper phase).head? = some 'P')) = true then qSpec Real.sqrt l.vp s else qSpec Real.sqrt l.vs s)) * l.dz)
  rw [List.length_map, List.range_succ_eq_map, List.map_cons, List.map_map] at this
  simp only [List.forall_mem_map] at this
  rw [← this]
  have e : ∀ l : List ℝ, ((l.take 0).sum : ℝ) = 0 := by simp
  rw [e]
  have : ∀ k, delaySpec Real.sqrt ((upper phase).count 'P') ((upper phase).count 'S') ((upper phase).head? = some 'P') layers s k =
      ((fun k => ((layers.map fun l => (((upper phase).count 'P' : ℝ) * qSpec Real.sqrt l.vp s
        + ((upper phase).count 'S' : ℝ) * qSpec Real.sqrt l.vs s
        - 2 * (if (decide ((upper phase).head? = some 'P')) = true then qSpec Real.sqrt l.vp s else qSpec Real.sqrt l.vs s)) * l.dz).take k).sum) ∘
          Nat.succ) k := by
    intro k
    unfold delaySpec
    rw [Function.comp, ← List.map_take]
  simp only [this]

theorem qSpec_nonneg (v s : ℝ) : 0 ≤ qSpec Real.sqrt v s := Real.sqrt_nonneg _

/-- **C217** (several S legs).  Delay times of phases which start with S and have at least two S legs run upwards from 0. -/
theorem C217_many (m : SimpleModel ℝ) (layers : List (Layer ℝ)) (hvp : m.vp = layers.map Layer.vp) (hvs : m.vs = layers.map Layer.vs)
    (hdz : m.dz = layers.map Layer.dz) (s : ℝ) (phase : Str) (hletters : ∀ c ∈ upper phase, c = 'P' ∨ c = 'S')
    (hfirst : (upper phase).head? = some 'S') (hS : 2 ≤ (upper phase).count 'S') (hprop : Propagates layers s) (hz : ∀ l ∈ layers, 0 ≤ l.dz) :
    ∃ t : List ℝ, delayTimes Real.sqrt m s phase = .ok (t.map some) ∧ t.length = layers.length ∧ (0 :: t).Pairwise (· ≤ ·) := by
  obtain ⟨t, h1, h2, h3⟩ := delays_sorted m layers hvp hvs hdz s phase (by rintro rfl; simp [upper] at hfirst) hletters hprop
  refine ⟨t, h1, h2, h3.2 fun l hl => mul_nonneg ?_ (hz l hl)⟩
  rw [hfirst]
  have hS' : (2 : ℝ) ≤ ((upper phase).count 'S' : ℝ) := by exact_mod_cast hS
  have a := qSpec_nonneg l.vp s
  have b := qSpec_nonneg l.vs s
  have c := mul_le_mul_of_nonneg_right hS' b
  have d : 0 ≤ ((upper phase).count 'P' : ℝ) * qSpec Real.sqrt l.vp s := mul_nonneg (Nat.cast_nonneg _) a
  simp only [Option.some.injEq, show ('S' : Char) ≠ 'P' by decide, decide_false, Bool.false_eq_true, if_false]
  linarith

/-- **C217** (one S leg).  Delay times of phases with one S leg, at the start, and `n` P legs run upwards from 0 exactly if in each layer the
vertical slowness of S is at most `n` times the one of P. -/
theorem C217_one_partial (m : SimpleModel ℝ) (layers : List (Layer ℝ)) (hvp : m.vp = layers.map Layer.vp) (hvs : m.vs = layers.map Layer.vs)
    (hdz : m.dz = layers.map Layer.dz) (s : ℝ) (phase : Str) (hletters : ∀ c ∈ upper phase, c = 'P' ∨ c = 'S')
    (hfirst : (upper phase).head? = some 'S') (hS : (upper phase).count 'S' = 1) (hprop : Propagates layers s) (hz : ∀ l ∈ layers, 0 < l.dz) :
    ∃ t : List ℝ, delayTimes Real.sqrt m s phase = .ok (t.map some) ∧ t.length = layers.length ∧
      ((0 :: t).Pairwise (· ≤ ·) ↔ ∀ l ∈ layers, 1 / l.vs ^ 2 - (s / (1112 / 10)) ^ 2 ≤
        ((upper phase).count 'P' : ℝ) ^ 2 * (1 / l.vp ^ 2 - (s / (1112 / 10)) ^ 2)) := by
  obtain ⟨t, h1, h2, h3⟩ := delays_sorted m layers hvp hvs hdz s phase (by rintro rfl; simp [upper] at hfirst) hletters hprop
  refine ⟨t, h1, h2, h3.trans (forall₂_congr fun l hl => ?_)⟩
  rw [hfirst, hS]
  simp only [Option.some.injEq, show ('S' : Char) ≠ 'P' by decide, decide_false, Bool.false_eq_true, if_false]
  rw [mul_nonneg_iff_of_pos_right (hz l hl)]
  have hp : 0 ≤ 1 / l.vp ^ 2 - (s / (1112 / 10)) ^ 2 := sub_nonneg.2 (hprop l hl).1
  have hn : (0 : ℝ) ≤ ((upper phase).count 'P' : ℝ) := Nat.cast_nonneg _
  have e : ((upper phase).count 'P' : ℝ) * qSpec Real.sqrt l.vp s =
      Real.sqrt (((upper phase).count 'P' : ℝ) ^ 2 * (1 / l.vp ^ 2 - (s / (1112 / 10)) ^ 2)) := by
    unfold qSpec
    rw [Real.sqrt_mul (by positivity), Real.sqrt_sq hn]
  rw [e]
  have e2 : ∀ a b : ℝ, (0 ≤ a + ((1 : ℕ) : ℝ) * b - 2 * b) ↔ b ≤ a := by
    intro a b
    push_cast
    constructor <;> intro h <;> linarith
  rw [e2]
  unfold qSpec
  rw [Real.sqrt_le_sqrt_iff (mul_nonneg (by positivity) hp)]

/-- Two layers with P velocities of 5 and 7.69 km/s and an S velocity of 2.7 km/s. -/
noncomputable def twoLayers : List (Layer ℝ) := [⟨5, 100 / 37, 10⟩, ⟨100 / 13, 100 / 37, 5⟩]

/-- **C217, negation.**  Delay times of Sppp of a ray with 13.344 s/deg first grow to 1.3 s, then fall to 0.3 s. -/
theorem C217_counterexample : let m : SimpleModel ℝ := ⟨[0, 10], [10, 5], [5, 100 / 13], [100 / 37, 100 / 37], []⟩
    Propagates twoLayers (13344 / 1000) ∧ (∀ l ∈ twoLayers, 0 < l.vs ∧ l.vs ≤ l.vp ∧ 0 < l.dz) ∧
    delayTimes Real.sqrt m (13344 / 1000) "Sppp".toList = .ok [some (13 / 10), some (3 / 10)] := by
  have q : ∀ v c : ℝ, 0 ≤ c → 1 / v ^ 2 - (13344 / 1000 / (1112 / 10)) ^ 2 = c ^ 2 → qSpec Real.sqrt v (13344 / 1000) = c := by
    intro v c hc h
    unfold qSpec
    rw [h, Real.sqrt_sq hc]
  have q1 := q 5 (16 / 100) (by norm_num) (by norm_num)
  have q2 := q (100 / 37) (35 / 100) (by norm_num) (by norm_num)
  have q3 := q (100 / 13) (5 / 100) (by norm_num) (by norm_num)
  have hp : Propagates twoLayers (13344 / 1000) := by
    intro l hl
    simp only [twoLayers, List.mem_cons, List.not_mem_nil, or_false] at hl
    rcases hl with rfl | rfl <;> constructor <;> norm_num
  refine ⟨hp, ?_, ?_⟩
  · intro l hl
    simp only [twoLayers, List.mem_cons, List.not_mem_nil, or_false] at hl
    rcases hl with rfl | rfl <;> norm_num
  · rw [C28_delay_times Real.sqrt _ twoLayers rfl rfl rfl _ _ (by decide) (by decide) hp]
    have u : upper "Sppp".toList = "SPPP".toList := by decide
    rw [u]
    have c1 : "SPPP".toList.count 'P' = 3 := by decide
    have c2 : "SPPP".toList.count 'S' = 1 := by decide
    have c3 : (decide ("SPPP".toList.head? = some 'P')) = false := by decide
    rw [c1, c2, c3]
    simp only [twoLayers, List.length_cons, List.length_nil, List.range_succ, List.range_zero, List.nil_append, List.map_append, List.map_cons, List.map_nil,
      delaySpec, List.take_succ_cons, List.take_zero, List.sum_cons, List.sum_nil, q1, q2, q3, List.cons_append, Bool.false_eq_true, if_false]
    norm_num

/-! ## Cases -/

/-- With a smaller slowness the condition of `C217_one_partial` holds for the same layers. -/
example : ∃ t : List ℝ, delayTimes Real.sqrt ⟨[0, 10], [10, 5], [5, 100 / 13], [100 / 37, 100 / 37], []⟩ (2 : ℝ) "Sppp".toList = .ok (t.map some) ∧
    t.length = 2 ∧ (0 :: t).Pairwise (· ≤ ·) := by
  have hp : Propagates twoLayers 2 := by
    intro l hl
    simp only [twoLayers, List.mem_cons, List.not_mem_nil, or_false] at hl
    rcases hl with rfl | rfl <;> constructor <;> norm_num
  obtain ⟨t, h1, h2, h3⟩ := C217_one_partial ⟨[0, 10], [10, 5], [5, 100 / 13], [100 / 37, 100 / 37], []⟩ twoLayers rfl rfl rfl 2 "Sppp".toList
    (by decide) (by decide) (by decide) hp (by
      intro l hl
      simp only [twoLayers, List.mem_cons, List.not_mem_nil, or_false] at hl
      rcases hl with rfl | rfl <;> norm_num)
  refine ⟨t, h1, h2, h3.2 fun l hl => ?_⟩
  have u : (upper "Sppp".toList).count 'P' = 3 := by decide
  rw [u]
  simp only [twoLayers, List.mem_cons, List.not_mem_nil, or_false] at hl
  rcases hl with rfl | rfl <;> norm_num

end Verif.Props
