import Verif.Props.MoveoutStream

/-!
# Piercing points: C37, C38
-/

set_option linter.unusedSimpArgs false
set_option linter.unusedSectionVars false

namespace Verif.Props
open Verif.Py Verif.Model.Simple Verif.Spec

section pp
variable {K : Type} [Field K] [LinearOrder K] [IsStrictOrderedRing K] (sqrt : K → K)

theorem vslow_strict (hs : SqrtStrict sqrt) (v s : K) (h : (s / (1112 / 10)) ^ 2 < 1 / v ^ 2) :
    vslow sqrt v s = some (qSpec sqrt v s) ∧ 0 < qSpec sqrt v s := by
  refine ⟨vslow_some sqrt v s h.le, ?_⟩
  unfold qSpec
  have h0 := (hs 0 (1 / v ^ 2 - (s / (1112 / 10)) ^ 2) le_rfl)
  exact lt_of_le_of_lt h0.1 (h0.2 (sub_pos.2 h))

theorem ppCumsum_some (layers : List (Layer K)) (s : K) (f : Layer K → K)
    (hf : ∀ l ∈ layers, f l ≠ 0) :
    ppCumsum (layers.map Layer.dz) s (layers.map fun l => some (f l))
      = (List.range layers.length).map fun (k : Nat) =>
        some (((layers.take (k + 1)).map fun l => s / (1112 / 10) / f l * l.dz).sum) := by
  unfold ppCumsum
  have : List.zipWith (fun d q => Option.bind q fun q =>
      if q = 0 then none else some (d * s / deg2km / q)) (layers.map Layer.dz)
      (layers.map fun l => some (f l))
      = (layers.map fun l => s / (1112 / 10) / f l * l.dz).map some := by
    induction layers with
    | nil => rfl
    | cons l layers ih =>
      simp only [List.map_cons, List.zipWith_cons_cons, Option.bind_some]
      rw [ih fun l hl => hf l (by simp [hl]), if_neg (hf l (by simp))]
      congr 2
      unfold deg2km; ring
  rw [this, cumsumO_some]
  simp [List.map_take]

/-- The horizontal distances accumulated by the code: entry `k` is the distance through the first
`k + 1` layers. -/
theorem ppX_spec (hs : SqrtStrict sqrt) (m : SimpleModel K) (layers : List (Layer K))
    (hvp : m.vp = layers.map Layer.vp) (hvs : m.vs = layers.map Layer.vs)
    (hdz : m.dz = layers.map Layer.dz) (s : K) (phase : Str)
    (hprop : PropagatesStrictly layers s) :
    ppX sqrt m s phase = (List.range layers.length).map fun (k : Nat) =>
      some (distSpec sqrt ((upper phase).count 'P') ((upper phase).count 'S') layers s (k + 1)) := by
  have part : ∀ (c : Char) (v : Layer K → K), (∀ l ∈ layers, (s / (1112 / 10)) ^ 2 < 1 / v l ^ 2) →
      (if (upper phase).contains c then
        (ppCumsum m.dz s (vertSlow sqrt c (layers.map v) s (upper phase))).map
          (Option.map fun x => x * ((upper phase).count c : K))
      else m.dz.map fun _ => some 0) = (List.range layers.length).map fun (k : Nat) =>
        some (((layers.take (k + 1)).map fun l =>
          ((upper phase).count c : K) * (s / (1112 / 10) / qSpec sqrt (v l) s * l.dz)).sum) := by
    intro c v hv
    split
    · rename_i hc
      have hvert : vertSlow sqrt c (layers.map v) s (upper phase)
          = layers.map fun l => some (qSpec sqrt (v l) s) := by
        unfold vertSlow
        rw [List.map_map]
        apply List.map_congr_left
        intro l hl
        simp only [Function.comp_def, upper_idem, hc, if_true]
        exact (vslow_strict sqrt hs (v l) s (hv l hl)).1
      rw [hvert, hdz, ppCumsum_some layers s (fun l => qSpec sqrt (v l) s)
        (fun l hl => (vslow_strict sqrt hs (v l) s (hv l hl)).2.ne'), List.map_map]
      apply List.map_congr_left
      intro k _
      simp only [Function.comp_def, Option.map_some]
      congr 1
      rw [List.sum_map_mul_left, mul_comm]
    · rename_i hc
      have h0 : (upper phase).count c = 0 := by
        rw [List.count_eq_zero]; simpa using hc
      rw [h0, hdz, List.map_map]
      apply List.ext_getElem
      · simp
      · intro i h1 h2
        simp
  unfold ppX
  simp only
  rw [hvp, hvs, part 'P' Layer.vp fun l hl => (hprop l hl).1,
    part 'S' Layer.vs fun l hl => (hprop l hl).2]
  apply List.ext_getElem
  · simp
  · intro i h1 h2
    simp only [List.getElem_zipWith, List.getElem_map, List.getElem_range, Option.some.injEq]
    unfold distSpec
    rw [← List.sum_map_add]

theorem getItem_nat {α : Type} (l : List α) (i : Nat) (h : i < l.length) :
    getItem l (i : Int) = .ok l[i] := by
  unfold getItem
  simp only [show ¬ ((i : Int) < 0) by omega, if_false]
  rw [if_pos (by omega)]
  simp [h]

/-- Index of the layer that contains the depth, as determined by the code. -/
theorem pp_index (z : List K) (depth : K) (i : Nat) (hi : i + 1 < z.length)
    (hs : z.Pairwise (· ≤ ·)) (h0 : z.getD i 0 ≤ depth) (h1 : depth < z.getD (i + 1) 0) :
    z.findIdx? (fun z => depth < z) = some (i + 1) := by
  rw [List.findIdx?_eq_some_iff_getElem]
  refine ⟨hi, ?_, ?_⟩
  · rw [List.getD_eq_getElem _ _ hi] at h1; simpa using h1
  · intro j hj
    have := (increasing_iff_pairwise z).2 hs j i (by omega) (by omega)
    rw [List.getD_eq_getElem _ _ (by omega)] at this
    simp only [decide_eq_true_eq, not_lt]
    exact this.trans h0

/-- **What the code computes (C37, partial).** For a depth inside of layer `i` the result is
the horizontal distance at the corresponding position inside of layer `i + 1`: the distance through
`i + 1` layers plus the fraction `θ` of the distance in layer `i + 1`.  The correct value would be the
distance through `i` layers plus the fraction `θ` of the distance in layer `i`. -/
theorem C37_value_partial (hs : SqrtStrict sqrt) (m : SimpleModel K) (layers : List (Layer K))
    (hvp : m.vp = layers.map Layer.vp) (hvs : m.vs = layers.map Layer.vs)
    (hdz : m.dz = layers.map Layer.dz) (hz : m.z.length = layers.length)
    (hzs : m.z.Pairwise (· ≤ ·)) (s : K) (phase : Str) (hodd : phase.length % 2 = 1)
    (hletters : 'P' ∈ upper phase ∨ 'S' ∈ upper phase) (hprop : PropagatesStrictly layers s)
    (depth : K) (i : Nat) (hi : i + 1 < layers.length) (h0 : m.z.getD i 0 ≤ depth)
    (h1 : depth < m.z.getD (i + 1) 0)
    (dist : Nat → K)
    (hdist : dist = distSpec sqrt ((upper phase).count 'P') ((upper phase).count 'S') layers s) :
    ppointDistance sqrt m depth s phase = .ok (some (dist (i + 1) + (dist (i + 2) - dist (i + 1)) *
      ((depth - m.z.getD i 0) / (m.z.getD (i + 1) 0 - m.z.getD i 0)))) := by
  have hx := ppX_spec sqrt hs m layers hvp hvs hdz s phase hprop
  unfold ppointDistance
  rw [if_neg (by omega), pp_index m.z depth i (by omega) hzs h0 h1]
  have hlet : ¬¬ ((upper phase).contains 'P' = true ∨ (upper phase).contains 'S' = true) := by
    rw [not_not]; simpa using hletters
  simp only [hlet, if_false, bind, Except.bind, pure, Except.pure]
  have e1 : (((i + 1 : Nat) : Int) - 1) = (i : Int) := by push_cast; ring
  have e2 : (i : Int) + 1 = ((i + 1 : Nat) : Int) := by push_cast; ring
  rw [e1, e2, hx, getItem_nat _ i (by simp; omega), getItem_nat _ (i + 1) (by simp; omega),
    getItem_nat m.z i (by omega), getItem_nat m.z (i + 1) (by omega)]
  simp only [List.getElem_map, List.getElem_range]
  rw [List.getD_eq_getElem _ _ (by omega), List.getD_eq_getElem _ _ (by omega), hdist]
  congr 2
  ring

/-- Every depth between the first and the last tabulated depth lies in a layer. -/
theorem exists_layer (z : List K) (depth : K) (hne : z ≠ []) (h0 : z.getD 0 0 ≤ depth)
    (h1 : depth < z.getD (z.length - 1) 0) :
    ∃ i, i + 1 < z.length ∧ z.getD i 0 ≤ depth ∧ depth < z.getD (i + 1) 0 := by
  by_contra hcon
  have key : ∀ i, i < z.length → z.getD i 0 ≤ depth := by
    intro i
    induction i with
    | zero => intro _; exact h0
    | succ i ih =>
      intro hi
      by_contra hc
      exact hcon ⟨i, hi, ih (by omega), not_le.1 hc⟩
  have hpos : 0 < z.length := List.length_pos_iff.2 hne
  exact absurd (key (z.length - 1) (by omega)) (not_le.2 h1)

/-- **C37, consequence.** In a homogeneous model with layers of thickness `d` the result is the
distance at depth `depth + d` instead of `depth`. -/
theorem C37_homogeneous_partial (hs : SqrtStrict sqrt) (vp vs d : K) (n : Nat) (hd : 0 < d) (s : K)
    (hprop : PropagatesStrictly [⟨vp, vs, d⟩] s) (depth : K) (h0 : 0 ≤ depth)
    (h1 : depth < (n : K) * d) :
    ppointDistance sqrt ⟨(List.range (n + 1)).map fun (k : Nat) => (k : K) * d,
        List.replicate (n + 1) d, List.replicate (n + 1) vp, List.replicate (n + 1) vs, []⟩
      depth s ['S'] = .ok (some (s / (1112 / 10) / qSpec sqrt vs s * (depth + d))) := by
  set z : List K := (List.range (n + 1)).map fun (k : Nat) => (k : K) * d with hz
  have hzl : z.length = n + 1 := by simp [hz]
  have hzget : ∀ k, k < n + 1 → z.getD k 0 = (k : K) * d := fun k hk => getD_map_range _ hk
  have hzs : z.Pairwise (· ≤ ·) := by
    rw [← increasing_iff_pairwise]
    intro i j hij hj
    rw [hzget i (by omega), hzget j (by omega)]
    exact mul_le_mul_of_nonneg_right (by exact_mod_cast hij) hd.le
  obtain ⟨i, hi, hi0, hi1⟩ := exists_layer z depth (by intro h; simp [h] at hzl)
    (by rw [hzget 0 (by omega)]; simpa using h0)
    (by rw [hzl, hzget _ (by omega)]; simpa using h1)
  set layers : List (Layer K) := List.replicate (n + 1) ⟨vp, vs, d⟩ with hl
  have hpr : PropagatesStrictly layers s := by
    intro l hm
    have := List.eq_of_mem_replicate hm
    subst this
    exact hprop _ (by simp)
  have hdist : ∀ k, k ≤ n + 1 → distSpec sqrt 0 1 layers s k
      = (k : K) * (s / (1112 / 10) / qSpec sqrt vs s * d) := by
    intro k hk
    unfold distSpec
    rw [hl, List.take_replicate, min_eq_left hk]
    simp
  have := C37_value_partial sqrt hs
    ⟨z, List.replicate (n + 1) d, List.replicate (n + 1) vp, List.replicate (n + 1) vs, []⟩ layers
    (by simp [hl]) (by simp [hl]) (by simp [hl]) (by simp [hl, hzl]) hzs s ['S'] (by decide)
    (by right; decide) hpr depth i (by simp [hl]; omega) hi0 hi1 _ rfl
  rw [this]
  simp only [show (upper ['S']).count 'P' = 0 by decide, show (upper ['S']).count 'S' = 1 by decide]
  rw [hdist _ (by omega), hdist _ (by omega), hzget i (by omega), hzget (i + 1) (by omega)]
  congr 2
  push_cast
  field_simp
  ring

/-- The code distances are non-negative and increasing with the number of layers. -/
theorem distSpec_mono (hs : SqrtStrict sqrt) (nP nS : Nat) (layers : List (Layer K)) (s : K)
    (hs0 : 0 ≤ s) (hprop : PropagatesStrictly layers s) (hdz : ∀ l ∈ layers, 0 ≤ l.dz) (i j : Nat)
    (hij : i ≤ j) : 0 ≤ distSpec sqrt nP nS layers s i ∧
      distSpec sqrt nP nS layers s i ≤ distSpec sqrt nP nS layers s j := by
  have hterm : ∀ l ∈ layers, 0 ≤ (nP : K) * (s / (1112 / 10) / qSpec sqrt l.vp s * l.dz)
      + (nS : K) * (s / (1112 / 10) / qSpec sqrt l.vs s * l.dz) := by
    intro l hl
    have h1 := (vslow_strict sqrt hs l.vp s (hprop l hl).1).2
    have h2 := (vslow_strict sqrt hs l.vs s (hprop l hl).2).2
    have h3 := hdz l hl
    positivity
  constructor
  · unfold distSpec
    apply List.sum_nonneg
    intro x hx
    obtain ⟨l, hl, rfl⟩ := List.mem_map.1 hx
    exact hterm l (List.mem_of_mem_take hl)
  · by_contra hcon
    unfold distSpec at hcon
    obtain ⟨l, hl, -⟩ := (sum_take_lt_iff layers _ hterm j i).1 (not_le.1 hcon)
    rw [List.drop_eq_nil_of_le (by simp; omega)] at hl
    simp at hl

/-- **C38, monotone.** Non-negative and non-decreasing with depth. -/
theorem C38_monotone (hs : SqrtStrict sqrt) (m : SimpleModel K) (layers : List (Layer K))
    (hvp : m.vp = layers.map Layer.vp) (hvs : m.vs = layers.map Layer.vs)
    (hdz : m.dz = layers.map Layer.dz) (hz : m.z.length = layers.length)
    (hzs : m.z.Pairwise (· ≤ ·)) (s : K) (hs0 : 0 ≤ s) (phase : Str) (hodd : phase.length % 2 = 1)
    (hletters : 'P' ∈ upper phase ∨ 'S' ∈ upper phase) (hprop : PropagatesStrictly layers s)
    (hdz0 : ∀ l ∈ layers, 0 ≤ l.dz)
    (d1 d2 : K) (h0 : m.z.getD 0 0 ≤ d1) (h12 : d1 ≤ d2) (h1 : d2 < m.z.getD (m.z.length - 1) 0) :
    ∃ x1 x2, ppointDistance sqrt m d1 s phase = .ok (some x1) ∧
      ppointDistance sqrt m d2 s phase = .ok (some x2) ∧ 0 ≤ x1 ∧ x1 ≤ x2 := by
  have hne : m.z ≠ [] := by
    intro h
    rw [h] at h0 h1
    simp only [List.getD_nil] at h0 h1
    linarith
  obtain ⟨i, hi, hi0, hi1⟩ := exists_layer m.z d1 hne h0 (lt_of_le_of_lt h12 h1)
  obtain ⟨j, hj, hj0, hj1⟩ := exists_layer m.z d2 hne (h0.trans h12) h1
  have inc := (increasing_iff_pairwise m.z).2 hzs
  have hmono := distSpec_mono sqrt hs ((upper phase).count 'P') ((upper phase).count 'S') layers s hs0
    hprop hdz0
  refine ⟨_, _, C37_value_partial sqrt hs m layers hvp hvs hdz hz hzs s phase hodd hletters hprop d1 i
    (by omega) hi0 hi1 _ rfl, C37_value_partial sqrt hs m layers hvp hvs hdz hz hzs s phase hodd
    hletters hprop d2 j (by omega) hj0 hj1 _ rfl, ?_, ?_⟩
  · have e1 := (hmono (i + 1) (i + 2) (by omega))
    have hθ : 0 ≤ (d1 - m.z.getD i 0) / (m.z.getD (i + 1) 0 - m.z.getD i 0) :=
      div_nonneg (by linarith) (by linarith)
    have := mul_nonneg (sub_nonneg.2 e1.2) hθ
    linarith [e1.1]
  · have hij : i ≤ j := by
      by_contra hcon
      have := inc (j + 1) i (by omega) (by omega)
      linarith
    have hzi : 0 < m.z.getD (i + 1) 0 - m.z.getD i 0 := by linarith
    have hzj : 0 < m.z.getD (j + 1) 0 - m.z.getD j 0 := by linarith
    rcases Nat.lt_or_eq_of_le hij with hlt | rfl
    · have e1 := (hmono (i + 1) (i + 2) (by omega)).2
      have e2 := (hmono (i + 2) (j + 1) (by omega)).2
      have e3 := (hmono (j + 1) (j + 2) (by omega)).2
      have hθ : (d1 - m.z.getD i 0) / (m.z.getD (i + 1) 0 - m.z.getD i 0) ≤ 1 := by
        rw [div_le_one hzi]; linarith
      have hθ' : 0 ≤ (d2 - m.z.getD j 0) / (m.z.getD (j + 1) 0 - m.z.getD j 0) :=
        div_nonneg (by linarith) hzj.le
      have a1 := mul_le_mul_of_nonneg_left hθ (sub_nonneg.2 e1)
      have a2 := mul_nonneg (sub_nonneg.2 e3) hθ'
      linarith
    · have e1 := (hmono (i + 1) (i + 2) (by omega)).2
      have : (d1 - m.z.getD i 0) / (m.z.getD (i + 1) 0 - m.z.getD i 0)
          ≤ (d2 - m.z.getD i 0) / (m.z.getD (i + 1) 0 - m.z.getD i 0) :=
        div_le_div_of_nonneg_right (by linarith) hzi.le
      have := mul_le_mul_of_nonneg_left this (sub_nonneg.2 e1)
      linarith

/-- **C38, errors.** An even phase length is rejected; a depth not smaller than all tabulated depths
raises `IndexError`. -/
theorem C38_errors (m : SimpleModel K) (depth s : K) (phase : Str) :
    (phase.length % 2 = 0 → ppointDistance sqrt m depth s phase = .error .valueError) ∧
    (phase.length % 2 = 1 → (∀ z ∈ m.z, z ≤ depth) →
      ppointDistance sqrt m depth s phase = .error .indexError) := by
  constructor
  · intro h; unfold ppointDistance; rw [if_pos h]
  · intro h hz
    unfold ppointDistance
    rw [if_neg (by omega)]
    have : m.z.findIdx? (fun z => depth < z) = none := by
      rw [List.findIdx?_eq_none_iff]
      intro z hm
      simpa using hz z hm
    rw [this]

end pp

theorem pyLayers_strict : PropagatesStrictly pyLayers pySlow := by
  intro l hl
  simp only [pyLayers, List.mem_cons, List.not_mem_nil, or_false] at hl
  rcases hl with rfl | rfl | rfl <;> norm_num [pySlow]

/-- **C37 is false of the code**: the distance between station and piercing point at depth 0 is
58.5 km for a model with layers of 78 km (starting with an empty layer like iasp91). -/
theorem C37_counterexample :
    ppointDistance Real.sqrt pyModel 0 pySlow ['S'] = .ok (some (117 / 2)) := by
  rw [C37_value_partial Real.sqrt sqrtStrict_real pyModel pyLayers rfl rfl rfl rfl
    (by simp [pyModel]) pySlow ['S'] (by decide) (by right; decide) pyLayers_strict 0 1
    (by simp [pyLayers]) (by simp [pyModel]) (by simp [pyModel]) _ rfl]
  obtain ⟨q1, q2, -, -⟩ := py_q
  simp only [show (upper ['S']).count 'P' = 0 by decide, show (upper ['S']).count 'S' = 1 by decide]
  simp [distSpec, pyLayers, q1, q2, pyModel]
  norm_num [pySlow]

/-- C38 applies: depths of 1 and 70 km. -/
example : ∃ x1 x2, ppointDistance Real.sqrt pyModel 1 pySlow ['S'] = .ok (some x1) ∧
    ppointDistance Real.sqrt pyModel 70 pySlow ['S'] = .ok (some x2) ∧ 0 ≤ x1 ∧ x1 ≤ x2 :=
  C38_monotone Real.sqrt sqrtStrict_real pyModel pyLayers rfl rfl rfl rfl (by simp [pyModel])
    pySlow (by norm_num [pySlow]) ['S'] (by decide) (by right; decide) pyLayers_strict
    (fun l hl => (pyLayers_vel l hl).2.2) 1 70 (by simp [pyModel]) (by norm_num)
    (by norm_num [pyModel])

end Verif.Props
