import Verif.Props.VelocityError
import Verif.Props.Ppoint

/-!
# C225: small errors of velocities and slowness change the distances of piercing points little
-/

set_option linter.unusedSimpArgs false
set_option linter.unusedSectionVars false

namespace Verif.Spec

/-- Bound of the errors of horizontal distances on the way through layers of together `z` km: relative errors `δ` of velocities of at most `V`
and an error of the slowness. -/
noncomputable def distanceBound (ph : List Char) (δ V c s s' z : ℝ) : ℝ :=
  (ph.count 'P' + ph.count 'S' : ℝ) * ((δ + 2 * V * (|s' - s| / (1112 / 10))) / c ^ 3) * z

end Verif.Spec

namespace Verif.Props
open Verif.Py Verif.Model Verif.Model.Simple Verif.Spec

theorem qSpec_low (c s v : ℝ) (hv : 0 < v) (h : (s / (1112 / 10)) ^ 2 ≤ (1 - c ^ 2) * (1 / v ^ 2)) :
    c / v ≤ qSpec Real.sqrt v s ∧ |s / (1112 / 10)| ≤ 1 / v := by
  unfold qSpec
  have eu : 1 / v ^ 2 = (1 / v) ^ 2 := by rw [one_div_pow]
  have hu : 0 < 1 / v := by positivity
  have e : c / v = c * (1 / v) := by ring
  rw [eu] at h ⊢
  rw [e]
  generalize 1 / v = u at *
  generalize s / (1112 / 10) = p at *
  have h1 : (c * u) ^ 2 ≤ u ^ 2 - p ^ 2 := by nlinarith
  refine ⟨Real.le_sqrt_of_sq_le h1, ?_⟩
  have := sq_nonneg (c * u)
  exact abs_le_of_sq_le_sq (by linarith) hu.le

/-- Tangents of the angles of incidence of two rays in two layers. -/
theorem tan_near (δ V c s s' v v' : ℝ) (hc : 0 < c) (hc1 : c ≤ 1) (hv : 0 < v) (hv' : 0 < v') (hV : v' ≤ V) (hδ : |v' - v| ≤ δ * v)
    (h : (s / (1112 / 10)) ^ 2 ≤ (1 - c ^ 2) * (1 / v ^ 2)) (h' : (s' / (1112 / 10)) ^ 2 ≤ (1 - c ^ 2) * (1 / v' ^ 2)) :
    |s' / (1112 / 10) / qSpec Real.sqrt v' s' - s / (1112 / 10) / qSpec Real.sqrt v s| ≤ (δ + 2 * V * (|s' - s| / (1112 / 10))) / c ^ 3 := by
  have hq := qSpec_near c s s' v v' hc hv hv' h h'
  obtain ⟨a1, a2⟩ := qSpec_low c s v hv h
  obtain ⟨b1, _⟩ := qSpec_low c s' v' hv' h'
  have ep : s' / (1112 / 10) - s / (1112 / 10) = (s' - s) / (1112 / 10) := by ring
  have eabs : |s' / (1112 / 10) - s / (1112 / 10)| = |s' - s| / (1112 / 10) := by
    rw [ep, abs_div, abs_of_pos (by norm_num : (0 : ℝ) < 1112 / 10)]
  rw [← eabs] at hq ⊢
  generalize s / (1112 / 10) = p at *
  generalize s' / (1112 / 10) = p' at *
  generalize qSpec Real.sqrt v s = q at *
  generalize qSpec Real.sqrt v' s' = q' at *
  have hq0 : 0 < q := lt_of_lt_of_le (by positivity) a1
  have hq0' : 0 < q' := lt_of_lt_of_le (by positivity) b1
  have hu : |1 / v' - 1 / v| * v' ≤ δ := by
    have e : (1 / v' - 1 / v) * v' = -(v' - v) / v := by field_simp; ring
    rw [← abs_of_pos hv', ← abs_mul, abs_of_pos hv', e, abs_div, abs_neg, abs_of_pos hv, div_le_iff₀ hv]
    exact hδ
  have i' : 1 / q' ≤ v' / c := by
    rw [div_le_div_iff₀ hq0' hc, one_mul]
    rw [div_le_iff₀ hv'] at b1
    linarith
  have ip : |p| / q ≤ 1 / c := by
    rw [div_le_div_iff₀ hq0 hc, one_mul]
    rw [div_le_iff₀ hv] at a1
    rw [le_div_iff₀ hv] at a2
    have := mul_le_mul_of_nonneg_left a1 (abs_nonneg p)
    have h3 : |p| * v * q ≤ 1 * q := mul_le_mul_of_nonneg_right a2 hq0.le
    linarith
  have e : p' / q' - p / q = (p' - p) * (1 / q') + -(p / q) * ((q' - q) * (1 / q')) := by field_simp; ring
  have t1 : |(p' - p) * (1 / q')| ≤ |p' - p| * (V / c) := by
    rw [abs_mul, abs_of_pos (by positivity : 0 < 1 / q')]
    exact mul_le_mul_of_nonneg_left (i'.trans (by gcongr)) (abs_nonneg _)
  have t2 : |(q' - q) * (1 / q')| ≤ (δ + |p' - p| * V) / c ^ 2 := by
    rw [abs_mul, abs_of_pos (by positivity : 0 < 1 / q')]
    calc |q' - q| * (1 / q') ≤ ((|1 / v' - 1 / v| + |p' - p|) / c) * (v' / c) := by gcongr
      _ = (|1 / v' - 1 / v| * v' + |p' - p| * v') / c ^ 2 := by field_simp
      _ ≤ _ := by gcongr
  have t3 : |-(p / q) * ((q' - q) * (1 / q'))| ≤ 1 / c * ((δ + |p' - p| * V) / c ^ 2) := by
    rw [abs_mul, abs_neg, abs_div, abs_of_pos hq0]
    gcongr
  rw [e]
  refine (abs_add_le _ _).trans ((add_le_add t1 t3).trans ?_)
  have hV0 : 0 ≤ V := hv'.le.trans hV
  have hc3 : c ^ 3 ≤ c := by
    have : c ^ 2 ≤ 1 := pow_le_one₀ hc.le hc1
    nlinarith
  have k1 : |p' - p| * (V / c) ≤ |p' - p| * (V / c ^ 3) := by gcongr
  have k2 : |p' - p| * (V / c ^ 3) + 1 / c * ((δ + |p' - p| * V) / c ^ 2) = (δ + 2 * V * |p' - p|) / c ^ 3 := by field_simp; ring
  linarith

/-- Horizontal distances travelled through the first `k` layers. -/
theorem C225_layers (δ v0 V c s s' : ℝ) (hv0 : 0 < v0) (hc : 0 < c) (hc1 : c ≤ 1) (layers layers' : List (Layer ℝ))
    (h : List.Forall₂ (NearLayer δ v0 c s s') layers layers') (hV : ∀ l ∈ layers', l.vp ≤ V) (ph : Str) (k : Nat) :
    |distSpec Real.sqrt (ph.count 'P') (ph.count 'S') layers' s' k - distSpec Real.sqrt (ph.count 'P') (ph.count 'S') layers s k|
      ≤ distanceBound ph δ V c s s' ((layers.take k).map Layer.dz).sum := by
  have hR : List.Forall₂ (fun l l' => NearLayer δ v0 c s s' l l' ∧ l'.vp ≤ V) layers layers' := by
    rw [List.forall₂_iff_get] at h ⊢
    exact ⟨h.1, fun i h1 h2 => ⟨h.2 i h1 h2, hV _ (List.get_mem _ _)⟩⟩
  unfold distSpec distanceBound
  refine sum_near _ _ _ Layer.dz _ ?_ _ _ (List.forall₂_take _ hR)
  rintro l l' ⟨n, hVl⟩
  have hvp : 0 < l.vp := n.pos.trans_le n.order
  have hvs' : 0 < l'.vs := hv0.trans_le n.low
  have hvp' : 0 < l'.vp := hvs'.trans_le n.order'
  have h0 : 0 ≤ 1 - c ^ 2 := by
    have : c ^ 2 ≤ 1 := pow_le_one₀ hc.le hc1
    linarith
  have hc2 : (s / (1112 / 10)) ^ 2 ≤ (1 - c ^ 2) * (1 / l.vs ^ 2) := by
    have := n.pos
    exact n.steep.trans (mul_le_mul_of_nonneg_left (one_div_le_one_div_of_le (by positivity) (pow_le_pow_left₀ n.pos.le n.order 2)) h0)
  have hc3 : (s' / (1112 / 10)) ^ 2 ≤ (1 - c ^ 2) * (1 / l'.vs ^ 2) :=
    n.steep'.trans (mul_le_mul_of_nonneg_left (one_div_le_one_div_of_le (by positivity) (pow_le_pow_left₀ hvs'.le n.order' 2)) h0)
  have eP := tan_near δ V c s s' l.vp l'.vp hc hc1 hvp hvp' hVl n.vp n.steep n.steep'
  have eS := tan_near δ V c s s' l.vs l'.vs hc hc1 n.pos hvs' (n.order'.trans hVl) n.vs hc2 hc3
  rw [n.dz]
  generalize (δ + 2 * V * (|s' - s| / (1112 / 10))) / c ^ 3 = B at *
  generalize s / (1112 / 10) / qSpec Real.sqrt l.vp s = a at *
  generalize s / (1112 / 10) / qSpec Real.sqrt l.vs s = b at *
  generalize s' / (1112 / 10) / qSpec Real.sqrt l'.vp s' = a' at *
  generalize s' / (1112 / 10) / qSpec Real.sqrt l'.vs s' = b' at *
  have e : ((ph.count 'P' : ℕ) : ℝ) * (a' * l.dz) + ((ph.count 'S' : ℕ) : ℝ) * (b' * l.dz) -
      (((ph.count 'P' : ℕ) : ℝ) * (a * l.dz) + ((ph.count 'S' : ℕ) : ℝ) * (b * l.dz))
      = (((ph.count 'P' : ℕ) : ℝ) * (a' - a) + ((ph.count 'S' : ℕ) : ℝ) * (b' - b)) * l.dz := by ring
  rw [e, abs_mul, abs_of_nonneg n.thick]
  refine mul_le_mul_of_nonneg_right ?_ n.thick
  have hP : (0 : ℝ) ≤ ((ph.count 'P' : ℕ) : ℝ) := Nat.cast_nonneg _
  have hS : (0 : ℝ) ≤ ((ph.count 'S' : ℕ) : ℝ) := Nat.cast_nonneg _
  have m1 := mul_le_mul_of_nonneg_left (abs_le.1 eP).1 hP
  have m2 := mul_le_mul_of_nonneg_left (abs_le.1 eP).2 hP
  have m3 := mul_le_mul_of_nonneg_left (abs_le.1 eS).1 hS
  have m4 := mul_le_mul_of_nonneg_left (abs_le.1 eS).2 hS
  rw [abs_le]
  constructor <;> linarith

/-- Rays away from critical propagate. -/
theorem nearLayers_strict (δ v0 c s s' : ℝ) (hv0 : 0 < v0) (hc : 0 < c) (layers layers' : List (Layer ℝ))
    (h : List.Forall₂ (NearLayer δ v0 c s s') layers layers') : PropagatesStrictly layers s ∧ PropagatesStrictly layers' s' := by
  have one : ∀ (s : ℝ) (l : Layer ℝ), 0 < l.vs → l.vs ≤ l.vp → (s / (1112 / 10)) ^ 2 ≤ (1 - c ^ 2) * (1 / l.vp ^ 2) →
      (s / (1112 / 10)) ^ 2 < 1 / l.vp ^ 2 ∧ (s / (1112 / 10)) ^ 2 < 1 / l.vs ^ 2 := by
    intro s l h1 h2 h3
    have hvp : 0 < l.vp := h1.trans_le h2
    have e1 : (s / (1112 / 10)) ^ 2 < 1 / l.vp ^ 2 := by
      refine lt_of_le_of_lt h3 ?_
      have : 0 < c ^ 2 * (1 / l.vp ^ 2) := by positivity
      linarith
    exact ⟨e1, e1.trans_le (one_div_le_one_div_of_le (by positivity) (pow_le_pow_left₀ h1.le h2 2))⟩
  unfold PropagatesStrictly
  induction h with
  | nil => simp
  | cons n _ ih =>
    constructor
    · rintro l hl
      rcases List.mem_cons.1 hl with rfl | hl
      · exact one _ _ n.pos n.order n.steep
      · exact ih.1 l hl
    · rintro l hl
      rcases List.mem_cons.1 hl with rfl | hl
      · exact one _ _ (hv0.trans_le n.low) n.order' n.steep'
      · exact ih.2 l hl

/-- **C225**.  The distances of piercing points for two models whose velocities differ by a relative error `δ`, and for two slownesses. -/
theorem C225_distance (δ v0 V c s s' : ℝ) (hv0 : 0 < v0) (hc : 0 < c) (hc1 : c ≤ 1) (hδ : 0 ≤ δ) (m m' : SimpleModel ℝ)
    (layers layers' : List (Layer ℝ)) (hm : IsLayered m layers) (hm' : IsLayered m' layers') (hz : m.z.length = layers.length)
    (hzs : m.z.Pairwise (· ≤ ·)) (hzz : m'.z = m.z) (h : List.Forall₂ (NearLayer δ v0 c s s') layers layers') (hV : ∀ l ∈ layers', l.vp ≤ V)
    (phase : Str) (hodd : phase.length % 2 = 1) (hletters : 'P' ∈ upper phase ∨ 'S' ∈ upper phase) (depth : ℝ)
    (h0 : m.z.getD 0 0 ≤ depth) (h1 : depth < m.z.getD (m.z.length - 1) 0) (Z : ℝ) (hZ : (layers.map Layer.dz).sum ≤ Z) :
    ∃ x y : ℝ, ppointDistance Real.sqrt m depth s phase = .ok (some x) ∧ ppointDistance Real.sqrt m' depth s' phase = .ok (some y) ∧
      |y - x| ≤ distanceBound (upper phase) δ V c s s' Z := by
  have hne : m.z ≠ [] := by
    rintro e
    rw [e] at h0 h1
    simp only [List.getD_nil] at h0 h1
    linarith
  obtain ⟨i, hi, hi0, hi1⟩ := exists_layer m.z depth hne h0 h1
  obtain ⟨p1, p2⟩ := nearLayers_strict δ v0 c s s' hv0 hc layers layers' h
  have hlen := h.length_eq
  have e1 := C37_value_partial Real.sqrt sqrtStrict_real m layers hm.1 hm.2.1 hm.2.2 hz hzs s phase hodd hletters p1 depth i (by omega) hi0 hi1 _ rfl
  have e2 := C37_value_partial Real.sqrt sqrtStrict_real m' layers' hm'.1 hm'.2.1 hm'.2.2 (by rw [hzz, hz, hlen]) (by rw [hzz]; exact hzs) s' phase
    hodd hletters p2 depth i (by omega) (by rw [hzz]; exact hi0) (by rw [hzz]; exact hi1) _ rfl
  rw [hzz] at e2
  refine ⟨_, _, e1, e2, ?_⟩
  have hth : ∀ l ∈ layers, 0 ≤ l.dz := by
    intro l hl
    obtain ⟨j, hj, rfl⟩ := List.getElem_of_mem hl
    exact ((List.forall₂_iff_get.1 h).2 j hj (by rw [← hlen]; exact hj)).thick
  have hV0 : 0 ≤ V := by
    have hmem : 0 < layers'.length := by omega
    have n := (List.forall₂_iff_get.1 h).2 0 (by omega) hmem
    have hv := hV _ (List.getElem_mem hmem)
    have a1 := n.low
    have a2 := n.order'
    simp only [List.get_eq_getElem] at a1 a2
    linarith
  have near : ∀ k, |distSpec Real.sqrt ((upper phase).count 'P') ((upper phase).count 'S') layers' s' k -
      distSpec Real.sqrt ((upper phase).count 'P') ((upper phase).count 'S') layers s k| ≤ distanceBound (upper phase) δ V c s s' Z := by
    intro k
    refine (C225_layers δ v0 V c s s' hv0 hc hc1 layers layers' h hV (upper phase) k).trans ?_
    unfold distanceBound
    have := (dz_take_le layers hth k).trans hZ
    gcongr
  have n1 := near (i + 1)
  have n2 := near (i + 2)
  have hw : 0 < m.z.getD (i + 1) 0 - m.z.getD i 0 := by linarith
  have w0 : 0 ≤ (depth - m.z.getD i 0) / (m.z.getD (i + 1) 0 - m.z.getD i 0) := div_nonneg (by linarith) hw.le
  have w1 : (depth - m.z.getD i 0) / (m.z.getD (i + 1) 0 - m.z.getD i 0) ≤ 1 := (div_le_one hw).2 (by linarith)
  generalize (depth - m.z.getD i 0) / (m.z.getD (i + 1) 0 - m.z.getD i 0) = w at *
  generalize distanceBound (upper phase) δ V c s s' Z = B at *
  generalize distSpec Real.sqrt ((upper phase).count 'P') ((upper phase).count 'S') layers' s' (i + 1) = a' at *
  generalize distSpec Real.sqrt ((upper phase).count 'P') ((upper phase).count 'S') layers' s' (i + 2) = b' at *
  generalize distSpec Real.sqrt ((upper phase).count 'P') ((upper phase).count 'S') layers s (i + 1) = a at *
  generalize distSpec Real.sqrt ((upper phase).count 'P') ((upper phase).count 'S') layers s (i + 2) = b at *
  have e : a' + (b' - a') * w - (a + (b - a) * w) = (1 - w) * (a' - a) + w * (b' - b) := by ring
  have m1 := mul_le_mul_of_nonneg_left (abs_le.1 n1).1 (sub_nonneg.2 w1)
  have m2 := mul_le_mul_of_nonneg_left (abs_le.1 n1).2 (sub_nonneg.2 w1)
  have m3 := mul_le_mul_of_nonneg_left (abs_le.1 n2).1 w0
  have m4 := mul_le_mul_of_nonneg_left (abs_le.1 n2).2 w0
  rw [e, abs_le]
  constructor <;> linarith

/-- Three layers of together 75 km whose velocities are wrong by up to 1 %, the slowness 7 s/deg wrong by 0.01 s/deg: the distance of the
piercing point of the S wave at a depth of 30 km is wrong by less than 1.7 km. -/
example : ∃ x y : ℝ,
    ppointDistance Real.sqrt ⟨[0, 2, 35], [2, 33, 40], [58 / 10, 65 / 10, 8], [336 / 100, 375 / 100, 447 / 100], []⟩ 30 7 "S".toList = .ok (some x) ∧
    ppointDistance Real.sqrt ⟨[0, 2, 35], [2, 33, 40], [585 / 100, 65 / 10, 795 / 100], [337 / 100, 375 / 100, 447 / 100], []⟩ 30 (701 / 100)
      "S".toList = .ok (some y) ∧ |y - x| ≤ 17 / 10 := by
  have near : List.Forall₂ (NearLayer (1 / 100) (336 / 100) (8 / 10) 7 (701 / 100))
      [⟨58 / 10, 336 / 100, 2⟩, ⟨65 / 10, 375 / 100, 33⟩, ⟨8, 447 / 100, 40⟩]
      [⟨585 / 100, 337 / 100, 2⟩, ⟨65 / 10, 375 / 100, 33⟩, ⟨795 / 100, 447 / 100, 40⟩] := by
    refine .cons ?_ (.cons ?_ (.cons ?_ .nil))
    all_goals
      constructor
      all_goals norm_num [abs_le]
  obtain ⟨x, y, h1, h2, h3⟩ := C225_distance (1 / 100) (336 / 100) 8 (8 / 10) 7 (701 / 100) (by norm_num) (by norm_num) (by norm_num) (by norm_num)
    ⟨[0, 2, 35], [2, 33, 40], [58 / 10, 65 / 10, 8], [336 / 100, 375 / 100, 447 / 100], []⟩
    ⟨[0, 2, 35], [2, 33, 40], [585 / 100, 65 / 10, 795 / 100], [337 / 100, 375 / 100, 447 / 100], []⟩ _ _ ⟨rfl, rfl, rfl⟩ ⟨rfl, rfl, rfl⟩ rfl
    (by norm_num) rfl near (by
      intro l hl
      simp only [List.mem_cons, List.not_mem_nil, or_false] at hl
      rcases hl with rfl | rfl | rfl <;> norm_num) "S".toList (by decide) (by decide) 30 (by norm_num) (by norm_num) 75 (by norm_num)
  refine ⟨x, y, h1, h2, h3.trans ?_⟩
  unfold distanceBound
  have e1 : (upper "S".toList).count 'P' = 0 := by decide
  have e2 : (upper "S".toList).count 'S' = 1 := by decide
  rw [e1, e2, abs_of_nonneg (by norm_num)]
  norm_num

end Verif.Props
