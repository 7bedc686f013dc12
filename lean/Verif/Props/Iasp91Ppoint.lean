import Verif.Props.Iasp91Moveout
import Verif.Props.Ppoint

/-!
# Piercing points with the velocity model of the package: C178
-/

set_option linter.unusedSimpArgs false
set_option linter.unusedSectionVars false

namespace Verif.Props
open Verif.Py Verif.Spec Verif.Model Verif.Model.Simple Verif.Model.Ppoints Verif.Model.Iasp91

theorem strictly_of_slow {m : SimpleModel ℝ} {layers : List (Layer ℝ)} (hm : ShippedModel m layers) (s : ℝ)
    (hs : |s| ≤ 81 / 10) : PropagatesStrictly layers s := by
  have key : ∀ v : ℝ, 0 < v → v ≤ 13691 / 1000 → (s / (1112 / 10)) ^ 2 < 1 / v ^ 2 := by
    intro v hv h
    rw [div_pow, div_lt_div_iff₀ (by norm_num) (by positivity), one_mul]
    have h1 : s ^ 2 ≤ (81 / 10) ^ 2 := sq_le_sq' (by linarith [(abs_le.1 hs).1]) (abs_le.1 hs).2
    have h2 : v ^ 2 ≤ (13691 / 1000) ^ 2 := pow_le_pow_left₀ hv.le h 2
    calc s ^ 2 * v ^ 2 ≤ (81 / 10) ^ 2 * (13691 / 1000) ^ 2 := mul_le_mul h1 h2 (by positivity) (by positivity)
      _ < _ := by norm_num
  intro l hl
  obtain ⟨v1, v2, v3⟩ := hm.speed l hl
  exact ⟨key _ (v1.trans v2) v3, key _ v1 (v2.le.trans v3)⟩

theorem distSpec_succ (sqrt : ℝ → ℝ) (nP nS : ℕ) (layers : List (Layer ℝ)) (s : ℝ) (i : ℕ) (l : Layer ℝ)
    (hl : layers[i]? = some l) :
    distSpec sqrt nP nS layers s (i + 1) = distSpec sqrt nP nS layers s i + distRate sqrt nP nS l s * l.dz := by
  unfold distSpec distRate
  rw [List.take_add_one, hl]
  simp only [Option.toList_some, List.map_append, List.map_cons, List.map_nil, List.sum_append, List.sum_cons, List.sum_nil]
  ring

theorem distRate_nonneg (s : ℝ) (hs0 : 0 ≤ s) (nP nS : ℕ) (l : Layer ℝ) : 0 ≤ distRate Real.sqrt nP nS l s := by
  unfold distRate qSpec
  positivity

/-- **C178.** With the model of the package the distance of the piercing point is never less than the distance travelled by the
ray down to the given depth, and the error is at most the distance travelled in 50/3 km. -/
theorem C178_error_partial {m : SimpleModel ℝ} {layers : List (Layer ℝ)} (hm : ShippedModel m layers) (s : ℝ) (hs0 : 0 ≤ s)
    (hs : s ≤ 81 / 10) (phase : Str) (hodd : phase.length % 2 = 1) (hletters : 'P' ∈ upper phase ∨ 'S' ∈ upper phase)
    (nP nS : ℕ) (hP : nP = (upper phase).count 'P') (hS : nS = (upper phase).count 'S')
    (depth : ℝ) (h0 : 0 ≤ depth) (h1 : depth < m.z.getD 668 0) :
    ∃ i l x, i < 668 ∧ layers[i]? = some l ∧ m.z.getD i 0 ≤ depth ∧ depth < m.z.getD (i + 1) 0 ∧
      ppointDistance Real.sqrt m depth s phase = .ok (some x) ∧
      distSpec Real.sqrt nP nS layers s i + distRate Real.sqrt nP nS l s * (depth - m.z.getD i 0) ≤ x ∧
      ∀ R, (∀ l ∈ layers, distRate Real.sqrt nP nS l s ≤ R) →
        x ≤ distSpec Real.sqrt nP nS layers s i + distRate Real.sqrt nP nS l s * (depth - m.z.getD i 0) + 50 / 3 * R := by
  obtain ⟨i, hi, hi0, hi1⟩ := exists_layer m.z depth (by intro h; have := hm.depths; rw [h] at this; simp at this)
    (by rw [hm.surface]; exact h0) (by rw [hm.depths]; exact h1)
  rw [hm.depths] at hi
  have hget : ∀ k < 669, ∃ l, layers[k]? = some l ∧ l ∈ layers ∧ l.dz = m.dz.getD k 0 := by
    intro k hk
    have hk' : k < layers.length := by rw [hm.count]; exact hk
    refine ⟨layers[k], List.getElem?_eq_getElem hk', List.getElem_mem hk', ?_⟩
    rw [hm.dz, List.getD_eq_getElem _ _ (by simpa using hk'), List.getElem_map]
  obtain ⟨l, hl, hlm, hld⟩ := hget i (by omega)
  obtain ⟨l2, hl2, hlm2, hld2⟩ := hget (i + 1) (by omega)
  have hv := C37_value_partial Real.sqrt sqrtStrict_real m layers hm.vp hm.vs hm.dz (by rw [hm.depths, hm.count]) hm.sorted
    s phase hodd hletters (strictly_of_slow hm s (by rw [abs_of_nonneg hs0]; exact hs)) depth i (by rw [hm.count]; omega) hi0 hi1
    _ rfl
  rw [← hP, ← hS] at hv
  refine ⟨i, l, _, by omega, hl, hi0, hi1, hv, ?_⟩
  have hb : m.z.getD (i + 1) 0 - m.z.getD i 0 = l.dz := by rw [hm.bottom i (by omega), hld]; ring
  have hdz : 0 < l.dz := by rw [← hb]; linarith
  rw [distSpec_succ Real.sqrt nP nS layers s (i + 1) l2 hl2, distSpec_succ Real.sqrt nP nS layers s i l hl, hb]
  have r1 := distRate_nonneg s hs0 nP nS l
  have r2 := distRate_nonneg s hs0 nP nS l2
  obtain ⟨t1, t2⟩ := hm.thick l hlm
  obtain ⟨t3, t4⟩ := hm.thick l2 hlm2
  generalize hθ : (depth - m.z.getD i 0) / l.dz = θ
  have hθ0 : 0 ≤ θ := by rw [← hθ]; exact div_nonneg (by linarith) hdz.le
  have hθ1 : θ ≤ 1 := by rw [← hθ, div_le_one hdz]; linarith
  have hdep : depth - m.z.getD i 0 = θ * l.dz := by rw [← hθ]; field_simp
  rw [hdep]
  generalize distSpec Real.sqrt nP nS layers s i = d0
  have key : d0 + distRate Real.sqrt nP nS l s * l.dz + (d0 + distRate Real.sqrt nP nS l s * l.dz
      + distRate Real.sqrt nP nS l2 s * l2.dz - (d0 + distRate Real.sqrt nP nS l s * l.dz)) * θ
      = d0 + distRate Real.sqrt nP nS l s * (θ * l.dz) + ((1 - θ) * (distRate Real.sqrt nP nS l s * l.dz)
        + θ * (distRate Real.sqrt nP nS l2 s * l2.dz)) := by ring
  rw [key]
  constructor
  · have := add_nonneg (mul_nonneg (sub_nonneg.2 hθ1) (mul_nonneg r1 t1)) (mul_nonneg hθ0 (mul_nonneg r2 t3))
    linarith
  · intro R hR
    have a1 : distRate Real.sqrt nP nS l s * l.dz ≤ 50 / 3 * R := by
      have := mul_le_mul (hR l hlm) t2 t1 (r1.trans (hR l hlm))
      linarith
    have a2 : distRate Real.sqrt nP nS l2 s * l2.dz ≤ 50 / 3 * R := by
      have := mul_le_mul (hR l2 hlm2) t4 t3 (r2.trans (hR l2 hlm2))
      linarith
    have := add_le_add (mul_le_mul_of_nonneg_left a1 (sub_nonneg.2 hθ1)) (mul_le_mul_of_nonneg_left a2 hθ0)
    linarith

/-- **C178, surface.** The piercing point at depth 0 is not the station: its distance is the one travelled in 2 km. -/
theorem C178_counterexample {m : SimpleModel ℝ} {layers : List (Layer ℝ)} (hm : ShippedModel m layers) (s : ℝ) (hs0 : 0 < s)
    (hs : s ≤ 81 / 10) :
    ∃ x, ppointDistance Real.sqrt m 0 s ['S'] = .ok (some x) ∧ 0 < x ∧
      x = 2 * (s / (1112 / 10) / qSpec Real.sqrt (336 / 100) s) := by
  have hget : ∀ k < 669, ∃ l, layers[k]? = some l ∧ l.dz = m.dz.getD k 0 := by
    intro k hk
    have hk' : k < layers.length := by rw [hm.count]; exact hk
    refine ⟨layers[k], List.getElem?_eq_getElem hk', ?_⟩
    rw [hm.dz, List.getD_eq_getElem _ _ (by simpa using hk'), List.getElem_map]
  obtain ⟨l0, g0, d0⟩ := hget 0 (by norm_num)
  obtain ⟨l1, g1, d1⟩ := hget 1 (by norm_num)
  obtain ⟨c1, c2, c3⟩ := hm.crust l1 (List.mem_iff_getElem?.2 ⟨0, by
    rw [List.getElem?_drop, List.getElem?_take, if_pos (by norm_num)]; exact g1⟩)
  have e0 : l0.dz = 0 := by
    have := hm.empty
    cases layers with
    | nil => simp at g0
    | cons a ls => simp at this g0; rw [← g0]; exact this
  have z0 := hm.surface
  have z1 : m.z.getD 1 0 = 0 := by rw [hm.bottom 0 (by norm_num), z0, ← d0, e0]; norm_num
  have z2 : m.z.getD 2 0 = 2 := by rw [hm.bottom 1 (by norm_num), z1, ← d1, c3]; norm_num
  have hprop := strictly_of_slow hm s (by rw [abs_of_pos hs0]; exact hs)
  have hv := C37_value_partial Real.sqrt sqrtStrict_real m layers hm.vp hm.vs hm.dz (by rw [hm.depths, hm.count]) hm.sorted
    s ['S'] (by decide) (by decide) hprop 0 1 (by rw [hm.count]; norm_num) (by rw [z1]) (by rw [z2]; norm_num) _ rfl
  have hx : distSpec Real.sqrt ((upper ['S']).count 'P') ((upper ['S']).count 'S') layers s 2
      = 2 * (s / (1112 / 10) / qSpec Real.sqrt (336 / 100) s) := by
    rw [distSpec_succ Real.sqrt _ _ layers s 1 l1 g1, distSpec_succ Real.sqrt _ _ layers s 0 l0 g0, e0, c3]
    have : distSpec Real.sqrt ((upper ['S']).count 'P') ((upper ['S']).count 'S') layers s 0 = 0 := by simp [distSpec]
    rw [this, show (upper ['S']).count 'P' = 0 by decide, show (upper ['S']).count 'S' = 1 by decide]
    simp only [distRate, c2]
    push_cast
    ring
  refine ⟨_, hv, ?_⟩
  rw [z1]
  simp only [sub_self, zero_div, mul_zero, add_zero, Nat.reduceAdd]
  rw [hx]
  refine ⟨?_, rfl⟩
  have : 0 < qSpec Real.sqrt (336 / 100) s := by
    unfold qSpec
    refine Real.sqrt_pos.2 ?_
    have := (hprop l1 (List.mem_of_getElem? g1)).2
    rw [c2] at this
    linarith
  positivity

/-- The model exists; e.g. the piercing point of an S wave in 50 km. -/
example (pkg : Str) (loadtxt : Str → Res (Table ℝ)) (hfile : loadtxt pkg = loadShipped) :
    ∃ m x, (loadModel pkg loadtxt [] "iasp91".toList).2 = .ok m ∧
      ppointDistance Real.sqrt m 50 (64 / 10) ['S'] = .ok (some x) ∧ 0 ≤ x := by
  obtain ⟨m, layers, hload, hm⟩ := C176_loads pkg loadtxt hfile [] rfl
  have hsort := hm.sorted
  rw [List.pairwise_iff_getElem] at hsort
  have h := hsort 166 668 (by rw [hm.depths]; norm_num) (by rw [hm.depths]; norm_num) (by norm_num)
  have h2 := hm.deep
  rw [List.getD_eq_getElem _ _ (by rw [hm.depths]; norm_num)] at h2
  obtain ⟨i, l, x, -, -, h0, -, hx, hge, -⟩ := C178_error_partial hm (64 / 10) (by norm_num) (by norm_num) ['S'] (by decide)
    (by decide) _ _ rfl rfl 50 (by norm_num) (by
      rw [List.getD_eq_getElem _ _ (by rw [hm.depths]; norm_num)]
      linarith)
  refine ⟨m, x, hload, hx, le_trans ?_ hge⟩
  have hd := (distSpec_mono Real.sqrt sqrtStrict_real ((upper ['S']).count 'P') ((upper ['S']).count 'S') layers (64 / 10)
    (by norm_num) (strictly_of_slow hm (64 / 10) (by norm_num [abs_le])) (fun l hl => (hm.thick l hl).1) i i le_rfl).1
  exact add_nonneg hd (mul_nonneg (distRate_nonneg (64 / 10) (by norm_num) _ _ l) (by linarith))

end Verif.Props
