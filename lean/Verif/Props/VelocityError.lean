import Verif.Props.TableError

/-!
# C224: small errors of velocities and slowness change the delay times little
-/

set_option linter.unusedSimpArgs false
set_option linter.unusedSectionVars false

namespace Verif.Spec

/-- The layer `l'` approximates the layer `l`: same thickness, velocities with a relative error of at most `δ` and not below `v0`.  A ray
with slowness `s` in `l` and a ray with slowness `s'` in `l'` (s/deg) have an angle with the horizontal whose sine is at least `c`. -/
structure NearLayer (δ v0 c s s' : ℝ) (l l' : Layer ℝ) : Prop where
  dz : l'.dz = l.dz
  thick : 0 ≤ l.dz
  vp : |l'.vp - l.vp| ≤ δ * l.vp
  vs : |l'.vs - l.vs| ≤ δ * l.vs
  pos : 0 < l.vs
  order : l.vs ≤ l.vp
  low : v0 ≤ l'.vs
  order' : l'.vs ≤ l'.vp
  steep : (s / (1112 / 10)) ^ 2 ≤ (1 - c ^ 2) * (1 / l.vp ^ 2)
  steep' : (s' / (1112 / 10)) ^ 2 ≤ (1 - c ^ 2) * (1 / l'.vp ^ 2)

/-- Bound of the errors of delay times at the depth `z`: relative errors `δ` of velocities of at least `v0` and an error of the slowness. -/
noncomputable def velocityBound (ph : List Char) (δ v0 c s s' z : ℝ) : ℝ :=
  (ph.count 'P' + ph.count 'S' + 2 : ℝ) * ((δ / v0 + |s' - s| / (1112 / 10)) / c) * z

/-- The velocities of a model as layers. -/
def IsLayered (m : Model.Simple.SimpleModel ℝ) (layers : List (Layer ℝ)) : Prop :=
  m.vp = layers.map Layer.vp ∧ m.vs = layers.map Layer.vs ∧ m.dz = layers.map Layer.dz

end Verif.Spec

namespace Verif.Props
open Verif.Py Verif.Model Verif.Model.Simple Verif.Spec

/-- Vertical slownesses of two rays in two layers. -/
theorem qSpec_near (c s s' v v' : ℝ) (hc : 0 < c) (hv : 0 < v) (hv' : 0 < v') (h : (s / (1112 / 10)) ^ 2 ≤ (1 - c ^ 2) * (1 / v ^ 2))
    (h' : (s' / (1112 / 10)) ^ 2 ≤ (1 - c ^ 2) * (1 / v' ^ 2)) :
    |qSpec Real.sqrt v' s' - qSpec Real.sqrt v s| ≤ (|1 / v' - 1 / v| + |s' - s| / (1112 / 10)) / c := by
  unfold qSpec
  have eu : 1 / v ^ 2 = (1 / v) ^ 2 := by rw [one_div_pow]
  have eu' : 1 / v' ^ 2 = (1 / v') ^ 2 := by rw [one_div_pow]
  have ep : s' / (1112 / 10) - s / (1112 / 10) = (s' - s) / (1112 / 10) := by ring
  have eabs : |s' / (1112 / 10) - s / (1112 / 10)| = |s' - s| / (1112 / 10) := by
    rw [ep, abs_div, abs_of_pos (by norm_num : (0 : ℝ) < 1112 / 10)]
  rw [eu] at h ⊢
  rw [eu'] at h' ⊢
  rw [← eabs]
  have hu : 0 < 1 / v := by positivity
  have hu' : 0 < 1 / v' := by positivity
  generalize 1 / v = u at *
  generalize 1 / v' = u' at *
  generalize s / (1112 / 10) = p at *
  generalize s' / (1112 / 10) = p' at *
  have root : ∀ p u : ℝ, 0 < u → p ^ 2 ≤ (1 - c ^ 2) * u ^ 2 → c * u ≤ √(u ^ 2 - p ^ 2) ∧ |p| ≤ u ∧ √(u ^ 2 - p ^ 2) ^ 2 = u ^ 2 - p ^ 2 := by
    intro p u hu h
    have h1 : (c * u) ^ 2 ≤ u ^ 2 - p ^ 2 := by nlinarith
    have h2 : 0 ≤ u ^ 2 - p ^ 2 := (sq_nonneg _).trans h1
    refine ⟨Real.le_sqrt_of_sq_le h1, ?_, Real.sq_sqrt h2⟩
    exact abs_le_of_sq_le_sq (by linarith : p ^ 2 ≤ u ^ 2) hu.le
  obtain ⟨a1, a2, a3⟩ := root p u hu h
  obtain ⟨b1, b2, b3⟩ := root p' u' hu' h'
  generalize √(u ^ 2 - p ^ 2) = q at *
  generalize √(u' ^ 2 - p' ^ 2) = q' at *
  have hs : 0 < c * (u + u') := by positivity
  have hq : c * (u + u') ≤ q + q' := by linarith
  have e : (q' - q) * (q + q') = (u' - u) * (u + u') - (p' - p) * (p + p') := by nlinarith
  have k1 : |q' - q| * (q + q') ≤ (|u' - u| + |p' - p|) * (u + u') := by
    have hpp : |p + p'| ≤ u + u' := (abs_add_le _ _).trans (by linarith)
    calc |q' - q| * (q + q') = |(q' - q) * (q + q')| := by rw [abs_mul, abs_of_pos (hs.trans_le hq)]
      _ = |(u' - u) * (u + u') - (p' - p) * (p + p')| := by rw [e]
      _ ≤ |(u' - u) * (u + u')| + |(p' - p) * (p + p')| := abs_sub _ _
      _ = |u' - u| * (u + u') + |p' - p| * |p + p'| := by rw [abs_mul, abs_mul, abs_of_pos (add_pos hu hu')]
      _ ≤ |u' - u| * (u + u') + |p' - p| * (u + u') := by gcongr
      _ = _ := by ring
  have k2 : |q' - q| * (c * (u + u')) ≤ (|u' - u| + |p' - p|) * (u + u') :=
    (mul_le_mul_of_nonneg_left hq (abs_nonneg _)).trans k1
  rw [le_div_iff₀ hc]
  have k3 : |q' - q| * c * (u + u') ≤ (|u' - u| + |p' - p|) * (u + u') := by linarith
  exact le_of_mul_le_mul_right k3 (add_pos hu hu')

/-- Slownesses of a layer whose velocity has a relative error. -/
theorem inv_near (δ v0 v v' : ℝ) (hv0 : 0 < v0) (hv : 0 < v) (hv' : v0 ≤ v') (h : |v' - v| ≤ δ * v) : |1 / v' - 1 / v| ≤ δ / v0 := by
  have hp : 0 < v' := hv0.trans_le hv'
  have hδ : 0 ≤ δ := by
    have := (abs_nonneg _).trans h
    exact nonneg_of_mul_nonneg_left this hv
  have e : 1 / v' - 1 / v = -(v' - v) / (v' * v) := by field_simp; ring
  rw [e, abs_div, abs_neg, abs_of_pos (mul_pos hp hv), div_le_div_iff₀ (mul_pos hp hv) hv0]
  calc |v' - v| * v0 ≤ δ * v * v' := by gcongr
    _ = δ * (v' * v) := by ring

theorem sum_near {α : Type} (R : α → α → Prop) (f g dz : α → ℝ) (C : ℝ) (h : ∀ a b, R a b → |g b - f a| ≤ C * dz a) (L L' : List α)
    (hR : List.Forall₂ R L L') : |(L'.map g).sum - (L.map f).sum| ≤ C * (L.map dz).sum := by
  induction hR with
  | nil => simp
  | @cons a b l l' hab _ ih =>
    simp only [List.map_cons, List.sum_cons]
    have e : g b + (l'.map g).sum - (f a + (l.map f).sum) = (g b - f a) + ((l'.map g).sum - (l.map f).sum) := by ring
    rw [e, mul_add]
    exact (abs_add_le _ _).trans (add_le_add (h a b hab) ih)

/-- **C224**.  The delay times of two models whose velocities differ by a relative error, for two slownesses. -/
theorem C224_delays (δ v0 c s s' : ℝ) (hv0 : 0 < v0) (hc : 0 < c) (layers layers' : List (Layer ℝ))
    (h : List.Forall₂ (NearLayer δ v0 c s s') layers layers') (ph : Str) (k : Nat) :
    |delaySpec Real.sqrt (ph.count 'P') (ph.count 'S') (ph.head? = some 'P') layers' s' k -
      delaySpec Real.sqrt (ph.count 'P') (ph.count 'S') (ph.head? = some 'P') layers s k|
      ≤ velocityBound ph δ v0 c s s' ((layers.take (k + 1)).map Layer.dz).sum := by
  unfold delaySpec velocityBound
  refine sum_near (NearLayer δ v0 c s s') _ _ Layer.dz _ ?_ _ _ (List.forall₂_take _ h)
  intro l l' n
  have hvp : 0 < l.vp := n.pos.trans_le n.order
  have hvs' : 0 < l'.vs := hv0.trans_le n.low
  have hvp' : 0 < l'.vp := hvs'.trans_le n.order'
  have hc2 : (s / (1112 / 10)) ^ 2 ≤ (1 - c ^ 2) * (1 / l.vs ^ 2) := by
    have h0 : 0 ≤ 1 - c ^ 2 := by
      by_contra hn
      have h1 := (sq_nonneg _).trans n.steep
      have h2 : (1 - c ^ 2) * (1 / l.vp ^ 2) < 0 := mul_neg_of_neg_of_pos (not_le.1 hn) (by positivity)
      linarith
    refine n.steep.trans (mul_le_mul_of_nonneg_left ?_ h0)
    have := n.pos
    exact one_div_le_one_div_of_le (by positivity) (pow_le_pow_left₀ n.pos.le n.order 2)
  have hc3 : (s' / (1112 / 10)) ^ 2 ≤ (1 - c ^ 2) * (1 / l'.vs ^ 2) := by
    have h0 : 0 ≤ 1 - c ^ 2 := by
      by_contra hn
      have h1 := (sq_nonneg _).trans n.steep'
      have h2 : (1 - c ^ 2) * (1 / l'.vp ^ 2) < 0 := mul_neg_of_neg_of_pos (not_le.1 hn) (by positivity)
      linarith
    refine n.steep'.trans (mul_le_mul_of_nonneg_left ?_ h0)
    exact one_div_le_one_div_of_le (by positivity) (pow_le_pow_left₀ hvs'.le n.order' 2)
  have bound : ∀ x x' : ℝ, 0 < x → 0 < x' → |1 / x' - 1 / x| ≤ δ / v0 → (s / (1112 / 10)) ^ 2 ≤ (1 - c ^ 2) * (1 / x ^ 2) →
      (s' / (1112 / 10)) ^ 2 ≤ (1 - c ^ 2) * (1 / x' ^ 2) →
      |qSpec Real.sqrt x' s' - qSpec Real.sqrt x s| ≤ (δ / v0 + |s' - s| / (1112 / 10)) / c := fun x x' h1 h2 h3 h4 h5 =>
    (qSpec_near c s s' x x' hc h1 h2 h4 h5).trans (by gcongr)
  have eP := bound l.vp l'.vp hvp hvp' (inv_near δ v0 _ _ hv0 hvp (n.low.trans n.order') n.vp) n.steep n.steep'
  have eS := bound l.vs l'.vs n.pos hvs' (inv_near δ v0 _ _ hv0 n.pos n.low n.vs) hc2 hc3
  rw [n.dz]
  generalize (δ / v0 + |s' - s| / (1112 / 10)) / c = B at *
  have e0 : |(if decide (ph.head? = some 'P') = true then qSpec Real.sqrt l'.vp s' else qSpec Real.sqrt l'.vs s') -
      (if decide (ph.head? = some 'P') = true then qSpec Real.sqrt l.vp s else qSpec Real.sqrt l.vs s)| ≤ B := by
    split <;> assumption
  generalize (if decide (ph.head? = some 'P') = true then qSpec Real.sqrt l'.vp s' else qSpec Real.sqrt l'.vs s') = r' at *
  generalize (if decide (ph.head? = some 'P') = true then qSpec Real.sqrt l.vp s else qSpec Real.sqrt l.vs s) = r at *
  generalize qSpec Real.sqrt l'.vp s' = a' at *
  generalize qSpec Real.sqrt l.vp s = a at *
  generalize qSpec Real.sqrt l'.vs s' = b' at *
  generalize qSpec Real.sqrt l.vs s = b at *
  have e : (((ph.count 'P' : ℕ) : ℝ) * a' + ((ph.count 'S' : ℕ) : ℝ) * b' - 2 * r') * l.dz -
      (((ph.count 'P' : ℕ) : ℝ) * a + ((ph.count 'S' : ℕ) : ℝ) * b - 2 * r) * l.dz
      = (((ph.count 'P' : ℕ) : ℝ) * (a' - a) + ((ph.count 'S' : ℕ) : ℝ) * (b' - b) - 2 * (r' - r)) * l.dz := by ring
  rw [e, abs_mul, abs_of_nonneg n.thick]
  refine mul_le_mul_of_nonneg_right ?_ n.thick
  have hP : (0 : ℝ) ≤ ((ph.count 'P' : ℕ) : ℝ) := Nat.cast_nonneg _
  have hS : (0 : ℝ) ≤ ((ph.count 'S' : ℕ) : ℝ) := Nat.cast_nonneg _
  have m1 := mul_le_mul_of_nonneg_left (abs_le.1 eP).1 hP
  have m2 := mul_le_mul_of_nonneg_left (abs_le.1 eP).2 hP
  have m3 := mul_le_mul_of_nonneg_left (abs_le.1 eS).1 hS
  have m4 := mul_le_mul_of_nonneg_left (abs_le.1 eS).2 hS
  have m5 := abs_le.1 e0
  rw [abs_le]
  constructor <;> linarith [m5.1, m5.2]

/-- Delay times without NaN which differ by at most `ε`. -/
def NearO (ε : ℝ) : Option ℝ → Option ℝ → Prop := fun o p => ∃ x y : ℝ, o = some x ∧ p = some y ∧ |y - x| ≤ ε

theorem nearO_neg (ε : ℝ) (t u : List (Option ℝ)) (h : List.Forall₂ (NearO ε) t u) : List.Forall₂ (NearO ε) (negO t) (negO u) := by
  unfold negO
  rw [List.forall₂_map_left_iff, List.forall₂_map_right_iff]
  refine h.imp ?_
  rintro o p ⟨x, y, rfl, rfl, e⟩
  refine ⟨-x, -y, rfl, rfl, ?_⟩
  have : -y - -x = -(y - x) := by ring
  rwa [this, abs_neg]

theorem nearO_mirror (ε : ℝ) (t u : List (Option ℝ)) (h : List.Forall₂ (NearO ε) t u) : List.Forall₂ (NearO ε) (mirror t) (mirror u) := by
  have hl : t.length = u.length := h.length_eq
  unfold mirror slice
  rw [← hl]
  exact List.rel_append (List.rel_reverse (nearO_neg _ _ _ (List.forall₂_drop _ (List.forall₂_take _ h)))) h

theorem nearO_noNaN (ε : ℝ) (t u : List (Option ℝ)) (h : List.Forall₂ (NearO ε) t u) : firstNaN t = none ∧ firstNaN u = none := by
  unfold firstNaN
  rw [List.findIdx?_eq_none_iff, List.findIdx?_eq_none_iff]
  induction h with
  | nil => simp
  | cons h _ ih =>
    obtain ⟨x, y, rfl, rfl, _⟩ := h
    simpa using ih

theorem nearO_tables (ε : ℝ) (t u : List (Option ℝ)) (h : List.Forall₂ (NearO ε) t u) :
    ∃ x y : List ℝ, t = x.map some ∧ u = y.map some ∧ NearTables ε x y := by
  induction h with
  | nil => exact ⟨[], [], rfl, rfl, rfl, fun i hi => by simp at hi⟩
  | cons hd _ ih =>
    obtain ⟨x, y, rfl, rfl, hn, hv⟩ := ih
    obtain ⟨p, q, rfl, rfl, hpq⟩ := hd
    refine ⟨p :: x, q :: y, rfl, rfl, by simpa using hn, fun i hi => ?_⟩
    cases i with
    | zero => simpa using hpq
    | succ i => simpa using hv i (by simpa using hi)

/-- The ray propagates in both models. -/
theorem nearLayers_propagate (δ v0 c s s' : ℝ) (hv0 : 0 < v0) (layers layers' : List (Layer ℝ))
    (h : List.Forall₂ (NearLayer δ v0 c s s') layers layers') : Propagates layers s ∧ Propagates layers' s' := by
  have one : ∀ (s : ℝ) (l : Layer ℝ), 0 < l.vs → l.vs ≤ l.vp → (s / (1112 / 10)) ^ 2 ≤ (1 - c ^ 2) * (1 / l.vp ^ 2) →
      (s / (1112 / 10)) ^ 2 ≤ 1 / l.vp ^ 2 ∧ (s / (1112 / 10)) ^ 2 ≤ 1 / l.vs ^ 2 := by
    intro s l h1 h2 h3
    have hvp : 0 < l.vp := h1.trans_le h2
    have e1 : (s / (1112 / 10)) ^ 2 ≤ 1 / l.vp ^ 2 := by
      refine h3.trans ?_
      have : 0 ≤ c ^ 2 * (1 / l.vp ^ 2) := by positivity
      linarith
    exact ⟨e1, e1.trans (one_div_le_one_div_of_le (by positivity) (pow_le_pow_left₀ h1.le h2 2))⟩
  unfold Propagates
  induction h with
  | nil => simp
  | cons n _ ih =>
    constructor
    · rintro l hl
      rcases List.mem_cons.1 hl with rfl | hl
      · exact one _ _ n.pos n.order n.steep
      · exact ih.1 l hl
    · rintro l hl
      rcases List.mem_cons.1 hl with rfl | hl
      · exact one _ _ (hv0.trans_le n.low) n.order' n.steep'
      · exact ih.2 l hl

theorem dz_take_le (L : List (Layer ℝ)) (h : ∀ l ∈ L, 0 ≤ l.dz) (k : Nat) : ((L.take k).map Layer.dz).sum ≤ (L.map Layer.dz).sum := by
  have e : (L.map Layer.dz).sum = ((L.take k).map Layer.dz).sum + ((L.drop k).map Layer.dz).sum := by
    rw [← List.sum_append, ← List.map_append, List.take_append_drop]
  have : 0 ≤ ((L.drop k).map Layer.dz).sum := by
    apply List.sum_nonneg
    intro x hx
    obtain ⟨l, hl, rfl⟩ := List.mem_map.1 hx
    exact h l (List.mem_of_mem_drop hl)
  linarith

/-- Delay times computed with the two models. -/
theorem near_delayTimes (δ v0 c s s' : ℝ) (hv0 : 0 < v0) (hc : 0 < c) (hδ : 0 ≤ δ) (m m' : SimpleModel ℝ) (layers layers' : List (Layer ℝ))
    (hm : IsLayered m layers) (hm' : IsLayered m' layers') (h : List.Forall₂ (NearLayer δ v0 c s s') layers layers') (phase : Str)
    (hne : phase ≠ []) (hletters : ∀ x ∈ upper phase, x = 'P' ∨ x = 'S') (Z : ℝ) (hZ : (layers.map Layer.dz).sum ≤ Z) :
    ∃ t u, delayTimes Real.sqrt m s phase = .ok t ∧ delayTimes Real.sqrt m' s' phase = .ok u ∧ t.length = layers.length ∧
      List.Forall₂ (NearO (velocityBound (upper phase) δ v0 c s s' Z)) t u := by
  obtain ⟨p1, p2⟩ := nearLayers_propagate δ v0 c s s' hv0 layers layers' h
  have hlen := h.length_eq
  refine ⟨_, _, C28_delay_times Real.sqrt m layers hm.1 hm.2.1 hm.2.2 s phase hne hletters p1,
    C28_delay_times Real.sqrt m' layers' hm'.1 hm'.2.1 hm'.2.2 s' phase hne hletters p2, by simp, ?_⟩
  rw [List.forall₂_iff_get]
  refine ⟨by simp [hlen], fun i hi hj => ?_⟩
  refine ⟨_, _, by simp; rfl, by simp; rfl, ?_⟩
  refine (C224_delays δ v0 c s s' hv0 hc layers layers' h (upper phase) i).trans ?_
  unfold velocityBound
  have hth : ∀ l ∈ layers, 0 ≤ l.dz := by
    intro l hl
    obtain ⟨j, hj, rfl⟩ := List.getElem_of_mem hl
    have := (List.forall₂_iff_get.1 h).2 j hj (by rw [← hlen]; exact hj)
    exact this.thick
  have := (dz_take_le layers hth (i + 1)).trans hZ
  gcongr

/-- **C224**.  The two tables of `stretch_delay_times` for two models whose velocities differ by a relative error `δ`, and for two slownesses:
no NaN, same lengths, entries which differ by at most the bound. -/
theorem C224_tables (δ v0 c s s' ref : ℝ) (hv0 : 0 < v0) (hc : 0 < c) (hδ : 0 ≤ δ) (m m' : SimpleModel ℝ) (layers layers' : List (Layer ℝ))
    (hm : IsLayered m layers) (hm' : IsLayered m' layers') (hcache : m.tRef = []) (hcache' : m'.tRef = [])
    (h : List.Forall₂ (NearLayer δ v0 c s s') layers layers') (href : List.Forall₂ (NearLayer δ v0 c ref ref) layers layers') (phase : Str)
    (hne : phase ≠ []) (heven : phase.length % 2 = 0) (hletters : ∀ x ∈ upper phase, x = 'P' ∨ x = 'S') (Z : ℝ)
    (hZ : (layers.map Layer.dz).sum ≤ Z) :
    ∃ t0 t1 u0 u1 : List ℝ, (stretch Real.sqrt m s phase ref).2 = .ok (t0.map some, t1.map some) ∧
      (stretch Real.sqrt m' s' phase ref).2 = .ok (u0.map some, u1.map some) ∧
      NearTables (velocityBound (upper phase) δ v0 c s s' Z) t0 u0 ∧ NearTables (velocityBound (upper phase) δ v0 c ref ref Z) t1 u1 := by
  have hne' : upper phase ≠ [] := by simpa [upper] using hne
  have hlet' : ∀ x ∈ upper (upper phase), x = 'P' ∨ x = 'S' := by rw [upper_idem]; exact hletters
  obtain ⟨t, u, t1, u1, lt, c1⟩ := near_delayTimes δ v0 c s s' hv0 hc hδ m m' layers layers' hm hm' h (upper phase) hne' hlet' Z hZ
  obtain ⟨r, w, r1, w1, lr, c2⟩ := near_delayTimes δ v0 c ref ref hv0 hc hδ m m' layers layers' hm hm' href (upper phase) hne' hlet' Z hZ
  rw [upper_idem] at c1 c2
  have sgn : ∀ (ε : ℝ) (t u : List (Option ℝ)), List.Forall₂ (NearO ε) t u →
      List.Forall₂ (NearO ε) (if (upper phase).head? = some 'S' then negO t else t) (if (upper phase).head? = some 'S' then negO u else u) := by
    intro ε t u h
    split
    · exact nearO_neg _ _ _ h
    · exact h
  have d1 := sgn _ _ _ c1
  have d2 := sgn _ _ _ c2
  have l1 : (if (upper phase).head? = some 'S' then negO t else t).length = layers.length := by
    split <;> simp [negO, lt]
  have l2 : (if (upper phase).head? = some 'S' then negO r else r).length = layers.length := by
    split <;> simp [negO, lr]
  have l3 := d1.length_eq.symm.trans l1
  have l4 := d2.length_eq.symm.trans l2
  obtain ⟨n1, n2⟩ := nearO_noNaN _ _ _ d1
  obtain ⟨x0, y0, a1, a2, a3⟩ := nearO_tables _ _ _ (nearO_mirror _ _ _ d1)
  obtain ⟨x1, y1, b1, b2, b3⟩ := nearO_tables _ _ _ (nearO_mirror _ _ _ d2)
  refine ⟨x0, x1, y0, y1, ?_, ?_, a3, b3⟩
  · unfold stretch
    rw [if_neg (by omega)]
    have hc0 : lookupRef m.tRef (upper phase) = none := by rw [hcache]; rfl
    simp only [hc0, r1, t1, n1]
    rw [sliceTo_all, l1, ← l2, sliceTo_all, a1, b1]
  · unfold stretch
    rw [if_neg (by omega)]
    have hc0 : lookupRef m'.tRef (upper phase) = none := by rw [hcache']; rfl
    simp only [hc0, w1, u1, n2]
    rw [sliceTo_all, l3, ← l4, sliceTo_all, a2, b2]

/-- Given tables of the two models are near each other. -/
theorem given_tables (δ v0 c s s' ref : ℝ) (hv0 : 0 < v0) (hc : 0 < c) (hδ : 0 ≤ δ)
    (m m' : SimpleModel ℝ) (layers layers' : List (Layer ℝ)) (hm : IsLayered m layers) (hm' : IsLayered m' layers') (hcache : m.tRef = [])
    (hcache' : m'.tRef = []) (h : List.Forall₂ (NearLayer δ v0 c s s') layers layers')
    (href : List.Forall₂ (NearLayer δ v0 c ref ref) layers layers') (phase : Str) (hne : phase ≠ []) (heven : phase.length % 2 = 0)
    (hletters : ∀ x ∈ upper phase, x = 'P' ∨ x = 'S') (Z : ℝ) (hZ : (layers.map Layer.dz).sum ≤ Z)
    (t0 t1 t0' t1' : List ℝ) (ht : (stretch Real.sqrt m s phase ref).2 = .ok (t0.map some, t1.map some))
    (ht' : (stretch Real.sqrt m' s' phase ref).2 = .ok (t0'.map some, t1'.map some)) (ε : ℝ)
    (hε : ε = velocityBound (upper phase) δ v0 c s s' Z) : NearTables ε t0 t0' ∧ NearTables ε t1 t1' ∧ 0 ≤ ε := by
  obtain ⟨x0, x1, y0, y1, e1, e2, n0, n1⟩ := C224_tables δ v0 c s s' ref hv0 hc hδ m m' layers layers' hm hm' hcache hcache' h href phase hne heven
    hletters Z hZ
  have inj : ∀ x y : List ℝ, x.map some = y.map some → x = y := fun x y => (List.map_injective_iff.2 (Option.some_injective _)).eq_iff.1
  rw [ht] at e1
  rw [ht'] at e2
  injection e1 with e1
  injection e2 with e2
  obtain ⟨i1, i2⟩ := Prod.mk.inj e1
  obtain ⟨j1, j2⟩ := Prod.mk.inj e2
  obtain rfl := inj _ _ i1
  obtain rfl := inj _ _ i2
  obtain rfl := inj _ _ j1
  obtain rfl := inj _ _ j2
  have hZ0 : 0 ≤ Z := by
    refine le_trans ?_ hZ
    apply List.sum_nonneg
    intro x hx
    obtain ⟨l, hl, rfl⟩ := List.mem_map.1 hx
    obtain ⟨j, hj, rfl⟩ := List.getElem_of_mem hl
    exact ((List.forall₂_iff_get.1 h).2 j hj (by rw [← h.length_eq]; exact hj)).thick
  have hle : velocityBound (upper phase) δ v0 c ref ref Z ≤ ε := by
    rw [hε]
    unfold velocityBound
    rw [sub_self, abs_zero]
    have := abs_nonneg (s' - s)
    gcongr
  have hε0 : 0 ≤ ε := by
    rw [hε]
    unfold velocityBound
    positivity
  exact ⟨hε ▸ n0, ⟨n1.1, fun i hi => (n1.2 i hi).trans hle⟩, hε0⟩

/-- **C224**.  The samples after the move out correction with the two models and the two slownesses, for given tables of `stretch_delay_times`. -/
theorem C224_moveout (find : List ℝ → ℝ → Nat) (hfind : FindSpec find) (δ v0 c s s' ref : ℝ) (hv0 : 0 < v0) (hc : 0 < c) (hδ : 0 ≤ δ)
    (m m' : SimpleModel ℝ) (layers layers' : List (Layer ℝ)) (hm : IsLayered m layers) (hm' : IsLayered m' layers') (hcache : m.tRef = [])
    (hcache' : m'.tRef = []) (h : List.Forall₂ (NearLayer δ v0 c s s') layers layers')
    (href : List.Forall₂ (NearLayer δ v0 c ref ref) layers layers') (phase : Str) (hne : phase ≠ []) (heven : phase.length % 2 = 0)
    (hletters : ∀ x ∈ upper phase, x = 'P' ∨ x = 'S') (Z : ℝ) (hZ : (layers.map Layer.dz).sum ≤ Z)
    (t0 t1 t0' t1' : List ℝ) (ht : (stretch Real.sqrt m s phase ref).2 = .ok (t0.map some, t1.map some))
    (ht' : (stretch Real.sqrt m' s' phase ref).2 = .ok (t0'.map some, t1'.map some)) (ε : ℝ)
    (hε : ε = velocityBound (upper phase) δ v0 c s s' Z) (tr : Trace ℝ) (onset lo hi D : ℝ)
    (hlo : 0 < lo) (hhi : 0 ≤ hi) (hD : 0 ≤ D) (hlen : t0.length = t1.length) (h2 : 2 ≤ t0.length) (hs : Stretch lo hi t0 t1)
    (hord : t0'.getD 0 0 ≤ t0'.getD (t0.length - 1) 0)
    (a b a' b' : ℝ) (ha : getItem t0 (-1) = .ok a) (hb : getItem t1 (-1) = .ok b) (ha' : getItem t0' (-1) = .ok a')
    (hb' : getItem t1' (-1) = .ok b') (hcmp : a > b ↔ a' > b') (i0 : ℤ) (hi0 : i0 = if a > b then index0 tr onset + 1 else index0 tr onset)
    (old : List ℝ) (hold : old = sliceFrom tr.data i0) (hol : old.length = tr.npts - i0.toNat) (ho2 : 2 ≤ old.length) (hdt : 0 < tr.delta)
    (hdiff : ∀ i, i + 1 < old.length → |old.getD (i + 1) 0 - old.getD i 0| ≤ D)
    (hin : ∀ x ∈ timesFrom tr onset i0, t0.getD 0 0 ≤ x ∧ t0'.getD 0 0 ≤ x ∧ x ≤ t0.getD (t0.length - 1) 0)
    (hsmall : 2 * ((1 + 2 * hi) * ε) ≤ lo * tr.delta) :
    ∃ newt data data', moveoutP find tr onset t0 t1 = .ok (sliceTo tr.data i0 ++ data) ∧
      moveoutP find tr onset t0' t1' = .ok (sliceTo tr.data i0 ++ data') ∧
      interpAll find (timesFrom tr onset i0) t0 t1 (some 0) none = .ok newt ∧ newt.length = old.length ∧
      data.length = old.length ∧ data'.length = old.length ∧
      ∀ i < old.length, (1 + 2 * hi) * ε < |(timesFrom tr onset i0).getD i 0 - newt.getD (old.length - 1) 0| →
        |data'.getD i 0 - data.getD i 0| ≤ 2 * D * ((1 + 2 * hi) * ε) / (lo * tr.delta) := by
  obtain ⟨n0, n1, hε0⟩ := given_tables δ v0 c s s' ref hv0 hc hδ m m' layers layers' hm hm' hcache hcache' h href phase hne heven hletters Z hZ
    t0 t1 t0' t1' ht ht' ε hε
  exact C222_moveout find hfind tr onset t0 t1 t0' t1' lo hi ε D hlo hhi hε0 hD hlen h2 hs n0 n1
    hord a b a' b' ha hb ha' hb' hcmp i0 hi0 old hold hol ho2 hdt hdiff hin hsmall

/-- Three layers of together 75 km whose velocities are wrong by up to 1 %, the slowness 7 s/deg wrong by 0.01 s/deg: the delay times of
Ps have errors of less than 1.2 s. -/
example : ∃ t0 t1 u0 u1 : List ℝ,
    (stretch Real.sqrt ⟨[0, 2, 35], [2, 33, 40], [58 / 10, 65 / 10, 8], [336 / 100, 375 / 100, 447 / 100], []⟩ 7 "Ps".toList (64 / 10)).2 =
      .ok (t0.map some, t1.map some) ∧
    (stretch Real.sqrt ⟨[0, 2, 35], [2, 33, 40], [585 / 100, 65 / 10, 795 / 100], [337 / 100, 375 / 100, 447 / 100], []⟩ (701 / 100) "Ps".toList
      (64 / 10)).2 = .ok (u0.map some, u1.map some) ∧ NearTables (12 / 10) t0 u0 ∧ NearTables (12 / 10) t1 u1 := by
  have near : ∀ s s' : ℝ, 0 ≤ s → s ≤ 701 / 100 → 0 ≤ s' → s' ≤ 701 / 100 → List.Forall₂ (NearLayer (1 / 100) (336 / 100) (8 / 10) s s')
      [⟨58 / 10, 336 / 100, 2⟩, ⟨65 / 10, 375 / 100, 33⟩, ⟨8, 447 / 100, 40⟩]
      [⟨585 / 100, 337 / 100, 2⟩, ⟨65 / 10, 375 / 100, 33⟩, ⟨795 / 100, 447 / 100, 40⟩] := by
    intro s s' h1 h2 h3 h4
    have q : (s / (1112 / 10)) ^ 2 ≤ (701 / 100 / (1112 / 10)) ^ 2 := by gcongr
    have q' : (s' / (1112 / 10)) ^ 2 ≤ (701 / 100 / (1112 / 10)) ^ 2 := by gcongr
    refine .cons ?_ (.cons ?_ (.cons ?_ .nil))
    all_goals
      constructor
      all_goals first
        | exact q.trans (by norm_num)
        | exact q'.trans (by norm_num)
        | norm_num
  obtain ⟨t0, t1, u0, u1, h1, h2, h3, h4⟩ := C224_tables (1 / 100) (336 / 100) (8 / 10) 7 (701 / 100) (64 / 10) (by norm_num) (by norm_num) (by norm_num)
    ⟨[0, 2, 35], [2, 33, 40], [58 / 10, 65 / 10, 8], [336 / 100, 375 / 100, 447 / 100], []⟩
    ⟨[0, 2, 35], [2, 33, 40], [585 / 100, 65 / 10, 795 / 100], [337 / 100, 375 / 100, 447 / 100], []⟩ _ _ ⟨rfl, rfl, rfl⟩ ⟨rfl, rfl, rfl⟩ rfl rfl
    (near 7 (701 / 100) (by norm_num) (by norm_num) (by norm_num) (by norm_num))
    (near (64 / 10) (64 / 10) (by norm_num) (by norm_num) (by norm_num) (by norm_num)) "Ps".toList (by decide) (by decide) (by decide) 75 (by norm_num)
  have e1 : (upper "Ps".toList).count 'P' = 1 := by decide
  have e2 : (upper "Ps".toList).count 'S' = 1 := by decide
  refine ⟨t0, t1, u0, u1, h1, h2, ⟨h3.1, fun i hi => (h3.2 i hi).trans ?_⟩, ⟨h4.1, fun i hi => (h4.2 i hi).trans ?_⟩⟩
  · unfold velocityBound
    rw [e1, e2, abs_of_nonneg (by norm_num)]
    norm_num
  · unfold velocityBound
    rw [e1, e2]
    norm_num

/-- Delay times of Ps for vertical incidence in three layers with the thicknesses 0, 8 and 8 km. -/
theorem vertical_tables (vp vs x : ℝ) (hvp : 0 < vp) (hvs : 0 < vs) (hx : (1 / vs - 1 / vp) * 8 = x) :
    (stretch Real.sqrt ⟨[0, 0, 8], [0, 8, 8], [vp, vp, vp], [vs, vs, vs], []⟩ 0 "Ps".toList 0).2 =
      .ok ([-(x + x), -x, 0, x, x + x].map some, [-(x + x), -x, 0, x, x + x].map some) := by
  have d : delayTimes Real.sqrt ⟨[0, 0, 8], [0, 8, 8], [vp, vp, vp], [vs, vs, vs], []⟩ 0 "PS".toList = .ok [some 0, some x, some (x + x)] := by
    rw [C28_delay_times Real.sqrt _ [⟨vp, vs, 0⟩, ⟨vp, vs, 8⟩, ⟨vp, vs, 8⟩] rfl rfl rfl 0 "PS".toList (by decide) (by decide) (by
      intro l hl
      simp only [List.mem_cons, List.not_mem_nil, or_false] at hl
      rcases hl with rfl | rfl | rfl <;> constructor <;> (rw [zero_div, zero_pow two_ne_zero]; positivity))]
    have q : ∀ v : ℝ, 0 < v → qSpec Real.sqrt v 0 = 1 / v := by
      intro v hv
      unfold qSpec
      rw [zero_div, zero_pow two_ne_zero, sub_zero, ← one_div_pow, Real.sqrt_sq (by positivity)]
    have e1 : (upper "PS".toList).count 'P' = 1 := by decide
    have e2 : (upper "PS".toList).count 'S' = 1 := by decide
    have e3 : decide ((upper "PS".toList).head? = some 'P') = true := by decide
    rw [e1, e2, e3]
    simp only [List.length_cons, List.length_nil, List.range_succ, List.range_zero, List.nil_append, List.map_cons, List.map_append, List.map_nil,
      List.cons_append, delaySpec, List.take, List.sum_cons, List.sum_nil, q vp hvp, q vs hvs, ← hx]
    norm_num
    constructor <;> ring
  have eu : upper "Ps".toList = "PS".toList := by decide
  unfold stretch
  rw [if_neg (by decide), eu]
  have hc0 : lookupRef ([] : List (Str × List (Option ℝ))) "PS".toList = none := rfl
  simp only [hc0, d]
  have hh : ¬ ("PS".toList.head? = some 'S') := by decide
  simp only [if_neg hh]
  simp [firstNaN, List.findIdx?_cons, sliceTo, clampIdx, mirror, negO, slice]

/-- Vertical incidence, S velocities which are wrong by 0.2 %: all samples but those at the end of the record differ by less than 1. -/
example : ∃ newt data data',
    moveoutP npFind (⟨[], [], [], [], 0, 1, [9, 0, 1, 3, 2, 0], []⟩ : Trace ℝ) 1 [-4, -2, 0, 2, 4] [-4, -2, 0, 2, 4] = .ok ([9] ++ data) ∧
    moveoutP npFind (⟨[], [], [], [], 0, 1, [9, 0, 1, 3, 2, 0], []⟩ : Trace ℝ) 1 [-498 / 125, -249 / 125, 0, 249 / 125, 498 / 125]
      [-498 / 125, -249 / 125, 0, 249 / 125, 498 / 125] = .ok ([9] ++ data') ∧
    interpAll npFind (timesFrom (⟨[], [], [], [], 0, 1, [9, 0, 1, 3, 2, 0], []⟩ : Trace ℝ) 1 1) [-4, -2, 0, 2, 4] [-4, -2, 0, 2, 4] (some 0) none =
      .ok newt ∧ newt.length = 5 ∧ data.length = 5 ∧ data'.length = 5 ∧
    ∀ i < 5, (1 + 2 * 1) * (2 / 25) < |(timesFrom (⟨[], [], [], [], 0, 1, [9, 0, 1, 3, 2, 0], []⟩ : Trace ℝ) 1 1).getD i 0 - newt.getD 4 0| →
      |data'.getD i 0 - data.getD i 0| ≤ 2 * 2 * ((1 + 2 * 1) * (2 / 25)) / (1 * 1) := by
  have hδ : (⟨[], [], [], [], 0, 1, [9, 0, 1, 3, 2, 0], []⟩ : Trace ℝ).delta = 1 := by simp [Trace.delta]
  have near : List.Forall₂ (NearLayer (1 / 400) 2 1 0 0) [⟨4, 2, 0⟩, ⟨4, 2, 8⟩, ⟨4, 2, 8⟩]
      [⟨4, 1000 / 499, 0⟩, ⟨4, 1000 / 499, 8⟩, ⟨4, 1000 / 499, 8⟩] := by
    refine .cons ?_ (.cons ?_ (.cons ?_ .nil))
    all_goals
      constructor
      all_goals norm_num [abs_le]
  have times : timesFrom (⟨[], [], [], [], 0, 1, [9, 0, 1, 3, 2, 0], []⟩ : Trace ℝ) 1 1 = [0, 1, 2, 3, 4] := by
    unfold timesFrom
    rw [hδ]
    simp [Trace.npts, List.range_succ]
  have h := C224_moveout npFind npFind_spec (1 / 400) 2 1 0 0 0 (by norm_num) (by norm_num) (by norm_num)
    ⟨[0, 0, 8], [0, 8, 8], [4, 4, 4], [2, 2, 2], []⟩ ⟨[0, 0, 8], [0, 8, 8], [4, 4, 4], [1000 / 499, 1000 / 499, 1000 / 499], []⟩ _ _
    ⟨rfl, rfl, rfl⟩ ⟨rfl, rfl, rfl⟩ rfl rfl near near "Ps".toList (by decide) (by decide) (by decide) 16 (by norm_num)
    [-4, -2, 0, 2, 4] [-4, -2, 0, 2, 4] [-498 / 125, -249 / 125, 0, 249 / 125, 498 / 125] [-498 / 125, -249 / 125, 0, 249 / 125, 498 / 125]
    (by have := vertical_tables 4 2 2 (by norm_num) (by norm_num) (by norm_num)
        norm_num at this ⊢
        exact this)
    (by have := vertical_tables 4 (1000 / 499) (249 / 125) (by norm_num) (by norm_num) (by norm_num)
        norm_num at this ⊢
        exact this)
    (2 / 25) (by
      unfold velocityBound
      have e1 : (upper "Ps".toList).count 'P' = 1 := by decide
      have e2 : (upper "Ps".toList).count 'S' = 1 := by decide
      rw [e1, e2]
      norm_num)
    ⟨[], [], [], [], 0, 1, [9, 0, 1, 3, 2, 0], []⟩ 1 1 1 2 (by norm_num) (by norm_num) (by norm_num) rfl (by decide)
    (by intro i hi
        have : i = 0 ∨ i = 1 ∨ i = 2 ∨ i = 3 := by simp at hi; omega
        rcases this with rfl | rfl | rfl | rfl <;> norm_num)
    (by norm_num) 4 4 (498 / 125) (498 / 125) rfl rfl rfl rfl (by simp) 1 (by simp [index0]) [0, 1, 3, 2, 0] (by simp [sliceFrom, clampIdx])
    (by simp [Trace.npts]) (by simp) (by rw [hδ]; norm_num)
    (by intro i hi
        have : i = 0 ∨ i = 1 ∨ i = 2 ∨ i = 3 := by simp at hi; omega
        rcases this with rfl | rfl | rfl | rfl <;> norm_num [abs_le])
    (by intro x hx
        rw [times] at hx
        simp only [List.mem_cons, List.not_mem_nil, or_false] at hx
        rcases hx with rfl | rfl | rfl | rfl | rfl <;> norm_num)
    (by rw [hδ]; norm_num)
  rw [hδ] at h
  exact h

end Verif.Props
