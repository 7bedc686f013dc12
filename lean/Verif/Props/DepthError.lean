import Verif.Props.VelocityError
import Verif.Props.TableErrorS

/-!
# C226: small errors of the thickness of layers change the delay times little
-/

set_option linter.unusedSimpArgs false
set_option linter.unusedSectionVars false

namespace Verif.Spec

/-- The layers `l` and `l'` have the same velocities of at least `v0`, a ray with slowness `s` (s/deg) propagates in them. -/
structure SameVelocities (v0 s : ℝ) (l l' : Layer ℝ) : Prop where
  vp : l'.vp = l.vp
  vs : l'.vs = l.vs
  low : v0 ≤ l.vs
  order : l.vs ≤ l.vp
  propagates : (s / (1112 / 10)) ^ 2 ≤ 1 / l.vp ^ 2

/-- Sum of the absolute differences of the thickness of layers. -/
def thicknessError : List (Layer ℝ) → List (Layer ℝ) → ℝ
  | l :: ls, l' :: ls' => |l'.dz - l.dz| + thicknessError ls ls'
  | _, _ => 0

end Verif.Spec

namespace Verif.Props
open Verif.Py Verif.Model Verif.Model.Simple Verif.Spec

/-- A vertical slowness is not larger than the slowness of the layer. -/
theorem qSpec_le (v0 v s : ℝ) (h0 : 0 < v0) (hv : v0 ≤ v) : 0 ≤ qSpec Real.sqrt v s ∧ qSpec Real.sqrt v s ≤ 1 / v0 := by
  refine ⟨Real.sqrt_nonneg _, ?_⟩
  unfold qSpec
  rw [Real.sqrt_le_left (by positivity)]
  have h1 : 1 / v ^ 2 ≤ 1 / v0 ^ 2 := one_div_le_one_div_of_le (by positivity) (pow_le_pow_left₀ h0.le hv 2)
  have h2 : (1 / v0) ^ 2 = 1 / v0 ^ 2 := by rw [one_div_pow]
  nlinarith [sq_nonneg (s / (1112 / 10))]

theorem thickness_sum {f : Layer ℝ → ℝ} (C : ℝ) (R : Layer ℝ → Layer ℝ → Prop) (h : ∀ l l', R l l' → f l' = f l ∧ |f l| ≤ C)
    (L L' : List (Layer ℝ)) (hR : List.Forall₂ R L L') :
    |(L'.map fun l => f l * l.dz).sum - (L.map fun l => f l * l.dz).sum| ≤ C * thicknessError L L' := by
  induction hR with
  | nil => simp [thicknessError]
  | @cons a b l l' hab _ ih =>
    simp only [List.map_cons, List.sum_cons, thicknessError]
    obtain ⟨e1, e2⟩ := h a b hab
    have e : f b * b.dz + (l'.map fun l => f l * l.dz).sum - (f a * a.dz + (l.map fun l => f l * l.dz).sum) =
        f a * (b.dz - a.dz) + ((l'.map fun l => f l * l.dz).sum - (l.map fun l => f l * l.dz).sum) := by rw [e1]; ring
    rw [e, mul_add]
    refine (abs_add_le _ _).trans (add_le_add ?_ ih)
    rw [abs_mul]
    exact mul_le_mul_of_nonneg_right e2 (abs_nonneg _)

/-- **C226**.  The delay times of two models whose layers differ in thickness only. -/
theorem C226_delays (v0 s : ℝ) (hv0 : 0 < v0) (layers layers' : List (Layer ℝ)) (h : List.Forall₂ (SameVelocities v0 s) layers layers')
    (ph : Str) (k : Nat) :
    |delaySpec Real.sqrt (ph.count 'P') (ph.count 'S') (ph.head? = some 'P') layers' s k -
      delaySpec Real.sqrt (ph.count 'P') (ph.count 'S') (ph.head? = some 'P') layers s k|
      ≤ (ph.count 'P' + ph.count 'S' + 2 : ℝ) / v0 * thicknessError (layers.take (k + 1)) (layers'.take (k + 1)) := by
  unfold delaySpec
  refine thickness_sum _ (SameVelocities v0 s) ?_ _ _ (List.forall₂_take _ h)
  intro l l' n
  refine ⟨by rw [n.vp, n.vs], ?_⟩
  obtain ⟨p1, p2⟩ := qSpec_le v0 l.vp s hv0 (n.low.trans n.order)
  obtain ⟨q1, q2⟩ := qSpec_le v0 l.vs s hv0 n.low
  have r : 0 ≤ (if decide (ph.head? = some 'P') = true then qSpec Real.sqrt l.vp s else qSpec Real.sqrt l.vs s) ∧
      (if decide (ph.head? = some 'P') = true then qSpec Real.sqrt l.vp s else qSpec Real.sqrt l.vs s) ≤ 1 / v0 := by
    split
    · exact ⟨p1, p2⟩
    · exact ⟨q1, q2⟩
  generalize (if decide (ph.head? = some 'P') = true then qSpec Real.sqrt l.vp s else qSpec Real.sqrt l.vs s) = x at *
  generalize qSpec Real.sqrt l.vp s = a at *
  generalize qSpec Real.sqrt l.vs s = b at *
  have hP : (0 : ℝ) ≤ ((ph.count 'P' : ℕ) : ℝ) := Nat.cast_nonneg _
  have hS : (0 : ℝ) ≤ ((ph.count 'S' : ℕ) : ℝ) := Nat.cast_nonneg _
  have m1 := mul_le_mul_of_nonneg_left p2 hP
  have m2 := mul_le_mul_of_nonneg_left q2 hS
  have m3 := mul_nonneg hP p1
  have m4 := mul_nonneg hS q1
  have e : (ph.count 'P' + ph.count 'S' + 2 : ℝ) / v0 = ph.count 'P' * (1 / v0) + ph.count 'S' * (1 / v0) + 2 * (1 / v0) := by ring
  have m5 : 0 ≤ 1 / v0 := by positivity
  have m6 := mul_nonneg hP m5
  have m7 := mul_nonneg hS m5
  rw [e, abs_le]
  constructor <;> linarith [r.1, r.2]

theorem sameVelocities_propagate (v0 s : ℝ) (hv0 : 0 < v0) (layers layers' : List (Layer ℝ))
    (h : List.Forall₂ (SameVelocities v0 s) layers layers') : Propagates layers s ∧ Propagates layers' s := by
  have one : ∀ l l' : Layer ℝ, SameVelocities v0 s l l' → (s / (1112 / 10)) ^ 2 ≤ 1 / l.vp ^ 2 ∧ (s / (1112 / 10)) ^ 2 ≤ 1 / l.vs ^ 2 := by
    intro l l' n
    have hs : 0 < l.vs := hv0.trans_le n.low
    exact ⟨n.propagates, n.propagates.trans (one_div_le_one_div_of_le (by positivity) (pow_le_pow_left₀ hs.le n.order 2))⟩
  unfold Propagates
  induction h with
  | nil => simp
  | cons n _ ih =>
    constructor
    · rintro l hl
      rcases List.mem_cons.1 hl with rfl | hl
      · exact one _ _ n
      · exact ih.1 l hl
    · rintro l hl
      rcases List.mem_cons.1 hl with rfl | hl
      · rw [n.vp, n.vs]; exact one _ _ n
      · exact ih.2 l hl

/-- **C226**.  `calculate_delay_times` for two models whose layers differ in thickness only: numbers for all layers, which differ by at most
`(nP + nS + 2) / v0` times the summed errors of the thickness of the layers above. -/
theorem C226_delay_times (v0 s : ℝ) (hv0 : 0 < v0) (m m' : SimpleModel ℝ) (layers layers' : List (Layer ℝ)) (hm : IsLayered m layers)
    (hm' : IsLayered m' layers') (h : List.Forall₂ (SameVelocities v0 s) layers layers') (phase : Str) (hne : phase ≠ [])
    (hletters : ∀ x ∈ upper phase, x = 'P' ∨ x = 'S') :
    ∃ t u : List ℝ, delayTimes Real.sqrt m s phase = .ok (t.map some) ∧ delayTimes Real.sqrt m' s phase = .ok (u.map some) ∧
      t.length = layers.length ∧ u.length = layers.length ∧ ∀ k, k < layers.length →
        |u.getD k 0 - t.getD k 0| ≤ ((upper phase).count 'P' + (upper phase).count 'S' + 2 : ℝ) / v0 *
          thicknessError (layers.take (k + 1)) (layers'.take (k + 1)) := by
  obtain ⟨p1, p2⟩ := sameVelocities_propagate v0 s hv0 layers layers' h
  have hlen := h.length_eq
  have d1 := C28_delay_times Real.sqrt m layers hm.1 hm.2.1 hm.2.2 s phase hne hletters p1
  have d2 := C28_delay_times Real.sqrt m' layers' hm'.1 hm'.2.1 hm'.2.2 s phase hne hletters p2
  let f := fun (L : List (Layer ℝ)) k => delaySpec Real.sqrt ((upper phase).count 'P') ((upper phase).count 'S') ((upper phase).head? = some 'P') L s k
  refine ⟨(List.range layers.length).map (f layers), (List.range layers'.length).map (f layers'), ?_, ?_, by simp, by simp [hlen], ?_⟩
  · rw [d1, List.map_map]; rfl
  · rw [d2, List.map_map]; rfl
  · intro k hk
    have hk' : k < layers'.length := hlen ▸ hk
    have := C226_delays v0 s hv0 layers layers' h (upper phase) k
    simpa [List.getD, hk, hk', f] using this

theorem thicknessError_nonneg (L L' : List (Layer ℝ)) : 0 ≤ thicknessError L L' := by
  induction L generalizing L' with
  | nil => simp [thicknessError]
  | cons a l ih =>
    cases L' with
    | nil => simp [thicknessError]
    | cons b l' => exact add_nonneg (abs_nonneg _) (ih l')

theorem thicknessError_take (L L' : List (Layer ℝ)) (k : Nat) : thicknessError (L.take k) (L'.take k) ≤ thicknessError L L' := by
  induction L generalizing L' k with
  | nil => simp [thicknessError]
  | cons a l ih =>
    cases k with
    | zero => simpa [thicknessError] using thicknessError_nonneg (a :: l) L'
    | succ k =>
      cases L' with
      | nil => simp [thicknessError]
      | cons b l' =>
        simp only [List.take_succ_cons, thicknessError]
        linarith [ih l' k]

/-- Bound of the errors of delay times of the phase `ph` for all depths. -/
noncomputable def thicknessBound (ph : Str) (v0 : ℝ) (L L' : List (Layer ℝ)) : ℝ :=
  (ph.count 'P' + ph.count 'S' + 2 : ℝ) / v0 * thicknessError L L'

theorem thickness_delayTimes (v0 s : ℝ) (hv0 : 0 < v0) (m m' : SimpleModel ℝ) (layers layers' : List (Layer ℝ)) (hm : IsLayered m layers)
    (hm' : IsLayered m' layers') (h : List.Forall₂ (SameVelocities v0 s) layers layers') (phase : Str) (hne : phase ≠ [])
    (hletters : ∀ x ∈ upper phase, x = 'P' ∨ x = 'S') :
    ∃ t u, delayTimes Real.sqrt m s phase = .ok t ∧ delayTimes Real.sqrt m' s phase = .ok u ∧ t.length = layers.length ∧
      List.Forall₂ (NearO (thicknessBound (upper phase) v0 layers layers')) t u := by
  obtain ⟨p1, p2⟩ := sameVelocities_propagate v0 s hv0 layers layers' h
  have hlen := h.length_eq
  refine ⟨_, _, C28_delay_times Real.sqrt m layers hm.1 hm.2.1 hm.2.2 s phase hne hletters p1,
    C28_delay_times Real.sqrt m' layers' hm'.1 hm'.2.1 hm'.2.2 s phase hne hletters p2, by simp, ?_⟩
  rw [List.forall₂_iff_get]
  refine ⟨by simp [hlen], fun i hi hj => ?_⟩
  refine ⟨_, _, by simp; rfl, by simp; rfl, ?_⟩
  refine (C226_delays v0 s hv0 layers layers' h (upper phase) i).trans ?_
  unfold thicknessBound
  have := thicknessError_take layers layers' (i + 1)
  gcongr

/-- **C226**.  The two tables of `stretch_delay_times` for two models whose layers differ in thickness only: no NaN, same lengths, entries which
differ by at most the bound. -/
theorem C226_tables (v0 s ref : ℝ) (hv0 : 0 < v0) (m m' : SimpleModel ℝ) (layers layers' : List (Layer ℝ)) (hm : IsLayered m layers)
    (hm' : IsLayered m' layers') (hcache : m.tRef = []) (hcache' : m'.tRef = []) (h : List.Forall₂ (SameVelocities v0 s) layers layers')
    (href : List.Forall₂ (SameVelocities v0 ref) layers layers') (phase : Str)
    (hne : phase ≠ []) (heven : phase.length % 2 = 0) (hletters : ∀ x ∈ upper phase, x = 'P' ∨ x = 'S') :
    ∃ t0 t1 u0 u1 : List ℝ, (stretch Real.sqrt m s phase ref).2 = .ok (t0.map some, t1.map some) ∧
      (stretch Real.sqrt m' s phase ref).2 = .ok (u0.map some, u1.map some) ∧
      NearTables (thicknessBound (upper phase) v0 layers layers') t0 u0 ∧ NearTables (thicknessBound (upper phase) v0 layers layers') t1 u1 := by
  have hne' : upper phase ≠ [] := by simpa [upper] using hne
  have hlet' : ∀ x ∈ upper (upper phase), x = 'P' ∨ x = 'S' := by rw [upper_idem]; exact hletters
  obtain ⟨t, u, t1, u1, lt, c1⟩ := thickness_delayTimes v0 s hv0 m m' layers layers' hm hm' h (upper phase) hne' hlet'
  obtain ⟨r, w, r1, w1, lr, c2⟩ := thickness_delayTimes v0 ref hv0 m m' layers layers' hm hm' href (upper phase) hne' hlet'
  rw [upper_idem] at c1 c2
  have sgn : ∀ (ε : ℝ) (t u : List (Option ℝ)), List.Forall₂ (NearO ε) t u →
      List.Forall₂ (NearO ε) (if (upper phase).head? = some 'S' then negO t else t) (if (upper phase).head? = some 'S' then negO u else u) := by
    intro ε t u h
    split
    · exact nearO_neg _ _ _ h
    · exact h
  have d1 := sgn _ _ _ c1
  have d2 := sgn _ _ _ c2
  have l1 : (if (upper phase).head? = some 'S' then negO t else t).length = layers.length := by
    split <;> simp [negO, lt]
  have l2 : (if (upper phase).head? = some 'S' then negO r else r).length = layers.length := by
    split <;> simp [negO, lr]
  have l3 := d1.length_eq.symm.trans l1
  have l4 := d2.length_eq.symm.trans l2
  obtain ⟨n1, n2⟩ := nearO_noNaN _ _ _ d1
  obtain ⟨x0, y0, a1, a2, a3⟩ := nearO_tables _ _ _ (nearO_mirror _ _ _ d1)
  obtain ⟨x1, y1, b1, b2, b3⟩ := nearO_tables _ _ _ (nearO_mirror _ _ _ d2)
  refine ⟨x0, x1, y0, y1, ?_, ?_, a3, b3⟩
  · unfold stretch
    rw [if_neg (by omega)]
    have hc0 : lookupRef m.tRef (upper phase) = none := by rw [hcache]; rfl
    simp only [hc0, r1, t1, n1]
    rw [sliceTo_all, l1, ← l2, sliceTo_all, a1, b1]
  · unfold stretch
    rw [if_neg (by omega)]
    have hc0 : lookupRef m'.tRef (upper phase) = none := by rw [hcache']; rfl
    simp only [hc0, w1, u1, n2]
    rw [sliceTo_all, l3, ← l4, sliceTo_all, a2, b2]

/-- **C226**.  The samples after the move out correction with the two models whose layers differ in thickness only, for given tables of `stretch_delay_times`. -/
theorem C226_moveout (find : List ℝ → ℝ → Nat) (hfind : FindSpec find) (v0 s ref : ℝ) (hv0 : 0 < v0)
    (m m' : SimpleModel ℝ) (layers layers' : List (Layer ℝ)) (hm : IsLayered m layers) (hm' : IsLayered m' layers') (hcache : m.tRef = [])
    (hcache' : m'.tRef = []) (h : List.Forall₂ (SameVelocities v0 s) layers layers')
    (href : List.Forall₂ (SameVelocities v0 ref) layers layers') (phase : Str) (hne : phase ≠ []) (heven : phase.length % 2 = 0)
    (hletters : ∀ x ∈ upper phase, x = 'P' ∨ x = 'S')
    (t0 t1 t0' t1' : List ℝ) (ht : (stretch Real.sqrt m s phase ref).2 = .ok (t0.map some, t1.map some))
    (ht' : (stretch Real.sqrt m' s phase ref).2 = .ok (t0'.map some, t1'.map some)) (ε : ℝ)
    (hε : ε = thicknessBound (upper phase) v0 layers layers') (tr : Trace ℝ) (onset lo hi D : ℝ)
    (hlo : 0 < lo) (hhi : 0 ≤ hi) (hD : 0 ≤ D) (hlen : t0.length = t1.length) (h2 : 2 ≤ t0.length) (hs : Stretch lo hi t0 t1)
    (hord : t0'.getD 0 0 ≤ t0'.getD (t0.length - 1) 0)
    (a b a' b' : ℝ) (ha : getItem t0 (-1) = .ok a) (hb : getItem t1 (-1) = .ok b) (ha' : getItem t0' (-1) = .ok a')
    (hb' : getItem t1' (-1) = .ok b') (hcmp : a > b ↔ a' > b') (i0 : ℤ) (hi0 : i0 = if a > b then index0 tr onset + 1 else index0 tr onset)
    (old : List ℝ) (hold : old = sliceFrom tr.data i0) (hol : old.length = tr.npts - i0.toNat) (ho2 : 2 ≤ old.length) (hdt : 0 < tr.delta)
    (hdiff : ∀ i, i + 1 < old.length → |old.getD (i + 1) 0 - old.getD i 0| ≤ D)
    (hin : ∀ x ∈ timesFrom tr onset i0, t0.getD 0 0 ≤ x ∧ t0'.getD 0 0 ≤ x ∧ x ≤ t0.getD (t0.length - 1) 0)
    (hsmall : 2 * ((1 + 2 * hi) * ε) ≤ lo * tr.delta) :
    ∃ newt data data', moveoutP find tr onset t0 t1 = .ok (sliceTo tr.data i0 ++ data) ∧
      moveoutP find tr onset t0' t1' = .ok (sliceTo tr.data i0 ++ data') ∧
      interpAll find (timesFrom tr onset i0) t0 t1 (some 0) none = .ok newt ∧ newt.length = old.length ∧
      data.length = old.length ∧ data'.length = old.length ∧
      ∀ i < old.length, (1 + 2 * hi) * ε < |(timesFrom tr onset i0).getD i 0 - newt.getD (old.length - 1) 0| →
        |data'.getD i 0 - data.getD i 0| ≤ 2 * D * ((1 + 2 * hi) * ε) / (lo * tr.delta) := by
  obtain ⟨x0, x1, y0, y1, e1, e2, n0, n1⟩ := C226_tables v0 s ref hv0 m m' layers layers' hm hm' hcache hcache' h href phase hne heven hletters
  have inj : ∀ x y : List ℝ, x.map some = y.map some → x = y := fun x y => (List.map_injective_iff.2 (Option.some_injective _)).eq_iff.1
  rw [ht] at e1
  rw [ht'] at e2
  injection e1 with e1
  injection e2 with e2
  obtain ⟨i1, i2⟩ := Prod.mk.inj e1
  obtain ⟨j1, j2⟩ := Prod.mk.inj e2
  obtain rfl := inj _ _ i1
  obtain rfl := inj _ _ i2
  obtain rfl := inj _ _ j1
  obtain rfl := inj _ _ j2
  rw [← hε] at n0 n1
  have hε0 : 0 ≤ ε := by
    rw [hε]
    unfold thicknessBound
    have := thicknessError_nonneg layers layers'
    positivity
  exact C222_moveout find hfind tr onset t0 t1 t0' t1' lo hi ε D hlo hhi hε0 hD hlen h2 hs n0 n1
    hord a b a' b' ha hb ha' hb' hcmp i0 hi0 old hold hol ho2 hdt hdiff hin hsmall

/-- **C226** (S multiples).  The samples after the move out correction of S multiples with the two models whose layers differ in thickness only. -/
theorem C226_multiple (find : List ℝ → ℝ → Nat) (hfind : FindSpec find) (v0 s ref : ℝ) (hv0 : 0 < v0)
    (m m' : SimpleModel ℝ) (layers layers' : List (Layer ℝ)) (hm : IsLayered m layers) (hm' : IsLayered m' layers') (hcache : m.tRef = [])
    (hcache' : m'.tRef = []) (h : List.Forall₂ (SameVelocities v0 s) layers layers')
    (href : List.Forall₂ (SameVelocities v0 ref) layers layers') (phase : Str) (hne : phase ≠ []) (heven : phase.length % 2 = 0)
    (hletters : ∀ x ∈ upper phase, x = 'P' ∨ x = 'S')
    (t0 t1 t0' t1' : List ℝ) (ht : (stretch Real.sqrt m s phase ref).2 = .ok (t0.map some, t1.map some))
    (ht' : (stretch Real.sqrt m' s phase ref).2 = .ok (t0'.map some, t1'.map some)) (ε : ℝ)
    (hε : ε = thicknessBound (upper phase) v0 layers layers') (tr : Trace ℝ) (onset lo hi D : ℝ)
    (hlo : 0 < lo) (hhi : 0 ≤ hi) (hD : 0 ≤ D) (hlen : t0.length = t1.length) (h2 : 2 ≤ t0.length)
    (hs : Stretch lo hi (opposite t0) (opposite t1))
    (hord : (opposite t0').getD 0 0 ≤ (opposite t0').getD (t0.length - 1) 0) (i0 : ℤ) (hi0 : i0 = index0 tr onset)
    (old : List ℝ) (hold : old = (sliceTo tr.data i0).reverse) (hol : old.length = i0.toNat) (ho2 : 2 ≤ old.length) (hdt : 0 < tr.delta)
    (hdiff : ∀ i, i + 1 < old.length → |old.getD (i + 1) 0 - old.getD i 0| ≤ D)
    (hin : ∀ x ∈ timesBefore tr onset i0, (opposite t0).getD 0 0 ≤ x ∧ x ≤ (opposite t0).getD (t0.length - 1) 0)
    (hin' : ∀ x ∈ timesBefore tr onset i0, (opposite t0').getD 0 0 ≤ x ∧ x ≤ (opposite t0').getD (t0.length - 1) 0)
    (hsmall : 2 * ((1 + 2 * hi) * ε) ≤ lo * tr.delta) :
    ∃ newt data data' : List ℝ, moveoutS find tr onset t0 t1 = .ok (data.reverse ++ sliceFrom tr.data i0) ∧
      moveoutS find tr onset t0' t1' = .ok (data'.reverse ++ sliceFrom tr.data i0) ∧
      interpAll find (timesBefore tr onset i0) (opposite t0) (opposite t1) (some 0) (some 0) = .ok newt ∧ newt.length = old.length ∧
      data.length = old.length ∧ data'.length = old.length ∧
      ∀ i < old.length, (1 + 2 * hi) * ε < |(timesBefore tr onset i0).getD i 0 - newt.getD (old.length - 1) 0| →
        (1 + 2 * hi) * ε < |(timesBefore tr onset i0).getD i 0 - newt.getD 0 0| →
        |data'.getD i 0 - data.getD i 0| ≤ 2 * D * ((1 + 2 * hi) * ε) / (lo * tr.delta) := by
  obtain ⟨x0, x1, y0, y1, e1, e2, n0, n1⟩ := C226_tables v0 s ref hv0 m m' layers layers' hm hm' hcache hcache' h href phase hne heven hletters
  have inj : ∀ x y : List ℝ, x.map some = y.map some → x = y := fun x y => (List.map_injective_iff.2 (Option.some_injective _)).eq_iff.1
  rw [ht] at e1
  rw [ht'] at e2
  injection e1 with e1
  injection e2 with e2
  obtain ⟨i1, i2⟩ := Prod.mk.inj e1
  obtain ⟨j1, j2⟩ := Prod.mk.inj e2
  obtain rfl := inj _ _ i1
  obtain rfl := inj _ _ i2
  obtain rfl := inj _ _ j1
  obtain rfl := inj _ _ j2
  rw [← hε] at n0 n1
  have hε0 : 0 ≤ ε := by
    rw [hε]
    unfold thicknessBound
    have := thicknessError_nonneg layers layers'
    positivity
  exact C222_multiple find hfind tr onset t0 t1 t0' t1' lo hi ε D hlo hhi hε0 hD hlen h2 hs n0 n1 hord i0 hi0 old hold hol ho2 hdt hdiff hin hin' hsmall

/-- A Moho at a depth of 35 instead of 32 km: the delay times of Ps at the Moho differ by at most 4 / 3 * 3 = 4 s. -/
example : ∃ t u : List ℝ,
    delayTimes Real.sqrt { z := [0, 32], vp := [6, 8], vs := [3, 4], dz := [32, 20], tRef := [] } 6 "Ps".toList = .ok (t.map some) ∧
    delayTimes Real.sqrt { z := [0, 35], vp := [6, 8], vs := [3, 4], dz := [35, 17], tRef := [] } 6 "Ps".toList = .ok (u.map some) ∧
    |u.getD 0 0 - t.getD 0 0| ≤ 4 := by
  obtain ⟨t, u, h1, h2, _, _, h3⟩ := C226_delay_times 3 6 (by norm_num)
    { z := [0, 32], vp := [6, 8], vs := [3, 4], dz := [32, 20], tRef := [] }
    { z := [0, 35], vp := [6, 8], vs := [3, 4], dz := [35, 17], tRef := [] }
    [⟨6, 3, 32⟩, ⟨8, 4, 20⟩] [⟨6, 3, 35⟩, ⟨8, 4, 17⟩] ⟨rfl, rfl, rfl⟩ ⟨rfl, rfl, rfl⟩
    (.cons ⟨rfl, rfl, by norm_num, by norm_num, by norm_num⟩ (.cons ⟨rfl, rfl, by norm_num, by norm_num, by norm_num⟩ .nil))
    "Ps".toList (by decide) (by decide)
  refine ⟨t, u, h1, h2, (h3 0 (by simp)).trans ?_⟩
  have c1 : (upper "Ps".toList).count 'P' = 1 := by decide
  have c2 : (upper "Ps".toList).count 'S' = 1 := by decide
  rw [c1, c2]
  simp [thicknessError]
  norm_num [abs_of_pos]

/-- The tables for the two depths of the Moho: errors of at most 8 s, as the thickness of the second layer is wrong, too. -/
example : ∃ t0 t1 u0 u1 : List ℝ,
    (stretch Real.sqrt { z := [0, 32], vp := [6, 8], vs := [3, 4], dz := [32, 20], tRef := [] } 6 "Ps".toList (64 / 10)).2 =
      .ok (t0.map some, t1.map some) ∧
    (stretch Real.sqrt { z := [0, 35], vp := [6, 8], vs := [3, 4], dz := [35, 17], tRef := [] } 6 "Ps".toList (64 / 10)).2 =
      .ok (u0.map some, u1.map some) ∧ NearTables 8 t0 u0 ∧ NearTables 8 t1 u1 := by
  have near : ∀ s : ℝ, 0 ≤ s → s ≤ 7 → List.Forall₂ (SameVelocities 3 s) [⟨6, 3, 32⟩, ⟨8, 4, 20⟩] [⟨6, 3, 35⟩, ⟨8, 4, 17⟩] := by
    intro s h1 h2
    have q : (s / (1112 / 10)) ^ 2 ≤ (7 / (1112 / 10)) ^ 2 := by gcongr
    exact .cons ⟨rfl, rfl, by norm_num, by norm_num, q.trans (by norm_num)⟩ (.cons ⟨rfl, rfl, by norm_num, by norm_num, q.trans (by norm_num)⟩ .nil)
  obtain ⟨t0, t1, u0, u1, h1, h2, h3, h4⟩ := C226_tables 3 6 (64 / 10) (by norm_num)
    { z := [0, 32], vp := [6, 8], vs := [3, 4], dz := [32, 20], tRef := [] }
    { z := [0, 35], vp := [6, 8], vs := [3, 4], dz := [35, 17], tRef := [] } _ _ ⟨rfl, rfl, rfl⟩ ⟨rfl, rfl, rfl⟩ rfl rfl
    (near 6 (by norm_num) (by norm_num)) (near (64 / 10) (by norm_num) (by norm_num)) "Ps".toList (by decide) (by decide) (by decide)
  have c1 : (upper "Ps".toList).count 'P' = 1 := by decide
  have c2 : (upper "Ps".toList).count 'S' = 1 := by decide
  have e : thicknessBound (upper "Ps".toList) 3 [⟨6, 3, 32⟩, ⟨8, 4, 20⟩] [⟨6, 3, 35⟩, ⟨8, 4, 17⟩] = 8 := by
    unfold thicknessBound
    rw [c1, c2]
    simp [thicknessError]
    norm_num [abs_of_pos, abs_of_neg]
  rw [e] at h3 h4
  exact ⟨t0, t1, u0, u1, h1, h2, h3, h4⟩

/-- Delay times of Ps for vertical incidence in three layers with the thicknesses 0, `a` and `b`, P velocity 4 and S velocity 2. -/
theorem vertical_thickness (a b x y : ℝ) (hx : a / 4 = x) (hy : (a + b) / 4 = y) :
    (stretch Real.sqrt ⟨[0, 0, a], [0, a, b], [4, 4, 4], [2, 2, 2], []⟩ 0 "Ps".toList 0).2 =
      .ok ([-y, -x, 0, x, y].map some, [-y, -x, 0, x, y].map some) := by
  have d : delayTimes Real.sqrt ⟨[0, 0, a], [0, a, b], [4, 4, 4], [2, 2, 2], []⟩ 0 "PS".toList = .ok [some 0, some x, some y] := by
    rw [C28_delay_times Real.sqrt _ [⟨4, 2, 0⟩, ⟨4, 2, a⟩, ⟨4, 2, b⟩] rfl rfl rfl 0 "PS".toList (by decide) (by decide) (by
      intro l hl
      simp only [List.mem_cons, List.not_mem_nil, or_false] at hl
      rcases hl with rfl | rfl | rfl <;> constructor <;> (rw [zero_div, zero_pow two_ne_zero]; positivity))]
    have q : ∀ v : ℝ, 0 < v → qSpec Real.sqrt v 0 = 1 / v := by
      intro v hv
      unfold qSpec
      rw [zero_div, zero_pow two_ne_zero, sub_zero, ← one_div_pow, Real.sqrt_sq (by positivity)]
    have e1 : (upper "PS".toList).count 'P' = 1 := by decide
    have e2 : (upper "PS".toList).count 'S' = 1 := by decide
    have e3 : decide ((upper "PS".toList).head? = some 'P') = true := by decide
    rw [e1, e2, e3]
    simp only [List.length_cons, List.length_nil, List.range_succ, List.range_zero, List.nil_append, List.map_cons, List.map_append, List.map_nil,
      List.cons_append, delaySpec, List.take, List.sum_cons, List.sum_nil, q 4 (by norm_num), q 2 (by norm_num), ← hx, ← hy]
    norm_num
    constructor <;> ring
  have eu : upper "Ps".toList = "PS".toList := by decide
  unfold stretch
  rw [if_neg (by decide), eu]
  have hc0 : lookupRef ([] : List (Str × List (Option ℝ))) "PS".toList = none := rfl
  simp only [hc0, d]
  have hh : ¬ ("PS".toList.head? = some 'S') := by decide
  simp only [if_neg hh]
  simp [firstNaN, List.findIdx?_cons, sliceTo, clampIdx, mirror, negO, slice]

/-- Vertical incidence, the first interface 40 m too high: all samples but those at the end of the record differ by less than 1. -/
example : ∃ newt data data',
    moveoutP npFind (⟨[], [], [], [], 0, 1, [9, 0, 1, 3, 2, 0], []⟩ : Trace ℝ) 1 [-4, -2, 0, 2, 4] [-4, -2, 0, 2, 4] = .ok ([9] ++ data) ∧
    moveoutP npFind (⟨[], [], [], [], 0, 1, [9, 0, 1, 3, 2, 0], []⟩ : Trace ℝ) 1 [-399 / 100, -199 / 100, 0, 199 / 100, 399 / 100]
      [-399 / 100, -199 / 100, 0, 199 / 100, 399 / 100] = .ok ([9] ++ data') ∧
    interpAll npFind (timesFrom (⟨[], [], [], [], 0, 1, [9, 0, 1, 3, 2, 0], []⟩ : Trace ℝ) 1 1) [-4, -2, 0, 2, 4] [-4, -2, 0, 2, 4] (some 0) none =
      .ok newt ∧ newt.length = 5 ∧ data.length = 5 ∧ data'.length = 5 ∧
    ∀ i < 5, (1 + 2 * 1) * (2 / 25) < |(timesFrom (⟨[], [], [], [], 0, 1, [9, 0, 1, 3, 2, 0], []⟩ : Trace ℝ) 1 1).getD i 0 - newt.getD 4 0| →
      |data'.getD i 0 - data.getD i 0| ≤ 2 * 2 * ((1 + 2 * 1) * (2 / 25)) / (1 * 1) := by
  have hδ : (⟨[], [], [], [], 0, 1, [9, 0, 1, 3, 2, 0], []⟩ : Trace ℝ).delta = 1 := by simp [Trace.delta]
  have near : List.Forall₂ (SameVelocities 2 0) [⟨4, 2, 0⟩, ⟨4, 2, 8⟩, ⟨4, 2, 8⟩]
      [⟨4, 2, 0⟩, ⟨4, 2, 199 / 25⟩, ⟨4, 2, 8⟩] := by
    refine .cons ?_ (.cons ?_ (.cons ?_ .nil))
    all_goals
      constructor
      all_goals norm_num [abs_le]
  have times : timesFrom (⟨[], [], [], [], 0, 1, [9, 0, 1, 3, 2, 0], []⟩ : Trace ℝ) 1 1 = [0, 1, 2, 3, 4] := by
    unfold timesFrom
    rw [hδ]
    simp [Trace.npts, List.range_succ]
  have h := C226_moveout npFind npFind_spec 2 0 0 (by norm_num)
    ⟨[0, 0, 8], [0, 8, 8], [4, 4, 4], [2, 2, 2], []⟩ ⟨[0, 0, 199 / 25], [0, 199 / 25, 8], [4, 4, 4], [2, 2, 2], []⟩ _ _
    ⟨rfl, rfl, rfl⟩ ⟨rfl, rfl, rfl⟩ rfl rfl near near "Ps".toList (by decide) (by decide) (by decide)
    [-4, -2, 0, 2, 4] [-4, -2, 0, 2, 4] [-399 / 100, -199 / 100, 0, 199 / 100, 399 / 100] [-399 / 100, -199 / 100, 0, 199 / 100, 399 / 100]
    (by have := vertical_thickness 8 8 2 4 (by norm_num) (by norm_num)
        norm_num at this ⊢
        exact this)
    (by have := vertical_thickness (199 / 25) 8 (199 / 100) (399 / 100) (by norm_num) (by norm_num)
        norm_num at this ⊢
        exact this)
    (2 / 25) (by
      unfold thicknessBound
      have e1 : (upper "Ps".toList).count 'P' = 1 := by decide
      have e2 : (upper "Ps".toList).count 'S' = 1 := by decide
      rw [e1, e2]
      simp [thicknessError]
      norm_num [abs_of_pos, abs_of_neg])
    ⟨[], [], [], [], 0, 1, [9, 0, 1, 3, 2, 0], []⟩ 1 1 1 2 (by norm_num) (by norm_num) (by norm_num) rfl (by decide)
    (by intro i hi
        have : i = 0 ∨ i = 1 ∨ i = 2 ∨ i = 3 := by simp at hi; omega
        rcases this with rfl | rfl | rfl | rfl <;> norm_num)
    (by norm_num) 4 4 (399 / 100) (399 / 100) rfl rfl rfl rfl (by simp) 1 (by simp [index0]) [0, 1, 3, 2, 0] (by simp [sliceFrom, clampIdx])
    (by simp [Trace.npts]) (by simp) (by rw [hδ]; norm_num)
    (by intro i hi
        have : i = 0 ∨ i = 1 ∨ i = 2 ∨ i = 3 := by simp at hi; omega
        rcases this with rfl | rfl | rfl | rfl <;> norm_num [abs_le])
    (by intro x hx
        rw [times] at hx
        simp only [List.mem_cons, List.not_mem_nil, or_false] at hx
        rcases hx with rfl | rfl | rfl | rfl | rfl <;> norm_num)
    (by rw [hδ]; norm_num)
  rw [hδ] at h
  exact h

/-- Delay times of Sssp for vertical incidence in three layers with the thicknesses 0, `a` and `b`, P velocity 4 and S velocity 2. -/
theorem vertical_thickness_S (a b x y : ℝ) (hx : 3 / 4 * a = x) (hy : 3 / 4 * (a + b) = y) :
    (stretch Real.sqrt ⟨[0, 0, a], [0, a, b], [4, 4, 4], [2, 2, 2], []⟩ 0 "Sssp".toList 0).2 =
      .ok ([y, x, 0, -x, -y].map some, [y, x, 0, -x, -y].map some) := by
  have d : delayTimes Real.sqrt ⟨[0, 0, a], [0, a, b], [4, 4, 4], [2, 2, 2], []⟩ 0 "SSSP".toList = .ok [some 0, some x, some y] := by
    rw [C28_delay_times Real.sqrt _ [⟨4, 2, 0⟩, ⟨4, 2, a⟩, ⟨4, 2, b⟩] rfl rfl rfl 0 "SSSP".toList (by decide) (by decide) (by
      intro l hl
      simp only [List.mem_cons, List.not_mem_nil, or_false] at hl
      rcases hl with rfl | rfl | rfl <;> constructor <;> (rw [zero_div, zero_pow two_ne_zero]; positivity))]
    have q : ∀ v : ℝ, 0 < v → qSpec Real.sqrt v 0 = 1 / v := by
      intro v hv
      unfold qSpec
      rw [zero_div, zero_pow two_ne_zero, sub_zero, ← one_div_pow, Real.sqrt_sq (by positivity)]
    have e1 : (upper "SSSP".toList).count 'P' = 1 := by decide
    have e2 : (upper "SSSP".toList).count 'S' = 3 := by decide
    have e3 : decide ((upper "SSSP".toList).head? = some 'P') = false := by decide
    rw [e1, e2, e3]
    simp only [List.length_cons, List.length_nil, List.range_succ, List.range_zero, List.nil_append, List.map_cons, List.map_append, List.map_nil,
      List.cons_append, delaySpec, List.take, List.sum_cons, List.sum_nil, q 4 (by norm_num), q 2 (by norm_num), ← hx, ← hy]
    norm_num
    ring
  have eu : upper "Sssp".toList = "SSSP".toList := by decide
  unfold stretch
  rw [if_neg (by decide), eu]
  have hc0 : lookupRef ([] : List (Str × List (Option ℝ))) "SSSP".toList = none := rfl
  simp only [hc0, d]
  have hh : "SSSP".toList.head? = some 'S' := by decide
  simp only [if_pos hh]
  simp [firstNaN, List.findIdx?_cons, sliceTo, clampIdx, mirror, negO, slice]

/-- Vertical incidence, the first interface 20 m too high. -/
example : ∃ newt data data' : List ℝ,
    moveoutS npFind (⟨[], [], [], [], 0, 1, [0, 2, 3, 1, 0, 9], []⟩ : Trace ℝ) 4 [12, 6, 0, -6, -12] [12, 6, 0, -6, -12] =
      .ok (data.reverse ++ sliceFrom [0, 2, 3, 1, 0, 9] 4) ∧
    moveoutS npFind (⟨[], [], [], [], 0, 1, [0, 2, 3, 1, 0, 9], []⟩ : Trace ℝ) 4 [2397 / 200, 1197 / 200, 0, -1197 / 200, -2397 / 200]
      [2397 / 200, 1197 / 200, 0, -1197 / 200, -2397 / 200] = .ok (data'.reverse ++ sliceFrom [0, 2, 3, 1, 0, 9] 4) ∧
    interpAll npFind (timesBefore (⟨[], [], [], [], 0, 1, [0, 2, 3, 1, 0, 9], []⟩ : Trace ℝ) 4 4) (opposite [12, 6, 0, -6, -12])
      (opposite [12, 6, 0, -6, -12]) (some 0) (some 0) = .ok newt ∧ newt.length = 4 ∧ data.length = 4 ∧ data'.length = 4 ∧
    ∀ i < 4, (1 + 2 * 1) * (3 / 50) < |(timesBefore (⟨[], [], [], [], 0, 1, [0, 2, 3, 1, 0, 9], []⟩ : Trace ℝ) 4 4).getD i 0 - newt.getD 3 0| →
      (1 + 2 * 1) * (3 / 50) < |(timesBefore (⟨[], [], [], [], 0, 1, [0, 2, 3, 1, 0, 9], []⟩ : Trace ℝ) 4 4).getD i 0 - newt.getD 0 0| →
      |data'.getD i 0 - data.getD i 0| ≤ 2 * 2 * ((1 + 2 * 1) * (3 / 50)) / (1 * 1) := by
  have hδ : (⟨[], [], [], [], 0, 1, [0, 2, 3, 1, 0, 9], []⟩ : Trace ℝ).delta = 1 := by simp [Trace.delta]
  have near : List.Forall₂ (SameVelocities 2 0) [⟨4, 2, 0⟩, ⟨4, 2, 8⟩, ⟨4, 2, 8⟩]
      [⟨4, 2, 0⟩, ⟨4, 2, 399 / 50⟩, ⟨4, 2, 8⟩] := by
    refine .cons ?_ (.cons ?_ (.cons ?_ .nil))
    all_goals
      constructor
      all_goals norm_num [abs_le]
  have times : timesBefore (⟨[], [], [], [], 0, 1, [0, 2, 3, 1, 0, 9], []⟩ : Trace ℝ) 4 4 = [0, 1, 2, 3] := by
    unfold timesBefore
    rw [hδ]
    simp [List.range_succ, show (4 : ℤ).toNat = 4 from rfl]
  have h := C226_multiple npFind npFind_spec 2 0 0 (by norm_num)
    ⟨[0, 0, 8], [0, 8, 8], [4, 4, 4], [2, 2, 2], []⟩ ⟨[0, 0, 399 / 50], [0, 399 / 50, 8], [4, 4, 4], [2, 2, 2], []⟩ _ _
    ⟨rfl, rfl, rfl⟩ ⟨rfl, rfl, rfl⟩ rfl rfl near near "Sssp".toList (by decide) (by decide) (by decide)
    [12, 6, 0, -6, -12] [12, 6, 0, -6, -12] [2397 / 200, 1197 / 200, 0, -1197 / 200, -2397 / 200] [2397 / 200, 1197 / 200, 0, -1197 / 200, -2397 / 200]
    (by have := vertical_thickness_S 8 8 6 12 (by norm_num) (by norm_num)
        norm_num at this ⊢
        exact this)
    (by have := vertical_thickness_S (399 / 50) 8 (1197 / 200) (2397 / 200) (by norm_num) (by norm_num)
        norm_num at this ⊢
        exact this)
    (3 / 50) (by
      unfold thicknessBound
      have e1 : (upper "Sssp".toList).count 'P' = 1 := by decide
      have e2 : (upper "Sssp".toList).count 'S' = 3 := by decide
      rw [e1, e2]
      simp [thicknessError]
      norm_num [abs_of_pos, abs_of_neg])
    ⟨[], [], [], [], 0, 1, [0, 2, 3, 1, 0, 9], []⟩ 4 1 1 2 (by norm_num) (by norm_num) (by norm_num) rfl (by decide)
    (by intro i hi
        have : i = 0 ∨ i = 1 ∨ i = 2 ∨ i = 3 := by simp [opposite] at hi; omega
        rcases this with rfl | rfl | rfl | rfl <;> norm_num [opposite])
    (by norm_num [opposite]) 4 (by simp [index0]) [1, 3, 2, 0] (by simp [sliceTo, clampIdx, show (4 : ℤ).toNat = 4 from rfl])
    (by simp [show (4 : ℤ).toNat = 4 from rfl]) (by simp) (by rw [hδ]; norm_num)
    (by intro i hi
        have : i = 0 ∨ i = 1 ∨ i = 2 := by simp at hi; omega
        rcases this with rfl | rfl | rfl <;> norm_num [abs_le])
    (by intro x hx
        rw [times] at hx
        simp only [List.mem_cons, List.not_mem_nil, or_false] at hx
        rcases hx with rfl | rfl | rfl | rfl <;> norm_num [opposite])
    (by intro x hx
        rw [times] at hx
        simp only [List.mem_cons, List.not_mem_nil, or_false] at hx
        rcases hx with rfl | rfl | rfl | rfl <;> norm_num [opposite])
    (by rw [hδ]; norm_num)
  rw [hδ] at h
  exact h

end Verif.Props
