import Verif.Props.ImagingProfile
import Verif.Props.Models

/-!
# Depth ticks of profile plots with the delay times of the model (C106)
-/

set_option linter.unusedSimpArgs false
set_option linter.unusedSectionVars false

namespace Verif.Props
open Verif.Py Verif.Model Verif.Model.Simple Verif.Model.Imaging Verif.Spec

section ticks
variable {K : Type} [Field K] [LinearOrder K]

/-- `model.calculate_delay_times(phase=phase, slowness=slowness)`, without evanescent rays. -/
def modelDelay (sqrt : K → K) (m : SimpleModel K) (phase : Str) (s : K) : Res (List K) :=
  match delayTimes sqrt m s phase with
  | .error e => .error e
  | .ok l =>
    match allSome l with
    | some l => .ok l
    | none => .error .other

/-- Delay time of a phase for a conversion at the bottom of the first `k` layers. -/
def conversionDelay (sqrt : K → K) (phase : Str) (layers : List (Layer K)) (s : K) (k : Nat) : K :=
  ((layers.take k).map fun l =>
    (((upper phase).count 'P' : K) * qSpec sqrt l.vp s + ((upper phase).count 'S' : K) * qSpec sqrt l.vs s
      - 2 * (if (upper phase).head? = some 'P' then qSpec sqrt l.vp s else qSpec sqrt l.vs s)) * l.dz).sum

theorem diff_getD (z : List K) (i : Nat) (hi : i + 1 < z.length) :
    (diff z).getD i 0 = z.getD (i + 1) 0 - z.getD i 0 := by
  unfold diff
  rw [List.getD_eq_getElem _ _ (by simp; omega), List.getD_eq_getElem _ _ hi, List.getD_eq_getElem _ _ (by omega)]
  simp

/-- The tabulated depths are the tops of the layers: depth `i + 1` is depth `i` plus the thickness of layer `i`. -/
theorem init_tops (z vp vs : List K) (n : Option (List Int)) (m : SimpleModel K)
    (h : SimpleModel.init z vp vs n = .ok m) (i : Nat) (hi : i + 1 < m.z.length) :
    m.z.getD (i + 1) 0 = m.z.getD i 0 + m.dz.getD i 0 := by
  have key : ∃ z' : List K, m.z = z'.dropLast ∧ m.dz = diff z' := by
    unfold SimpleModel.init at h
    by_cases hl : z.length = vp.length ∧ vp.length = vs.length
    · rw [if_neg (not_not.2 hl)] at h
      cases n with
      | none =>
        simp only [bind, Except.bind, pure, Except.pure, Except.ok.injEq] at h
        rw [← h]
        exact ⟨z, rfl, rfl⟩
      | some n =>
        simp only [bind, Except.bind, pure, Except.pure] at h
        cases h1 : interpolateN z n with
        | error e => simp [h1] at h
        | ok z' =>
          cases h2 : interpolateN vp n with
          | error e => simp [h1, h2] at h
          | ok p' =>
            cases h3 : interpolateN vs n with
            | error e => simp [h1, h2, h3] at h
            | ok s' =>
              simp only [h1, h2, h3, Except.ok.injEq] at h
              rw [← h]
              exact ⟨z', rfl, rfl⟩
    · rw [if_pos hl] at h
      simp [bind, Except.bind, throw, throwThe, MonadExceptOf.throw] at h
  obtain ⟨z', e1, e2⟩ := key
  rw [e1, List.length_dropLast] at hi
  have hd : ∀ j, j + 1 < z'.length → z'.dropLast.getD j 0 = z'.getD j 0 := by
    intro j hj
    rw [List.getD_eq_getElem _ _ (by simp; omega), List.getD_eq_getElem _ _ (by omega), List.getElem_dropLast]
  rw [e1, e2, diff_getD z' i (by omega), hd i (by omega), hd (i + 1) (by omega)]
  ring

variable [IsStrictOrderedRing K] [FloorRing K]

theorem modelDelay_spec (sqrt : K → K) (m : SimpleModel K) (layers : List (Layer K))
    (hvp : m.vp = layers.map Layer.vp) (hvs : m.vs = layers.map Layer.vs) (hdz : m.dz = layers.map Layer.dz) (s : K)
    (phase : Str) (hne : phase ≠ []) (hletters : ∀ c ∈ upper phase, c = 'P' ∨ c = 'S') (hprop : Propagates layers s) :
    modelDelay sqrt m phase s
      = .ok ((List.range layers.length).map fun k => conversionDelay sqrt phase layers s (k + 1)) := by
  unfold modelDelay
  rw [C28_delay_times sqrt m layers hvp hvs hdz s phase hne hletters hprop]
  simp only []
  have : ((List.range layers.length).map fun k =>
      some (delaySpec sqrt ((upper phase).count 'P') ((upper phase).count 'S')
        ((upper phase).head? = some 'P') layers s k))
      = ((List.range layers.length).map fun k => conversionDelay sqrt phase layers s (k + 1)).map some := by
    rw [List.map_map]
    apply List.map_congr_left
    intro k _
    simp only [Function.comp, delaySpec, conversionDelay, Option.some.injEq, decide_eq_true_eq]
  rw [this, allSome_map]

/-- **C106** (model given).  With a model there are depth ticks or the call fails; the profile of uncorrected traces, which have no entry
`moveout`, fails with AttributeError instead of being drawn without ticks. -/
theorem C106_given_partial (find : List K → K → Nat) (z : List K) (delay : Str → K → Res (List K)) (t : Trace K) :
    (t.getStr "moveout" = none → ticksPart find (some (z, delay)) t = .error .attributeError) ∧
    (∀ e, depthTicks find z delay t = .error e → ticksPart find (some (z, delay)) t = .error e) ∧
    (∀ o, ticksPart find (some (z, delay)) t = .ok o → ∃ k, o = some k ∧ depthTicks find z delay t = .ok k) := by
  refine ⟨fun h => ?_, fun e h => ?_, fun o h => ?_⟩
  · unfold ticksPart depthTicks
    simp [h]
  · unfold ticksPart
    simp [h]
  · unfold ticksPart at h
    cases hd : depthTicks find z delay t with
    | error e => simp [hd] at h
    | ok k => simp [hd] at h; exact ⟨k, h.symm, rfl⟩

/-- **C106 (partial).** With strictly increasing depths, the tick labelled with the depth of the top of layer `i` is
at the delay time of a conversion at the *bottom* of this layer (the depths are the tops of the layers, see
`init_tops`); the error is the delay accumulated inside of the
layer. -/
theorem C106_model_partial (find : List K → K → Nat) (hf : FindSpec find) (sqrt : K → K) (m : SimpleModel K)
    (layers : List (Layer K)) (hvp : m.vp = layers.map Layer.vp) (hvs : m.vs = layers.map Layer.vs)
    (hdz : m.dz = layers.map Layer.dz) (hz : m.z.Pairwise (· < ·)) (t : Trace K)
    (phase : Str) (s : K) (hph : t.getStr "moveout" = some phase) (hs : t.getNum "slowness" = some s)
    (hne : phase ≠ []) (hletters : ∀ c ∈ upper phase, c = 'P' ∨ c = 'S') (hprop : Propagates layers s)
    (ticks : Ticks K) (h : depthTicks find m.z (modelDelay sqrt m) t = .ok ticks) :
    ∀ (k i : Nat) (l : Layer K), k < 20 → layers[i]? = some l → ticks.depths.getD k 0 = m.z.getD i 0 →
      ticks.major.getD k 0 = conversionDelay sqrt phase layers s (i + 1) ∧
      ticks.major.getD k 0 - conversionDelay sqrt phase layers s i =
        (((upper phase).count 'P' : K) * qSpec sqrt l.vp s + ((upper phase).count 'S' : K) * qSpec sqrt l.vs s
          - 2 * (if (upper phase).head? = some 'P' then qSpec sqrt l.vp s else qSpec sqrt l.vs s)) * l.dz := by
  have hle : m.z.Pairwise (· ≤ ·) := hz.imp (fun h => h.le)
  obtain ⟨phase', s', pd, h1, h2, h3, h4, -, -, -, -, h5, -⟩ := C106_table_partial find hf m.z (modelDelay sqrt m) t
    ticks h ((increasing_iff_pairwise m.z).2 hle)
  rw [hph, Option.some.injEq] at h1
  rw [hs, Option.some.injEq] at h2
  subst h1 h2
  rw [modelDelay_spec sqrt m layers hvp hvs hdz s phase hne hletters hprop, Except.ok.injEq] at h3
  subst h3
  intro k i l hk hl hd
  have hi : i < layers.length := (List.getElem?_eq_some_iff.1 hl).1
  have hzl : m.z.length = layers.length := by simpa using h4.symm
  have hmaj := h5 k i hk (by omega) hd (fun j hj hji => by
    have : j = i := by
      rcases Nat.lt_trichotomy j i with hlt | rfl | hlt
      · exfalso
        have := List.pairwise_iff_getElem.1 hz j i (by omega) (by omega) hlt
        rw [List.getD_eq_getElem _ _ (by omega), List.getD_eq_getElem _ _ (by omega)] at hji
        exact absurd hji this.ne
      · rfl
      · exfalso
        have := List.pairwise_iff_getElem.1 hz i j (by omega) (by omega) hlt
        rw [List.getD_eq_getElem _ _ (by omega), List.getD_eq_getElem _ _ (by omega)] at hji
        exact absurd hji this.ne'
    rw [this])
  rw [getD_map_range _ hi] at hmaj
  refine ⟨hmaj, ?_⟩
  rw [hmaj]
  unfold conversionDelay
  rw [List.take_add_one, hl]
  simp

/-- **C106, S receiver functions (partial).** For the phase Sp all ticks are at negative times (or zero), whereas the move
out correction treats Sp like Ps, i.e. conversions are at positive times (`C36_sp_is_ps`). -/
theorem C106_sp_partial (find : List K → K → Nat) (hf : FindSpec find) (sqrt : K → K) (hsq : SqrtMono sqrt)
    (m : SimpleModel K) (layers : List (Layer K)) (hvp : m.vp = layers.map Layer.vp)
    (hvs : m.vs = layers.map Layer.vs) (hdz : m.dz = layers.map Layer.dz) (hz : m.z.Pairwise (· ≤ ·)) (t : Trace K)
    (s : K) (hph : t.getStr "moveout" = some "Sp".toList) (hs : t.getNum "slowness" = some s)
    (hv : ∀ l ∈ layers, 0 < l.vs ∧ l.vs ≤ l.vp ∧ 0 ≤ l.dz) (hprop : Propagates layers s)
    (ticks : Ticks K) (h : depthTicks find m.z (modelDelay sqrt m) t = .ok ticks) :
    ∀ x, x ∈ ticks.major ∨ x ∈ ticks.minor → x ≤ 0 := by
  obtain ⟨phase', s', pd, h1, h2, h3, h4, -, -, -, -, -, -, h5⟩ := C106_table_partial find hf m.z (modelDelay sqrt m) t
    ticks h ((increasing_iff_pairwise m.z).2 hz)
  rw [hph, Option.some.injEq] at h1
  rw [hs, Option.some.injEq] at h2
  subst h1 h2
  rw [modelDelay_spec sqrt m layers hvp hvs hdz s _ (by decide) (by decide) hprop, Except.ok.injEq] at h3
  subst h3
  have hneg : ∀ y ∈ (List.range layers.length).map fun k => conversionDelay sqrt "Sp".toList layers s (k + 1),
      y ≤ 0 := by
    intro y hy
    obtain ⟨k, -, rfl⟩ := List.mem_map.1 hy
    have hc := (C28_common_phases sqrt layers s k).2.1
    simp only [] at hc
    have e : conversionDelay sqrt "Sp".toList layers s (k + 1) = delaySpec sqrt ((upper "Sp".toList).count 'P')
        ((upper "Sp".toList).count 'S') (decide ((upper "Sp".toList).head? = some 'P')) layers s k := by
      simp only [delaySpec, conversionDelay, decide_eq_true_eq]
    rw [e, hc, neg_nonpos]
    apply List.sum_nonneg
    intro x hx
    obtain ⟨l, hl, rfl⟩ := List.mem_map.1 hx
    obtain ⟨v1, v2, v3⟩ := hv l (List.mem_of_mem_take hl)
    obtain ⟨p1, p2⟩ := hprop l (List.mem_of_mem_take hl)
    refine mul_nonneg ?_ v3
    rw [sub_nonneg]
    unfold qSpec
    have : (1 : K) / l.vp ^ 2 ≤ 1 / l.vs ^ 2 := by
      apply one_div_le_one_div_of_le (by positivity)
      exact pow_le_pow_left₀ v1.le v2 2
    exact (hsq _ _ (by linarith) (by linarith)).2
  intro x hx
  -- a lower bound for the table
  set pd := (List.range layers.length).map fun k => conversionDelay sqrt "Sp".toList layers s (k + 1) with hpd
  have hlow : ∃ b, ∀ y ∈ pd, b ≤ y := by
    clear_value pd
    clear h5 h4 hpd hneg
    induction pd with
    | nil => exact ⟨0, by simp⟩
    | cons a l ih =>
      obtain ⟨b, hb⟩ := ih
      refine ⟨min a b, fun y hy => ?_⟩
      rcases List.mem_cons.1 hy with rfl | hy
      · exact min_le_left _ _
      · exact (min_le_right _ _).trans (hb y hy)
  obtain ⟨b, hb⟩ := hlow
  exact (h5 b 0 (fun y hy => ⟨hb y hy, hneg y hy⟩) x hx).2

end ticks

/-- Profile trace after move out correction. -/
def ratProfile (phase : Str) : Trace ℚ :=
  ⟨[], [], [], "Q".toList, 0, 1, [1, 0], [("onset", .time 1), ("moveout", .str phase), ("slowness", .num ratSlow)]⟩

/-- Layers with a thickness of 50 km. -/
def ratModel50 : SimpleModel ℚ := ⟨[0, 50, 100], [50, 50, 50], [6, 6, 6], [39 / 10, 39 / 10, 39 / 10], []⟩

/-- **C106 is false of the code**: the tick for 50 km is at the delay time for 100 km, the one for the surface is at
the delay time for 50 km instead of 0; for Sp all ticks are at negative times. -/
theorem C106_counterexample :
    (depthTicks npFind ratModel50.z (modelDelay ratSqrt ratModel50) (ratProfile "Ps".toList)).map
      (fun k => (k.depths.take 2, k.major.take 2)) = .ok ([0, 50], [50 * (11 / 78), 100 * (11 / 78)]) ∧
    (depthTicks npFind ratModel50.z (modelDelay ratSqrt ratModel50) (ratProfile "Sp".toList)).map
      (fun k => (k.depths.take 2, k.major.take 2)) = .ok ([0, 50], [-(50 * (11 / 78)), -(100 * (11 / 78))]) ∧
    conversionDelay ratSqrt "Ps".toList [⟨6, 39 / 10, 50⟩, ⟨6, 39 / 10, 50⟩, ⟨6, 39 / 10, 50⟩] ratSlow 1 = 50 * (11 / 78) := by
  decide +kernel

end Verif.Props
