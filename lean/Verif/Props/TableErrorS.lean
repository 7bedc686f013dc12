import Verif.Props.DoubleMoveoutS
import Verif.Props.VelocityError

/-!
# C222 and C224 for S multiples
-/

set_option linter.unusedSimpArgs false
set_option linter.unusedSectionVars false

namespace Verif.Props
open Verif.Py Verif.Model Verif.Model.Simple Verif.Spec

section generic
variable {K : Type} [Field K] [LinearOrder K] [IsStrictOrderedRing K] [FloorRing K]

theorem nearTables_opposite (ε : K) (u t : List K) (h : NearTables ε u t) : NearTables ε (opposite u) (opposite t) := by
  refine ⟨by simpa [opposite] using h.1, fun i hi => ?_⟩
  have hi' : i < u.length := by simpa [opposite] using hi
  unfold opposite
  rw [getD_map_zero _ _ _ hi', getD_map_zero _ _ _ (by rw [h.1]; exact hi')]
  have : -t.getD i 0 - -u.getD i 0 = -(t.getD i 0 - u.getD i 0) := by ring
  rw [this, abs_neg]
  exact h.2 i hi'

/-- **C222** (S multiples).  As `C222_moveout` for the samples before the onset, which are moved for S multiples; zeros are filled in on both
sides of the new times, so that times within `(1 + 2 hi) ε` of the new time of the first or last sample are left out. -/
theorem C222_multiple (find : List K → K → Nat) (hfind : FindSpec find) (tr : Trace K) (onset : K) (t0 t1 t0' t1' : List K) (lo hi ε D : K)
    (hlo : 0 < lo) (hhi : 0 ≤ hi) (hε : 0 ≤ ε) (hD : 0 ≤ D) (hlen : t0.length = t1.length) (h2 : 2 ≤ t0.length)
    (hs : Stretch lo hi (opposite t0) (opposite t1)) (hn0 : NearTables ε t0 t0') (hn1 : NearTables ε t1 t1')
    (hord : (opposite t0').getD 0 0 ≤ (opposite t0').getD (t0.length - 1) 0) (i0 : ℤ) (hi0 : i0 = index0 tr onset)
    (old : List K) (hold : old = (sliceTo tr.data i0).reverse) (hol : old.length = i0.toNat) (ho2 : 2 ≤ old.length) (hδ : 0 < tr.delta)
    (hdiff : ∀ i, i + 1 < old.length → |old.getD (i + 1) 0 - old.getD i 0| ≤ D)
    (hin : ∀ x ∈ timesBefore tr onset i0, (opposite t0).getD 0 0 ≤ x ∧ x ≤ (opposite t0).getD (t0.length - 1) 0)
    (hin' : ∀ x ∈ timesBefore tr onset i0, (opposite t0').getD 0 0 ≤ x ∧ x ≤ (opposite t0').getD (t0.length - 1) 0)
    (hsmall : 2 * ((1 + 2 * hi) * ε) ≤ lo * tr.delta) :
    ∃ newt data data' : List K, moveoutS find tr onset t0 t1 = .ok (data.reverse ++ sliceFrom tr.data i0) ∧
      moveoutS find tr onset t0' t1' = .ok (data'.reverse ++ sliceFrom tr.data i0) ∧
      interpAll find (timesBefore tr onset i0) (opposite t0) (opposite t1) (some 0) (some 0) = .ok newt ∧ newt.length = old.length ∧
      data.length = old.length ∧ data'.length = old.length ∧
      ∀ i < old.length, (1 + 2 * hi) * ε < |(timesBefore tr onset i0).getD i 0 - newt.getD (old.length - 1) 0| →
        (1 + 2 * hi) * ε < |(timesBefore tr onset i0).getD i 0 - newt.getD 0 0| →
        |data'.getD i 0 - data.getD i 0| ≤ 2 * D * ((1 + 2 * hi) * ε) / (lo * tr.delta) := by
  set t := timesBefore tr onset i0 with ht
  set η := (1 + 2 * hi) * ε with hη
  have hη0 : 0 ≤ η := by rw [hη]; positivity
  have hc : 0 < lo * tr.delta := mul_pos hlo hδ
  have htl : t.length = old.length := by rw [ht, hol]; simp [timesBefore]
  have htg : ∀ i < old.length, t.getD i 0 = tr.start - onset + (i0 : K) * tr.delta + (i : K) * tr.delta := by
    intro i hi
    rw [List.getD_eq_getElem _ _ (by rw [htl]; exact hi)]
    simp only [ht, timesBefore, List.getElem_map, List.getElem_range]
    ring
  have htm : ∀ i < old.length, t.getD i 0 ∈ t := by
    intro i hi
    rw [List.getD_eq_getElem _ _ (by rw [htl]; exact hi)]
    exact List.getElem_mem _
  have hne : t0 ≠ [] := by intro h; rw [h] at h2; simp at h2
  have hne' : t0' ≠ [] := by intro h; have := hn0.1; rw [h] at this; simp at this; omega
  have o0 : (opposite t0).length = t0.length := by simp [opposite]
  have o1 : (opposite t1).length = t1.length := by simp [opposite]
  have o0' : (opposite t0').length = t0.length := by simp [opposite, hn0.1]
  have o1' : (opposite t1').length = t1.length := by simp [opposite, hn1.1]
  have m0 := nearTables_opposite ε t0 t0' hn0
  have m1 := nearTables_opposite ε t1 t1' hn1
  set k := t.map (interp1 find (opposite t0) (opposite t1) (some 0) (some 0)) with hk
  set k' := t.map (interp1 find (opposite t0') (opposite t1') (some 0) (some 0)) with hk'
  have hkl : k.length = old.length := by rw [hk, List.length_map, htl]
  have hkl' : k'.length = old.length := by rw [hk', List.length_map, htl]
  have hkne : k ≠ [] := by intro h; rw [h] at hkl; simp at hkl; omega
  have hkne' : k' ≠ [] := by intro h; rw [h] at hkl'; simp at hkl'; omega
  -- new times
  have hkk : NearTables η k k' := by
    refine ⟨by omega, fun i hi => ?_⟩
    have hi' : i < t.length := by omega
    rw [hk, hk', getD_map_zero _ _ _ hi', getD_map_zero _ _ _ hi']
    obtain ⟨g1, g2⟩ := hin _ (htm i (by omega))
    obtain ⟨g3, g4⟩ := hin' _ (htm i (by omega))
    have := C222_interp find hfind (opposite t0) (opposite t1) (opposite t0') (opposite t1') _ ε ε 0 hhi hε (by rw [o0, o1, hlen])
      (by rw [o0]; exact h2) (fun i h => (hs i h).1) (fun i h => by
      obtain ⟨s1, s2, s3⟩ := hs i h
      rw [abs_of_nonneg ((mul_nonneg hlo.le s1).trans s2)]
      exact s3) m0 m1 (by rw [o0]; exact hord) (some 0) (some 0) (t.getD i 0) (t.getD i 0) (by simp) (.inr ⟨g1, g3⟩)
      (.inr (by rw [o0]; exact ⟨fun _ => g4, fun _ => g2⟩))
    refine this.trans (le_of_eq ?_)
    rw [hη]; ring
  have hsp : ∀ i, i + 1 < k.length → lo * tr.delta ≤ k.getD (i + 1) 0 - k.getD i 0 := by
    intro i hi
    rw [hk, getD_map_zero _ _ _ (by omega), getD_map_zero _ _ _ (by omega)]
    have e : t.getD (i + 1) 0 - t.getD i 0 = tr.delta := by
      rw [htg _ (by omega), htg _ (by omega)]; push_cast; ring
    have := stretch_spaced find hfind (opposite t0) (opposite t1) lo _ hs (by rw [o0]; exact h2) (some 0) (some 0) (t.getD i 0) (t.getD (i + 1) 0)
      (by linarith) (hin _ (htm i (by omega))).1 (by rw [o0]; exact (hin _ (htm (i + 1) (by omega))).2)
    rwa [e] at this
  have hgap : lo * tr.delta ≤ k.getD (k.length - 1) 0 - k.getD 0 0 := by
    have q1 := hsp 0 (by omega)
    have q2 := steps_mono (fun i => k.getD i 0) k.length (fun i h => hc.le.trans (hsp i h)) 1 (k.length - 2) (by omega)
    have e : 1 + (k.length - 2) = k.length - 1 := by omega
    simp only [e] at q2
    rw [Nat.zero_add] at q1
    linarith
  have run : ∀ a b : List K, a.length = b.length → a ≠ [] → (t.map (interp1 find (opposite a) (opposite b) (some 0) (some 0))).length = old.length →
      t.map (interp1 find (opposite a) (opposite b) (some 0) (some 0)) ≠ [] →
      moveoutS find tr onset a b = .ok ((t.map (interp1 find (t.map (interp1 find (opposite a) (opposite b) (some 0) (some 0))) old
        (some 0) (some 0))).reverse ++ sliceFrom tr.data i0) := by
    intro a b hab ha hl hn
    unfold moveoutS
    rw [← hi0]
    simp only [bind, Except.bind]
    rw [← hold]
    rw [show ((List.range i0.toNat).map fun (k : Nat) => -(-(tr.start - onset + (i0 : K) * tr.delta) - (k : K) * tr.delta)) = t from rfl,
      show (a.map fun x => -x) = opposite a from rfl, show (b.map fun x => -x) = opposite b from rfl]
    unfold interpAll
    rw [if_neg (not_not.2 (by simp [opposite, hab])), if_neg (by simpa [opposite] using ha)]
    simp only
    rw [opposite_opposite, if_neg (not_not.2 hl), if_neg hn]
  refine ⟨k, t.map (interp1 find k old (some 0) (some 0)), t.map (interp1 find k' old (some 0) (some 0)), run t0 t1 hlen hne hkl hkne,
    run t0' t1' (by rw [hn0.1, hn1.1, hlen]) hne' hkl' hkne', ?_, hkl, by simp [htl], by simp [htl], ?_⟩
  · unfold interpAll
    rw [if_neg (not_not.2 (by rw [o0, o1, hlen])), if_neg (by simpa [opposite] using hne)]
  intro i hi hfar hfar0
  rw [getD_map_zero _ _ _ (by omega), getD_map_zero _ _ _ (by omega)]
  have n0 := abs_le.1 (hkk.2 0 (by omega))
  have n1 := abs_le.1 (hkk.2 (k.length - 1) (by omega))
  rw [← hkl] at hfar
  rcases lt_or_ge (t.getD i 0) (k.getD 0 0) with hb0 | hb0
  · -- before the first new time: zeros
    rw [abs_of_neg (by linarith)] at hfar0
    have hb1 : t.getD i 0 < k'.getD 0 0 := by linarith
    unfold interp1
    rw [if_pos hb1, if_pos hb0]
    simp only [Option.getD_some, sub_self, abs_zero]
    positivity
  · rw [abs_of_nonneg (by linarith)] at hfar0
    have hb1 : k'.getD 0 0 ≤ t.getD i 0 := by linarith
    have := C222_interp find hfind k old k' old (D / (lo * tr.delta)) η 0 0 (by positivity) hη0 hkl (by omega)
      (fun i h => hc.le.trans (hsp i h)) (fun i h => by
        refine (hdiff i (by omega)).trans ?_
        rw [div_mul_eq_mul_div, le_div_iff₀ hc]
        exact mul_le_mul_of_nonneg_left (hsp i h) hD) hkk ⟨rfl, fun i _ => by simp⟩ (by linarith) (some 0) (some 0) (t.getD i 0) (t.getD i 0) (by simp)
        (.inr ⟨hb0, hb1⟩) (.inr (by
          rcases le_or_gt 0 (t.getD i 0 - k.getD (k.length - 1) 0) with h0 | h0
          · rw [abs_of_nonneg h0] at hfar
            exact ⟨fun _ => by linarith, fun _ => by linarith⟩
          · rw [abs_of_neg h0] at hfar
            exact ⟨fun _ => by linarith, fun _ => by linarith⟩))
    refine this.trans (le_of_eq ?_)
    ring

end generic

-- an onset at sample 4, delay times which are off by 1/100 s
example : ∃ newt data data' : List ℚ, moveoutS npFind errTraceS 4 [2, 0, -4, -8] [2, 0, -3, -5] = .ok (data.reverse ++ [0, 9]) ∧
    moveoutS npFind errTraceS 4 [2, 0, -401 / 100, -8] [2, 0, -299 / 100, -5] = .ok (data'.reverse ++ [0, 9]) ∧
    interpAll npFind (timesBefore errTraceS 4 4) (opposite [2, 0, -4, -8]) (opposite [2, 0, -3, -5]) (some 0) (some 0) = .ok newt ∧ newt.length = 4 ∧
    data.length = 4 ∧ data'.length = 4 ∧
    ∀ i < 4, (1 + 2 * 1) * (1 / 100) < |(timesBefore errTraceS 4 4).getD i 0 - newt.getD 3 0| →
      (1 + 2 * 1) * (1 / 100) < |(timesBefore errTraceS 4 4).getD i 0 - newt.getD 0 0| →
      |data'.getD i 0 - data.getD i 0| ≤ 2 * 2 * ((1 + 2 * 1) * (1 / 100)) / (1 / 2 * errTraceS.delta) :=
  C222_multiple npFind npFind_spec errTraceS 4 [2, 0, -4, -8] [2, 0, -3, -5] [2, 0, -401 / 100, -8] [2, 0, -299 / 100, -5] (1 / 2) 1 (1 / 100) 2
    (by norm_num) (by norm_num) (by norm_num) (by norm_num) rfl (by decide)
    (by intro i hi
        have : i = 0 ∨ i = 1 ∨ i = 2 := by simp [opposite] at hi; omega
        rcases this with rfl | rfl | rfl <;> norm_num [opposite])
    ⟨rfl, by
        intro i hi
        have : i = 0 ∨ i = 1 ∨ i = 2 ∨ i = 3 := by simp at hi; omega
        rcases this with rfl | rfl | rfl | rfl <;> norm_num [abs_le]⟩
    ⟨rfl, by
        intro i hi
        have : i = 0 ∨ i = 1 ∨ i = 2 ∨ i = 3 := by simp at hi; omega
        rcases this with rfl | rfl | rfl | rfl <;> norm_num [abs_le]⟩
    (by decide +kernel) 4 (by decide +kernel) [1, 3, 2, 0] (by decide +kernel) (by decide +kernel) (by decide) (by decide +kernel)
    (by intro i hi
        have : i = 0 ∨ i = 1 ∨ i = 2 := by simp at hi; omega
        rcases this with rfl | rfl | rfl <;> decide +kernel)
    (by decide +kernel) (by decide +kernel) (by decide +kernel)

/-- **C224** (S multiples).  The samples after the move out correction of S multiples with the two models and the two slownesses. -/
theorem C224_multiple (find : List ℝ → ℝ → Nat) (hfind : FindSpec find) (δ v0 c s s' ref : ℝ) (hv0 : 0 < v0) (hc : 0 < c) (hδ : 0 ≤ δ)
    (m m' : SimpleModel ℝ) (layers layers' : List (Layer ℝ)) (hm : IsLayered m layers) (hm' : IsLayered m' layers') (hcache : m.tRef = [])
    (hcache' : m'.tRef = []) (h : List.Forall₂ (NearLayer δ v0 c s s') layers layers')
    (href : List.Forall₂ (NearLayer δ v0 c ref ref) layers layers') (phase : Str) (hne : phase ≠ []) (heven : phase.length % 2 = 0)
    (hletters : ∀ x ∈ upper phase, x = 'P' ∨ x = 'S') (Z : ℝ) (hZ : (layers.map Layer.dz).sum ≤ Z)
    (t0 t1 t0' t1' : List ℝ) (ht : (stretch Real.sqrt m s phase ref).2 = .ok (t0.map some, t1.map some))
    (ht' : (stretch Real.sqrt m' s' phase ref).2 = .ok (t0'.map some, t1'.map some)) (ε : ℝ)
    (hε : ε = velocityBound (upper phase) δ v0 c s s' Z) (tr : Trace ℝ) (onset lo hi D : ℝ)
    (hlo : 0 < lo) (hhi : 0 ≤ hi) (hD : 0 ≤ D) (hlen : t0.length = t1.length) (h2 : 2 ≤ t0.length)
    (hs : Stretch lo hi (opposite t0) (opposite t1))
    (hord : (opposite t0').getD 0 0 ≤ (opposite t0').getD (t0.length - 1) 0) (i0 : ℤ) (hi0 : i0 = index0 tr onset)
    (old : List ℝ) (hold : old = (sliceTo tr.data i0).reverse) (hol : old.length = i0.toNat) (ho2 : 2 ≤ old.length) (hdt : 0 < tr.delta)
    (hdiff : ∀ i, i + 1 < old.length → |old.getD (i + 1) 0 - old.getD i 0| ≤ D)
    (hin : ∀ x ∈ timesBefore tr onset i0, (opposite t0).getD 0 0 ≤ x ∧ x ≤ (opposite t0).getD (t0.length - 1) 0)
    (hin' : ∀ x ∈ timesBefore tr onset i0, (opposite t0').getD 0 0 ≤ x ∧ x ≤ (opposite t0').getD (t0.length - 1) 0)
    (hsmall : 2 * ((1 + 2 * hi) * ε) ≤ lo * tr.delta) :
    ∃ newt data data' : List ℝ, moveoutS find tr onset t0 t1 = .ok (data.reverse ++ sliceFrom tr.data i0) ∧
      moveoutS find tr onset t0' t1' = .ok (data'.reverse ++ sliceFrom tr.data i0) ∧
      interpAll find (timesBefore tr onset i0) (opposite t0) (opposite t1) (some 0) (some 0) = .ok newt ∧ newt.length = old.length ∧
      data.length = old.length ∧ data'.length = old.length ∧
      ∀ i < old.length, (1 + 2 * hi) * ε < |(timesBefore tr onset i0).getD i 0 - newt.getD (old.length - 1) 0| →
        (1 + 2 * hi) * ε < |(timesBefore tr onset i0).getD i 0 - newt.getD 0 0| →
        |data'.getD i 0 - data.getD i 0| ≤ 2 * D * ((1 + 2 * hi) * ε) / (lo * tr.delta) := by
  obtain ⟨n0, n1, hε0⟩ := given_tables δ v0 c s s' ref hv0 hc hδ m m' layers layers' hm hm' hcache hcache' h href phase hne heven hletters Z hZ
    t0 t1 t0' t1' ht ht' ε hε
  exact C222_multiple find hfind tr onset t0 t1 t0' t1' lo hi ε D hlo hhi hε0 hD hlen h2 hs n0 n1 hord i0 hi0 old hold hol ho2 hdt hdiff hin hin' hsmall

/-- Delay times of Sssp for vertical incidence in three layers with the thicknesses 0, 8 and 8 km. -/
theorem vertical_tables_S (vp vs x : ℝ) (hvp : 0 < vp) (hvs : 0 < vs) (hx : (1 / vs + 1 / vp) * 8 = x) :
    (stretch Real.sqrt ⟨[0, 0, 8], [0, 8, 8], [vp, vp, vp], [vs, vs, vs], []⟩ 0 "Sssp".toList 0).2 =
      .ok ([x + x, x, 0, -x, -(x + x)].map some, [x + x, x, 0, -x, -(x + x)].map some) := by
  have d : delayTimes Real.sqrt ⟨[0, 0, 8], [0, 8, 8], [vp, vp, vp], [vs, vs, vs], []⟩ 0 "SSSP".toList = .ok [some 0, some x, some (x + x)] := by
    rw [C28_delay_times Real.sqrt _ [⟨vp, vs, 0⟩, ⟨vp, vs, 8⟩, ⟨vp, vs, 8⟩] rfl rfl rfl 0 "SSSP".toList (by decide) (by decide) (by
      intro l hl
      simp only [List.mem_cons, List.not_mem_nil, or_false] at hl
      rcases hl with rfl | rfl | rfl <;> constructor <;> (rw [zero_div, zero_pow two_ne_zero]; positivity))]
    have q : ∀ v : ℝ, 0 < v → qSpec Real.sqrt v 0 = 1 / v := by
      intro v hv
      unfold qSpec
      rw [zero_div, zero_pow two_ne_zero, sub_zero, ← one_div_pow, Real.sqrt_sq (by positivity)]
    have e1 : (upper "SSSP".toList).count 'P' = 1 := by decide
    have e2 : (upper "SSSP".toList).count 'S' = 3 := by decide
    have e3 : decide ((upper "SSSP".toList).head? = some 'P') = false := by decide
    rw [e1, e2, e3]
    simp only [List.length_cons, List.length_nil, List.range_succ, List.range_zero, List.nil_append, List.map_cons, List.map_append, List.map_nil,
      List.cons_append, delaySpec, List.take, List.sum_cons, List.sum_nil, q vp hvp, q vs hvs, ← hx]
    norm_num
    constructor <;> ring
  have eu : upper "Sssp".toList = "SSSP".toList := by decide
  unfold stretch
  rw [if_neg (by decide), eu]
  have hc0 : lookupRef ([] : List (Str × List (Option ℝ))) "SSSP".toList = none := rfl
  simp only [hc0, d]
  have hh : "SSSP".toList.head? = some 'S' := by decide
  simp only [if_pos hh]
  simp [firstNaN, List.findIdx?_cons, sliceTo, clampIdx, mirror, negO, slice]

/-- Vertical incidence, S velocities which are wrong by 0.05 %. -/
example : ∃ newt data data' : List ℝ,
    moveoutS npFind (⟨[], [], [], [], 0, 1, [0, 2, 3, 1, 0, 9], []⟩ : Trace ℝ) 4 [12, 6, 0, -6, -12] [12, 6, 0, -6, -12] =
      .ok (data.reverse ++ sliceFrom [0, 2, 3, 1, 0, 9] 4) ∧
    moveoutS npFind (⟨[], [], [], [], 0, 1, [0, 2, 3, 1, 0, 9], []⟩ : Trace ℝ) 4 [2999 / 250, 2999 / 500, 0, -2999 / 500, -2999 / 250]
      [2999 / 250, 2999 / 500, 0, -2999 / 500, -2999 / 250] = .ok (data'.reverse ++ sliceFrom [0, 2, 3, 1, 0, 9] 4) ∧
    interpAll npFind (timesBefore (⟨[], [], [], [], 0, 1, [0, 2, 3, 1, 0, 9], []⟩ : Trace ℝ) 4 4) (opposite [12, 6, 0, -6, -12])
      (opposite [12, 6, 0, -6, -12]) (some 0) (some 0) = .ok newt ∧ newt.length = 4 ∧ data.length = 4 ∧ data'.length = 4 ∧
    ∀ i < 4, (1 + 2 * 1) * (3 / 50) < |(timesBefore (⟨[], [], [], [], 0, 1, [0, 2, 3, 1, 0, 9], []⟩ : Trace ℝ) 4 4).getD i 0 - newt.getD 3 0| →
      (1 + 2 * 1) * (3 / 50) < |(timesBefore (⟨[], [], [], [], 0, 1, [0, 2, 3, 1, 0, 9], []⟩ : Trace ℝ) 4 4).getD i 0 - newt.getD 0 0| →
      |data'.getD i 0 - data.getD i 0| ≤ 2 * 2 * ((1 + 2 * 1) * (3 / 50)) / (1 * 1) := by
  have hδ : (⟨[], [], [], [], 0, 1, [0, 2, 3, 1, 0, 9], []⟩ : Trace ℝ).delta = 1 := by simp [Trace.delta]
  have near : List.Forall₂ (NearLayer (1 / 800) 2 1 0 0) [⟨4, 2, 0⟩, ⟨4, 2, 8⟩, ⟨4, 2, 8⟩]
      [⟨4, 4000 / 1999, 0⟩, ⟨4, 4000 / 1999, 8⟩, ⟨4, 4000 / 1999, 8⟩] := by
    refine .cons ?_ (.cons ?_ (.cons ?_ .nil))
    all_goals
      constructor
      all_goals norm_num [abs_le]
  have times : timesBefore (⟨[], [], [], [], 0, 1, [0, 2, 3, 1, 0, 9], []⟩ : Trace ℝ) 4 4 = [0, 1, 2, 3] := by
    unfold timesBefore
    rw [hδ]
    simp [List.range_succ, show (4 : ℤ).toNat = 4 from rfl]
  have h := C224_multiple npFind npFind_spec (1 / 800) 2 1 0 0 0 (by norm_num) (by norm_num) (by norm_num)
    ⟨[0, 0, 8], [0, 8, 8], [4, 4, 4], [2, 2, 2], []⟩ ⟨[0, 0, 8], [0, 8, 8], [4, 4, 4], [4000 / 1999, 4000 / 1999, 4000 / 1999], []⟩ _ _
    ⟨rfl, rfl, rfl⟩ ⟨rfl, rfl, rfl⟩ rfl rfl near near "Sssp".toList (by decide) (by decide) (by decide) 16 (by norm_num)
    [12, 6, 0, -6, -12] [12, 6, 0, -6, -12] [2999 / 250, 2999 / 500, 0, -2999 / 500, -2999 / 250] [2999 / 250, 2999 / 500, 0, -2999 / 500, -2999 / 250]
    (by have := vertical_tables_S 4 2 6 (by norm_num) (by norm_num) (by norm_num)
        norm_num at this ⊢
        exact this)
    (by have := vertical_tables_S 4 (4000 / 1999) (2999 / 500) (by norm_num) (by norm_num) (by norm_num)
        norm_num at this ⊢
        exact this)
    (3 / 50) (by
      unfold velocityBound
      have e1 : (upper "Sssp".toList).count 'P' = 1 := by decide
      have e2 : (upper "Sssp".toList).count 'S' = 3 := by decide
      rw [e1, e2]
      norm_num)
    ⟨[], [], [], [], 0, 1, [0, 2, 3, 1, 0, 9], []⟩ 4 1 1 2 (by norm_num) (by norm_num) (by norm_num) rfl (by decide)
    (by intro i hi
        have : i = 0 ∨ i = 1 ∨ i = 2 ∨ i = 3 := by simp [opposite] at hi; omega
        rcases this with rfl | rfl | rfl | rfl <;> norm_num [opposite])
    (by norm_num [opposite]) 4 (by simp [index0]) [1, 3, 2, 0] (by simp [sliceTo, clampIdx, show (4 : ℤ).toNat = 4 from rfl])
    (by simp [show (4 : ℤ).toNat = 4 from rfl]) (by simp) (by rw [hδ]; norm_num)
    (by intro i hi
        have : i = 0 ∨ i = 1 ∨ i = 2 := by simp at hi; omega
        rcases this with rfl | rfl | rfl <;> norm_num [abs_le])
    (by intro x hx
        rw [times] at hx
        simp only [List.mem_cons, List.not_mem_nil, or_false] at hx
        rcases hx with rfl | rfl | rfl | rfl <;> norm_num [opposite])
    (by intro x hx
        rw [times] at hx
        simp only [List.mem_cons, List.not_mem_nil, or_false] at hx
        rcases hx with rfl | rfl | rfl | rfl <;> norm_num [opposite])
    (by rw [hδ]; norm_num)
  rw [hδ] at h
  exact h

end Verif.Props
