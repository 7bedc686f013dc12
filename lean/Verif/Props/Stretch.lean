import Verif.Props.Delay
import Mathlib.Analysis.Real.Sqrt

/-!
# Properties of `stretch_delay_times`: C30, C31, and non-vacuity of C28, C29
-/

set_option linter.unusedSimpArgs false
set_option linter.unusedSectionVars false

namespace Verif.Props
open Verif.Py Verif.Model.Simple Verif.Spec

theorem sqrtMono_real : SqrtMono Real.sqrt := fun x _ _ h =>
  ⟨Real.sqrt_nonneg x, Real.sqrt_le_sqrt h⟩

/-- Two layers over a half space, cf. the first lines of iasp91. -/
noncomputable def exLayers : List (Layer ℝ) := [⟨5.8, 3.36, 20⟩, ⟨6.5, 3.75, 15⟩, ⟨8.04, 4.47, 0⟩]

theorem exLayers_propagates : Propagates exLayers 6.4 := by
  intro l hl
  simp only [exLayers, List.mem_cons, List.not_mem_nil, or_false] at hl
  rcases hl with rfl | rfl | rfl <;> norm_num

theorem exLayers_vel : ∀ l ∈ exLayers, 0 < l.vs ∧ l.vs ≤ l.vp ∧ 0 ≤ l.dz := by
  intro l hl
  simp only [exLayers, List.mem_cons, List.not_mem_nil, or_false] at hl
  rcases hl with rfl | rfl | rfl <;> norm_num

noncomputable def exModel : SimpleModel ℝ :=
  ⟨[0, 20, 35], [20, 15, 0], [5.8, 6.5, 8.04], [3.36, 3.75, 4.47], []⟩

/-- C28 and C29 apply to a crustal model. -/
example : ∃ t : List ℝ, delayTimes Real.sqrt exModel 6.4 "Ppps".toList = .ok (t.map some) ∧
    t.length = 3 ∧ (∀ x ∈ t, 0 ≤ x) ∧ t.Pairwise (· ≤ ·) :=
  C29_nonneg_monotone Real.sqrt sqrtMono_real exModel exLayers rfl rfl rfl 6.4 _ (by decide)
    (by decide) (by decide) exLayers_propagates exLayers_vel

section stretch
variable {K : Type} [Field K] [LinearOrder K] (sqrt : K → K)

/-- A sequence of earlier calls `(slowness, phase, ref)` of `stretch_delay_times` on one model. -/
def afterCalls (m : SimpleModel K) (calls : List (K × Str × K)) : SimpleModel K :=
  calls.foldl (fun m c => (stretch sqrt m c.1 c.2.1 c.2.2).1) m

/-- The cache is only extended, by times of the given reference. -/
theorem stretch_fst (m : SimpleModel K) (s : K) (phase : Str) (ref : K) :
    (stretch sqrt m s phase ref).1 = m ∨
    ∃ t, delayTimes sqrt m ref (upper phase) = .ok t ∧ lookupRef m.tRef (upper phase) = none ∧
      (stretch sqrt m s phase ref).1 = { m with tRef := m.tRef ++ [(upper phase, t)] } := by
  unfold stretch
  split
  · exact Or.inl rfl
  · simp only
    cases hl : lookupRef m.tRef (upper phase) with
    | some t =>
      left
      simp only
      cases delayTimes sqrt m s (upper phase) <;> rfl
    | none =>
      simp only
      cases hd : delayTimes sqrt m ref (upper phase) with
      | error e => left; rfl
      | ok t =>
        right
        refine ⟨t, rfl, by simp, ?_⟩
        simp only
        cases delayTimes sqrt m s (upper phase) <;> rfl

theorem delayTimes_tRef (m : SimpleModel K) (c : List (Str × List (Option K))) (s : K)
    (phase : Str) : delayTimes sqrt { m with tRef := c } s phase = delayTimes sqrt m s phase := rfl

theorem lookupRef_append (c : List (Str × List (Option K))) (p q : Str) (t : List (Option K)) :
    lookupRef (c ++ [(p, t)]) q =
      (lookupRef c q).or (if p = q then some t else none) := by
  unfold lookupRef
  rw [List.find?_append]
  cases List.find? (fun p => decide (p.1 = q)) c with
  | some x => simp
  | none =>
    by_cases h : p = q <;> simp [h]

/-- State reachable from `m0` where all calls for `phase` used reference `ref`. -/
structure CacheInv (m0 m : SimpleModel K) (phase : Str) (ref : K) : Prop where
  layers : m = { m0 with tRef := m.tRef }
  cache : ∀ t, lookupRef m.tRef (upper phase) = some t →
    delayTimes sqrt m0 ref (upper phase) = .ok t

theorem cacheInv_step (m0 m : SimpleModel K) (phase : Str) (ref : K)
    (h : CacheInv sqrt m0 m phase ref) (c : K × Str × K)
    (hc : upper c.2.1 = upper phase → c.2.2 = ref) :
    CacheInv sqrt m0 (stretch sqrt m c.1 c.2.1 c.2.2).1 phase ref := by
  obtain ⟨s, ph, r⟩ := c
  simp only at hc ⊢
  rcases stretch_fst sqrt m s ph r with h1 | ⟨t, ht, hn, h1⟩
  · rw [h1]; exact h
  · rw [h1]
    refine ⟨?_, ?_⟩
    · simp only; rw [h.layers]
    · intro t' ht'
      simp only at ht'
      rw [lookupRef_append] at ht'
      cases hl : lookupRef m.tRef (upper phase) with
      | some t'' =>
        rw [hl] at ht'
        simp only [Option.some_or, Option.some.injEq] at ht'
        subst ht'
        exact h.cache _ hl
      | none =>
        rw [hl] at ht'
        by_cases he : upper ph = upper phase
        · simp only [he, if_true, Option.none_or, Option.some.injEq] at ht'
          subst ht'
          rw [← he, ← hc he, ← ht, h.layers]
          rfl
        · simp [he] at ht'

/-- **C30 (partial).** If all earlier calls for the same phase used the same reference slowness, the
tables are those of a fresh model. (Without this condition the claim is false, see
`C30_counterexample`.) -/
theorem C30_same_ref_partial (m : SimpleModel K) (hfresh : m.tRef = [])
    (calls : List (K × Str × K)) (s ref : K) (phase : Str)
    (hcalls : ∀ c ∈ calls, upper c.2.1 = upper phase → c.2.2 = ref) :
    (stretch sqrt (afterCalls sqrt m calls) s phase ref).2 = (stretch sqrt m s phase ref).2 := by
  have inv : CacheInv sqrt m (afterCalls sqrt m calls) phase ref := by
    unfold afterCalls
    have aux : ∀ (calls : List (K × Str × K)) (m' : SimpleModel K),
        (∀ c ∈ calls, upper c.2.1 = upper phase → c.2.2 = ref) → CacheInv sqrt m m' phase ref →
        CacheInv sqrt m (calls.foldl (fun m c => (stretch sqrt m c.1 c.2.1 c.2.2).1) m') phase ref := by
      intro calls
      induction calls with
      | nil => intro m' _ h; exact h
      | cons c cs ih =>
        intro m' hc h
        exact ih _ (fun c hc' => hc c (List.mem_cons_of_mem _ hc'))
          (cacheInv_step sqrt m m' phase ref h c (hc c (by simp)))
    exact aux calls m hcalls ⟨rfl, by simp [hfresh, lookupRef]⟩
  generalize afterCalls sqrt m calls = m' at inv
  unfold stretch
  split
  · rfl
  · simp only [hfresh, lookupRef, List.find?_nil, Option.map_none]
    have hd : ∀ x, delayTimes sqrt m' x (upper phase) = delayTimes sqrt m x (upper phase) := by
      intro x; rw [inv.layers]; rfl
    simp only [hd]
    cases hl : lookupRef m'.tRef (upper phase) with
    | none =>
      unfold lookupRef at hl
      simp only [hl]
      cases delayTimes sqrt m ref (upper phase) with
      | error e => rfl
      | ok t => cases delayTimes sqrt m s (upper phase) <;> rfl
    | some t =>
      have := inv.cache t hl
      unfold lookupRef at hl
      simp only [hl, this]
      cases delayTimes sqrt m s (upper phase) <;> rfl

/-- What the code does instead: the reference of the first call for a phase is used by all later
calls for this phase, whatever reference they ask for. -/
theorem C30_stale (m : SimpleModel K) (hfresh : m.tRef = []) (s s' ref ref' : K) (phase : Str)
    (t : List (Option K)) (hok : delayTimes sqrt m ref (upper phase) = .ok t)
    (heven : phase.length % 2 = 0) :
    (stretch sqrt (stretch sqrt m s phase ref).1 s' phase ref').2 =
      (stretch sqrt m s' phase ref).2 := by
  have h1 : (stretch sqrt m s phase ref).1 = { m with tRef := [(upper phase, t)] } := by
    unfold stretch
    rw [if_neg (by omega)]
    simp only [hfresh, lookupRef, List.find?_nil, Option.map_none, hok]
    cases delayTimes sqrt m s (upper phase) <;> simp
  rw [h1]
  unfold stretch
  rw [if_neg (by omega), if_neg (by omega)]
  have hd : ∀ x, delayTimes sqrt { m with tRef := [(upper phase, t)] } x (upper phase)
      = delayTimes sqrt m x (upper phase) := fun _ => rfl
  simp only [lookupRef, List.find?_cons_of_pos, decide_true, Option.map_some, hd, hfresh,
    List.find?_nil, Option.map_none, hok]
  cases delayTimes sqrt m s' (upper phase) <;> rfl

end stretch

/-- One layer, vp = 1 km/s. -/
noncomputable def oneLayer : SimpleModel ℝ := ⟨[0], [1], [1], [1], []⟩

theorem oneLayer_delay (s : ℝ) (h : (s / (1112 / 10)) ^ 2 ≤ 1) :
    delayTimes Real.sqrt oneLayer s "PPPP".toList
      = .ok [some (2 * Real.sqrt (1 - (s / (1112 / 10)) ^ 2))] := by
  rw [C28_delay_times Real.sqrt oneLayer [⟨1, 1, 1⟩] rfl rfl rfl s _ (by decide) (by decide)
    (by intro l hl; simp only [List.mem_singleton] at hl; subst hl; simpa using h)]
  simp only [delaySpec, qSpec, List.length_singleton, List.range_one, List.map_cons, List.map_nil]
  simp only [show (upper "PPPP".toList).count 'P' = 4 by decide,
    show (upper "PPPP".toList).count 'S' = 0 by decide,
    show decide ((upper "PPPP".toList).head? = some 'P') = true by decide]
  simp
  ring

/-- **C30 is false of the code.** After `moveout(ref=0)` the call `moveout(ref=66.72)` on the same
model still stretches to the reference slowness 0. -/
theorem C30_counterexample :
    ∃ (m : SimpleModel ℝ) (phase : Str) (s ref ref' : ℝ), m.tRef = [] ∧
      (stretch Real.sqrt (stretch Real.sqrt m s phase ref).1 s phase ref').2
        ≠ (stretch Real.sqrt m s phase ref').2 := by
  refine ⟨oneLayer, "PPPP".toList, 0, 0, 66.72, rfl, ?_⟩
  have hup : upper "PPPP".toList = "PPPP".toList := by decide
  have d0 := oneLayer_delay 0 (by norm_num)
  have d1 := oneLayer_delay 66.72 (by norm_num)
  have hs1 : Real.sqrt (1 - (66.72 / (1112 / 10)) ^ 2) = 4 / 5 := by
    rw [Real.sqrt_eq_iff_mul_self_eq] <;> norm_num
  have hs0 : Real.sqrt (1 - (0 / (1112 / 10)) ^ 2) = 1 := by simp
  rw [hs1] at d1
  rw [hs0] at d0
  rw [C30_stale Real.sqrt oneLayer rfl 0 0 0 66.72 "PPPP".toList _ (by rw [hup]; exact d0) (by decide)]
  unfold stretch
  rw [if_neg (by decide), if_neg (by decide)]
  simp only [hup, d0, d1, show oneLayer.tRef = [] from rfl, lookupRef, List.find?_nil,
    Option.map_none]
  simp only [show ("PPPP".toList : Str).head? = some 'P' by decide, Option.some.injEq,
    show ('P' : Char) ≠ 'S' by decide, if_false, firstNaN, List.findIdx?_cons, Option.isNone_some,
    List.findIdx?_nil, mirror, sliceTo, slice, clampIdx, negO]
  simp
  norm_num

/-! ## C31 -/
section nan
variable {K : Type} [Field K] [LinearOrder K] (sqrt : K → K)

/-- A cumulative sum is NaN at `i` iff one of the terms up to `i` is (or the start value). -/
theorem cumsumO_getElem_none (acc : Option K) (l : List (Option K)) (i : Nat) :
    (cumsumO acc l)[i]? = some none ↔
      i < l.length ∧ (acc = none ∨ ∃ j ≤ i, l[j]? = some none) := by
  induction l generalizing acc i with
  | nil => simp [cumsumO]
  | cons x l ih =>
    cases i with
    | zero =>
      simp only [cumsumO, List.getElem?_cons_zero, Option.some.injEq, List.length_cons,
        Nat.zero_lt_succ, true_and]
      constructor
      · intro h
        cases acc with
        | none => exact Or.inl rfl
        | some a =>
          cases x with
          | none => exact Or.inr ⟨0, le_refl _, rfl⟩
          | some b => simp at h
      · rintro (rfl | ⟨j, hj, hx⟩)
        · rfl
        · have : j = 0 := by omega
          subst this
          simp only [List.getElem?_cons_zero, Option.some.injEq] at hx
          subst hx
          cases acc <;> rfl
    | succ i =>
      simp only [cumsumO, List.getElem?_cons_succ, List.length_cons]
      rw [ih]
      constructor
      · rintro ⟨h1, h2⟩
        refine ⟨by omega, ?_⟩
        rcases h2 with h2 | ⟨j, hj, h2⟩
        · cases acc with
          | none => exact Or.inl rfl
          | some a =>
            cases x with
            | none => exact Or.inr ⟨0, by omega, rfl⟩
            | some b => simp at h2
        · exact Or.inr ⟨j + 1, by omega, by simpa using h2⟩
      · rintro ⟨h1, h2⟩
        refine ⟨by omega, ?_⟩
        rcases h2 with rfl | ⟨j, hj, h2⟩
        · exact Or.inl rfl
        · cases j with
          | zero =>
            simp only [List.getElem?_cons_zero, Option.some.injEq] at h2
            subst h2
            left
            cases acc <;> rfl
          | succ j => exact Or.inr ⟨j, by omega, by simpa using h2⟩

theorem cumsumO_length (acc : Option K) (l : List (Option K)) : (cumsumO acc l).length = l.length := by
  induction l generalizing acc with
  | nil => rfl
  | cons x l ih => simp [cumsumO, ih]

/-- A layer that is not evanescent for `s` is not evanescent for `s'`. -/
def EasierThan (m : SimpleModel K) (s' s : K) : Prop :=
  ∀ v, v ∈ m.vp ∨ v ∈ m.vs → vslow sqrt v s' = none → vslow sqrt v s = none

theorem easier_of_sq_le [IsStrictOrderedRing K] (m : SimpleModel K) (s' s : K) (h : s' ^ 2 ≤ s ^ 2) :
    EasierThan sqrt m s' s := by
  intro v _ hv
  unfold vslow at hv ⊢
  simp only at hv ⊢
  split at hv
  · rename_i hlt
    rw [if_pos]
    refine lt_of_le_of_lt ?_ hlt
    have hd : (0 : K) < deg2km ^ 2 := by unfold deg2km; norm_num
    have : (s' / deg2km) ^ 2 ≤ (s / deg2km) ^ 2 := by
      rw [div_pow, div_pow]; exact div_le_div_of_nonneg_right h hd.le
    linarith
  · simp at hv

theorem delay_none_mono (m : SimpleModel K) (s' s : K) (phase : Str) (h : EasierThan sqrt m s' s)
    (t' t : List (Option K)) (h' : delayTimes sqrt m s' phase = .ok t')
    (ht : delayTimes sqrt m s phase = .ok t) (i : Nat) (hi : t'[i]? = some none) :
    t[i]? = some none := by
  unfold delayTimes at h' ht
  by_cases hne : upper phase = []
  · simp [hne] at ht
  · simp only [hne, if_false, Except.ok.injEq] at h' ht
    subst h'; subst ht
    rw [cumsumO_getElem_none] at hi ⊢
    obtain ⟨hlt, hnone⟩ := hi
    refine ⟨by simpa [vertSlow] using hlt, ?_⟩
    right
    rcases hnone with hnone | ⟨j, hj, hx⟩
    · simp at hnone
    · refine ⟨j, hj, ?_⟩
      simp only [List.getElem?_map, Option.map_eq_some_iff, List.getElem?_zip_eq_some, Prod.exists]
        at hx ⊢
      obtain ⟨a, b, c, ⟨ha, hb, hc⟩, hx⟩ := hx
      simp only [vertSlow, List.getElem?_map, Option.map_eq_some_iff] at ha hb
      obtain ⟨va, hva, rfl⟩ := ha
      obtain ⟨vb, hvb, rfl⟩ := hb
      refine ⟨if (upper (upper phase)).contains 'P' = true then vslow sqrt va s else some 0,
        if (upper (upper phase)).contains 'S' = true then vslow sqrt vb s else some 0, c,
        ⟨?_, ?_, hc⟩, ?_⟩
      · simp only [vertSlow, List.getElem?_map, hva, Option.map_some]
      · simp only [vertSlow, List.getElem?_map, hvb, Option.map_some]
      · have ma : va ∈ m.vp := List.mem_of_getElem? hva
        have mb : vb ∈ m.vs := List.mem_of_getElem? hvb
        unfold layerDelay at hx ⊢
        by_cases hP : (upper (upper phase)).contains 'P' = true <;>
        by_cases hS : (upper (upper phase)).contains 'S' = true <;>
        simp only [hP, hS, if_true, if_false] at hx ⊢
        · cases h1 : vslow sqrt va s' with
          | none => rw [h va (Or.inl ma) h1]
          | some q1 =>
            cases h2 : vslow sqrt vb s' with
            | none => rw [h vb (Or.inr mb) h2]; split <;> simp_all
            | some q2 => rw [h1, h2] at hx; simp at hx
        · cases h1 : vslow sqrt va s' with
          | none => rw [h va (Or.inl ma) h1]
          | some q1 => rw [h1] at hx; simp at hx
        · cases h2 : vslow sqrt vb s' with
          | none => rw [h vb (Or.inr mb) h2]; simp
          | some q2 => rw [h2] at hx; simp at hx
        · simp at hx

theorem firstNaN_spec (t : List (Option K)) (f : Nat) (h : firstNaN t = some f) :
    ∀ i < f, t[i]? ≠ some none := by
  unfold firstNaN at h
  rw [List.findIdx?_eq_some_iff_getElem] at h
  obtain ⟨hf, -, hlt⟩ := h
  intro i hi hnone
  have := hlt i hi
  rw [List.getElem?_eq_getElem (by omega)] at hnone
  simp only [Option.some.injEq] at hnone
  rw [hnone] at this
  simp at this

theorem firstNaN_none (t : List (Option K)) (h : firstNaN t = none) :
    ∀ i : Nat, t[i]? ≠ some none := by
  unfold firstNaN at h
  rw [List.findIdx?_eq_none_iff] at h
  intro i hi
  have := h none (List.mem_of_getElem? hi)
  simp at this

theorem negO_getElem_none (t : List (Option K)) (i : Nat) :
    (negO t)[i]? = some none ↔ t[i]? = some none := by
  unfold negO
  simp only [List.getElem?_map]
  cases t[i]? with
  | none => simp
  | some x => cases x <;> simp

theorem negO_mem_none (t : List (Option K)) : none ∈ negO t ↔ none ∈ t := by
  rw [List.mem_iff_getElem?, List.mem_iff_getElem?]
  exact exists_congr fun i => negO_getElem_none t i

theorem mirror_no_nan (t : List (Option K)) (h : none ∉ t) : none ∉ mirror t := by
  unfold mirror
  rw [List.mem_append, List.mem_reverse, negO_mem_none]
  rintro (h1 | h1)
  · apply h
    unfold slice at h1
    exact List.mem_of_mem_take (List.mem_of_mem_drop h1)
  · exact h h1

/-- **C31 (partial).** The tables contain no NaN if the uppermost layer is not evanescent for the slowness of
the trace and no layer is evanescent for the reference but not for the trace. The second condition
holds e.g. if the reference slowness is not larger than the one of the trace
(`easier_of_sq_le`) or if no layer is evanescent for the reference. -/
theorem C31_no_nan_partial (m : SimpleModel K) (hfresh : m.tRef = []) (s ref : K) (phase : Str)
    (heasy : EasierThan sqrt m ref s)
    (hfirst : ∀ v, v ∈ m.vp.head? ∨ v ∈ m.vs.head? → vslow sqrt v s ≠ none)
    (t0 t1 : List (Option K)) (hok : (stretch sqrt m s phase ref).2 = .ok (t0, t1)) :
    none ∉ t0 ∧ none ∉ t1 := by
  unfold stretch at hok
  split at hok
  · simp at hok
  · simp only [hfresh, lookupRef, List.find?_nil, Option.map_none] at hok
    cases hr : delayTimes sqrt m ref (upper phase) with
    | error e => simp [hr] at hok
    | ok tr =>
      cases ht : delayTimes sqrt m s (upper phase) with
      | error e => simp [hr, ht] at hok
      | ok t =>
        simp only [hr, ht, Except.ok.injEq, Prod.mk.injEq] at hok
        have hmono := delay_none_mono sqrt m ref s (upper phase) heasy tr t hr ht
        -- index 0 is not NaN
        have h0 : t[0]? ≠ some none := by
          intro hn
          have ht' := ht
          unfold delayTimes at ht'
          by_cases hne : upper (upper phase) = []
          · simp [hne] at ht'
          · simp only [hne, if_false, Except.ok.injEq] at ht'
            rw [← ht', cumsumO_getElem_none] at hn
            obtain ⟨_, hn | ⟨j, hj, hx⟩⟩ := hn
            · simp at hn
            · have hj0 : j = 0 := by omega
              subst hj0
              simp only [List.getElem?_map, Option.map_eq_some_iff, List.getElem?_zip_eq_some,
                Prod.exists, vertSlow] at hx
              obtain ⟨a, b, c, ⟨⟨va, hva, rfl⟩, ⟨vb, hvb, rfl⟩, hc⟩, hx⟩ := hx
              have n1 := hfirst va (Or.inl (by rw [List.head?_eq_getElem?]; exact hva))
              have n2 := hfirst vb (Or.inr (by rw [List.head?_eq_getElem?]; exact hvb))
              obtain ⟨q1, hq1⟩ := Option.ne_none_iff_exists'.1 n1
              obtain ⟨q2, hq2⟩ := Option.ne_none_iff_exists'.1 n2
              rw [hq1, hq2] at hx
              unfold layerDelay at hx
              split at hx
              · simp at hx
              · rename_i hh
                by_cases hP : (upper (upper (upper phase))).contains 'P' = true <;>
                by_cases hS : (upper (upper (upper phase))).contains 'S' = true <;>
                simp only [hP, hS, if_true, if_false] at hh <;>
                exact hh _ _ rfl rfl
        -- the two (possibly negated) arrays
        generalize hT : (if (upper phase).head? = some 'S' then negO t else t) = T at hok
        generalize hR : (if (upper phase).head? = some 'S' then negO tr else tr) = R at hok
        have hT0 : T[0]? ≠ some none := by
          rw [← hT]; split
          · rw [ne_eq, negO_getElem_none]; exact h0
          · exact h0
        have hRT : ∀ i : Nat, R[i]? = some none → T[i]? = some none := by
          intro i; rw [← hT, ← hR]; split
          · rw [negO_getElem_none, negO_getElem_none]; exact hmono i
          · exact hmono i
        have hlenR : R.length = T.length := by
          have l1 : tr.length = t.length := by
            unfold delayTimes at hr ht
            by_cases hne : upper (upper phase) = []
            · simp [hne] at ht
            · simp only [hne, if_false, Except.ok.injEq] at hr ht
              rw [← hr, ← ht, cumsumO_length, cumsumO_length]
              simp [vertSlow]
          rw [← hT, ← hR]; split <;> simp [negO, l1]
        obtain ⟨e0, e1⟩ := hok
        -- no NaN before the cut
        have cut : ∀ (l : List (Option K)), l.length = T.length →
            (∀ i : Nat, l[i]? = some none → T[i]? = some none) →
            none ∉ sliceTo l (match firstNaN T with
              | some i => (i : Int) - 1
              | none => T.length) := by
          intro l hl himp hmem
          unfold sliceTo at hmem
          generalize hc : clampIdx l.length _ = c at hmem
          rw [List.mem_iff_getElem?] at hmem
          obtain ⟨i, hi⟩ := hmem
          rw [List.getElem?_take] at hi
          have hlt : i < c := by
            by_contra hcon
            rw [if_neg hcon] at hi
            simp at hi
          rw [if_pos hlt] at hi
          have hTi := himp i hi
          cases hf : firstNaN T with
          | none => exact firstNaN_none T hf i hTi
          | some f =>
            rw [← hc, hf] at hlt
            simp only at hlt
            have hfpos : f ≠ 0 := by
              rintro rfl
              unfold firstNaN at hf
              rw [List.findIdx?_eq_some_iff_getElem] at hf
              obtain ⟨hf0, hf1, -⟩ := hf
              apply hT0
              rw [List.getElem?_eq_getElem hf0]
              simpa using hf1
            unfold clampIdx at hlt
            rw [if_neg (by omega)] at hlt
            exact firstNaN_spec T f hf i (by omega) hTi
        subst e0; subst e1
        exact ⟨mirror_no_nan _ (cut T rfl fun _ h => h), mirror_no_nan _ (cut R hlenR hRT)⟩

end nan

/-- Two layers of 1 km, vp = 1 km/s, second vs = 1/4 km/s; horizontal slowness 1 s/km is 111.2 s/deg. -/
def nanModel : SimpleModel ℚ := ⟨[0, 1], [1, 1], [1, 2], [1 / 2, 1], []⟩

/-- **C31 is false of the code**, whatever the square root: (1) if the P wave is evanescent already in the
uppermost layer, NaN is at index 0, the cut index is `-1` and NaN stays in the table; (2) if the reference
slowness is evanescent where the slowness of the trace is not, the reference table has NaN. -/
theorem C31_counterexample (sqrt : ℚ → ℚ) :
    (∃ t0 t1, (stretch sqrt nanModel 222.4 "Ps".toList 0).2 = .ok (t0, t1) ∧ none ∈ t0) ∧
    (∃ t0 t1, (stretch sqrt nanModel 0 "Ps".toList 83.4).2 = .ok (t0, t1) ∧ none ∉ t0 ∧
      none ∈ t1) := by
  have e1 : (222.4 : ℚ) / deg2km = 2 := by unfold deg2km; norm_num
  have e2 : (83.4 : ℚ) / deg2km = 3 / 4 := by unfold deg2km; norm_num
  have e3 : (0 : ℚ) / deg2km = 0 := by simp
  have hup : upper "Ps".toList = ['P', 'S'] := by decide
  have hup2 : upper ['P', 'S'] = ['P', 'S'] := by decide
  have hne : ¬ ((['P', 'S'] : Str) = []) := by decide
  have v1 : ∀ v : ℚ, vslow sqrt v 222.4 = if (v⁻¹) ^ 2 - 4 < 0 then none
      else some (sqrt ((v⁻¹) ^ 2 - 4)) := by
    intro v; unfold vslow; rw [e1]; norm_num
  have v2 : ∀ v : ℚ, vslow sqrt v 83.4 = if (v⁻¹) ^ 2 - 9 / 16 < 0 then none
      else some (sqrt ((v⁻¹) ^ 2 - 9 / 16)) := by
    intro v; unfold vslow; rw [e2]; norm_num
  have v3 : ∀ v : ℚ, vslow sqrt v 0 = some (sqrt ((v⁻¹) ^ 2)) := by
    intro v; unfold vslow; rw [e3]
    have : ¬ ((v⁻¹) ^ 2 - 0 ^ 2 < 0) := by simpa using sq_nonneg v⁻¹
    simp only [this, if_false]; norm_num
  have d1 : delayTimes sqrt nanModel 222.4 ['P', 'S'] = .ok [none, none] := by
    simp only [delayTimes, vertSlow, nanModel, List.map_cons, List.map_nil, v1]
    norm_num [layerDelay, cumsumO, hup2, hne]
  have d2 : ∃ a, delayTimes sqrt nanModel 83.4 ['P', 'S'] = .ok [some a, none] := by
    simp only [delayTimes, vertSlow, nanModel, List.map_cons, List.map_nil, v2]
    norm_num [layerDelay, cumsumO, hup2, hne]
  have d3 : ∃ a b, delayTimes sqrt nanModel 0 ['P', 'S'] = .ok [some a, some b] := by
    simp only [delayTimes, vertSlow, nanModel, List.map_cons, List.map_nil, v3]
    norm_num [layerDelay, cumsumO, hup2, hne]
  obtain ⟨a2, d2⟩ := d2
  obtain ⟨a3, b3, d3⟩ := d3
  constructor
  · refine ⟨[none], [some a3], ?_, by simp⟩
    unfold stretch
    rw [if_neg (by decide)]
    simp only [hup, d1, d3, show nanModel.tRef = [] from rfl, lookupRef, List.find?_nil,
      Option.map_none, List.head?_cons, Option.some.injEq, show ('P' : Char) ≠ 'S' by decide, if_false]
    simp [firstNaN, sliceTo, clampIdx, mirror, negO, slice, List.findIdx?_cons]
  · refine ⟨[some (-b3), some a3, some b3], [none, some a2, none], ?_, by simp, by simp⟩
    unfold stretch
    rw [if_neg (by decide)]
    simp only [hup, d2, d3, show nanModel.tRef = [] from rfl, lookupRef, List.find?_nil,
      Option.map_none, List.head?_cons, Option.some.injEq, show ('P' : Char) ≠ 'S' by decide, if_false]
    simp [firstNaN, sliceTo, clampIdx, mirror, negO, slice, List.findIdx?_cons]

/-- Non-vacuity of `C31_no_nan_partial`: the lower layer is evanescent for the slowness of the trace, and
the tables are free of NaN. -/
example : ∃ t0 t1, (stretch (fun x => x) nanModel (834 / 10) "Ps".toList 0).2 = .ok (t0, t1) ∧
    delayTimes (fun x => x) nanModel (834 / 10) "PS".toList = .ok [some 3, none] ∧
    none ∉ t0 ∧ none ∉ t1 := by
  refine ⟨_, _, rfl, ?_, ?_⟩
  · decide +kernel
  · exact C31_no_nan_partial (fun x => x) nanModel rfl (834 / 10) 0 "Ps".toList
      (easier_of_sq_le _ _ _ _ (by norm_num)) (by
        intro v hv
        simp only [nanModel, List.head?_cons, Option.mem_def, Option.some.injEq] at hv
        rcases hv with rfl | rfl <;> decide +kernel) _ _ rfl

end Verif.Props
