import Verif.Props.DoubleMoveoutEnd
import Verif.Props.DoubleNorm
import Verif.Model.DoubleMoveoutS

/-!
# C223 for S multiples
-/

set_option linter.unusedSimpArgs false
set_option linter.unusedSectionVars false

namespace Verif.Spec

/-- The times of the samples of an S multiple in the order of their distance, relative to the onset. -/
def timesBefore {K : Type} [Field K] (tr : Py.Trace K) (onset : K) (i0 : ℤ) : List K :=
  (List.range i0.toNat).map fun (k : Nat) => -(-(tr.start - onset + (i0 : K) * tr.delta) - (k : K) * tr.delta)

/-- Table with the opposite sign. -/
def opposite {K : Type} [Field K] (l : List K) : List K := l.map fun x => -x

end Verif.Spec

namespace Verif.Props
open Verif.Py Verif.Model Verif.Model.Simple Verif.Model.DoubleInterp Verif.Model.DoubleMoveoutS Verif.Spec

theorem near_opposite (ε : ℝ) (u : List ℝ) (t : List ℚ) (h : NearTables ε u (toReals t)) : NearTables ε (opposite u) (toReals (opposite t)) := by
  have hl : t.length = u.length := by simpa [toReals] using h.1
  refine ⟨by simp [toReals, opposite, hl], fun i hi => ?_⟩
  have hi' : i < u.length := by simpa [opposite] using hi
  have h1 := h.2 i hi'
  rw [toReals_getD] at h1 ⊢
  unfold opposite
  rw [getD_map_zero _ _ _ hi', getD_map_zero _ _ _ (by omega)]
  push_cast
  rw [← abs_neg]
  have : -(-((t.getD i 0 : ℚ) : ℝ) - -u.getD i 0) = ((t.getD i 0 : ℚ) : ℝ) - u.getD i 0 := by ring
  rwa [this]

theorem opposite_opposite {K : Type} [Field K] (l : List K) : (l.map fun x => -x).map (fun x => -x) = l := by
  rw [List.map_map]
  have : ((fun x : K => -x) ∘ fun x => -x) = id := by funext x; simp
  rw [this, List.map_id]

/-- The sample times of an S multiple in double precision. -/
theorem beforeTimes64_err (i0 : ℤ) (tr : Trace ℚ) (onset M : ℚ) (h1 : |tr.start - onset| ≤ M) (h2 : |(i0 : ℚ) * tr.delta| ≤ M)
    (h3 : ∀ k < i0.toNat, |(k : ℚ) * tr.delta| ≤ M) :
    (beforeTimes64 i0 tr onset).length = i0.toNat ∧ ∀ k < i0.toNat,
      |(beforeTimes64 i0 tr onset).getD k 0 - (tr.start + ((i0 : ℚ) + k) * tr.delta - onset)| ≤ 20 * M / 2 ^ 53 := by
  refine ⟨by simp [beforeTimes64], fun k hk => ?_⟩
  let tr' : Trace ℚ := ⟨tr.net, tr.sta, tr.loc, tr.cha, tr.start, tr.sr, List.replicate (i0.toNat + i0.toNat) 0, []⟩
  have hn : tr'.npts - i0.toNat = i0.toNat := by simp [tr', Trace.npts]
  obtain ⟨-, h⟩ := C213_sampleTimes i0 tr' onset M h1 h2 (by rw [hn]; exact h3)
  have := h k (by rw [hn]; exact hk)
  have e : (beforeTimes64 i0 tr onset).getD k 0 = (sampleTimes64 i0 tr' onset).getD k 0 := by
    unfold beforeTimes64 sampleTimes64
    rw [hn, List.getD_eq_getElem _ _ (by simpa using hk), List.getD_eq_getElem _ _ (by simpa using hk)]
    simp only [List.getElem_map, List.getElem_range]
    rw [← fl64_neg]
    congr 1
    change _ = fl64 (fl64 (tr.start - onset) + fl64 ((i0 : ℚ) * fl64 tr.delta)) + fl64 ((k : ℚ) * fl64 tr.delta)
    ring
  rw [e]
  exact this

/-- **C223** (S multiples).  The samples before the onset after move out in double precision against the exact ones. -/
theorem C223_multiple (find : List ℚ → ℚ → Nat) (hfind : FindSpec find) (findR : List ℝ → ℝ → Nat) (hfR : FindSpec findR) (tr : Trace ℚ)
    (onset : ℚ) (t0 t1 : List ℚ) (u0 u1 : List ℝ) (lo hi ε : ℝ) (T A D M : ℚ) (hlo : 0 < lo) (hhi : 0 ≤ hi) (hε : 0 ≤ ε) (hD : 0 ≤ D)
    (hlen : u0.length = u1.length) (h2 : 2 ≤ u0.length) (hs : Stretch lo hi (opposite u0) (opposite u1)) (hn0 : NearTables ε u0 (toReals t0))
    (hn1 : NearTables ε u1 (toReals t1)) (hinc : Increasing (opposite t0)) (hT0 : 0 ≤ T) (hT : ∀ y ∈ t1, |y| ≤ T)
    (i0 : ℤ) (hi0 : i0 = index0 tr onset) (old : List ℚ) (hold : old = (sliceTo tr.data i0).reverse) (hol : old.length = i0.toNat)
    (ho2 : 2 ≤ old.length) (hδ : 0 < tr.delta)
    (hA0 : 0 ≤ A) (hA : ∀ y ∈ old, |y| ≤ A) (hdiff : ∀ i, i + 1 < old.length → |old.getD (i + 1) 0 - old.getD i 0| ≤ D)
    (hM1 : |tr.start - onset| ≤ M) (hM2 : |(i0 : ℚ) * tr.delta| ≤ M) (hM3 : ∀ k < i0.toNat, |(k : ℚ) * tr.delta| ≤ M)
    (hin : ∀ x ∈ timesBefore (realTrace tr) (onset : ℝ) i0, (opposite u0).getD 0 0 ≤ x ∧ x ≤ (opposite u0).getD (u0.length - 1) 0)
    (hin' : ∀ x ∈ beforeTimes64 i0 tr onset, (opposite t0).getD 0 0 ≤ x ∧ x ≤ (opposite t0).getD (t0.length - 1) 0) (τ η : ℝ)
    (hτ : τ = 20 * M / 2 ^ 53) (hη : η = T / 2 ^ 49 + (ε + hi * (2 * ε + τ))) (hsmall : 2 * η ≤ lo * tr.delta) :
    ∃ (newt data : List ℝ) (data64 : List ℚ), moveoutS findR (realTrace tr) (onset : ℝ) u0 u1 = .ok (data.reverse ++ toReals (sliceFrom tr.data i0)) ∧
      moveoutS64 find i0 tr onset t0 t1 = .ok (data64.reverse ++ sliceFrom tr.data i0) ∧
      interpAll findR (timesBefore (realTrace tr) (onset : ℝ) i0) (opposite u0) (opposite u1) (some 0) (some 0) = .ok newt ∧
      newt.length = old.length ∧ data.length = old.length ∧ data64.length = old.length ∧
      ∀ i < old.length, η + τ < |(timesBefore (realTrace tr) (onset : ℝ) i0).getD i 0 - newt.getD (old.length - 1) 0| →
        η + τ < |(timesBefore (realTrace tr) (onset : ℝ) i0).getD i 0 - newt.getD 0 0| →
        |((data64.getD i 0 : ℚ) : ℝ) - data.getD i 0| ≤ A / 2 ^ 49 + D * (2 * η + τ) / (lo * tr.delta) := by
  set t := timesBefore (realTrace tr) (onset : ℝ) i0 with ht
  set s := beforeTimes64 i0 tr onset with hsdef
  have hδR : (0 : ℝ) < (tr.delta : ℚ) := by exact_mod_cast hδ
  have hc : 0 < lo * (tr.delta : ℚ) := mul_pos hlo hδR
  have hDR : (0 : ℝ) ≤ (D : ℚ) := by exact_mod_cast hD
  have hM0 : 0 ≤ M := (abs_nonneg _).trans hM1
  have hM0R : (0 : ℝ) ≤ (M : ℚ) := by exact_mod_cast hM0
  have hTR : (0 : ℝ) ≤ (T : ℚ) := by exact_mod_cast hT0
  have hτ0 : 0 ≤ τ := by rw [hτ]; positivity
  have hη0 : 0 ≤ η := by rw [hη]; positivity
  have htl : t.length = old.length := by rw [ht, hol]; simp [timesBefore]
  obtain ⟨hsl, hserr⟩ := beforeTimes64_err i0 tr onset M hM1 hM2 hM3
  rw [← hsdef] at hsl hserr
  rw [← hol] at hsl hserr
  have htg : ∀ i < old.length, t.getD i 0 = ((tr.start + ((i0 : ℚ) + i) * tr.delta - onset : ℚ) : ℝ) := by
    intro i hi
    rw [List.getD_eq_getElem _ _ (by rw [htl]; exact hi)]
    simp only [ht, timesBefore, List.getElem_map, List.getElem_range, realTrace_delta]
    simp only [realTrace]
    push_cast
    ring
  have hst : ∀ i < old.length, |((s.getD i 0 : ℚ) : ℝ) - t.getD i 0| ≤ τ := by
    intro i hi
    rw [htg i hi, hτ]
    exact_mod_cast hserr i hi
  have htm : ∀ i < old.length, t.getD i 0 ∈ t := by
    intro i hi
    rw [List.getD_eq_getElem _ _ (by rw [htl]; exact hi)]
    exact List.getElem_mem _
  have hsm : ∀ i < old.length, s.getD i 0 ∈ s := by
    intro i hi
    rw [List.getD_eq_getElem _ _ (by rw [hsl]; exact hi)]
    exact List.getElem_mem _
  have hl0 : t0.length = u0.length := by simpa [toReals] using hn0.1
  have hl1 : t1.length = u1.length := by simpa [toReals] using hn1.1
  have hou : (opposite u0).length = u0.length := by simp [opposite]
  have hou1 : (opposite u1).length = u1.length := by simp [opposite]
  have hot : (opposite t0).length = t0.length := by simp [opposite]
  have hot1 : (opposite t1).length = t1.length := by simp [opposite]
  have hm0 := near_opposite ε u0 t0 hn0
  have hm1 := near_opposite ε u1 t1 hn1
  have hT' : ∀ y ∈ opposite t1, |y| ≤ T := by
    intro y hy
    obtain ⟨z, hz, rfl⟩ := List.mem_map.1 hy
    rw [abs_neg]
    exact hT z hz
  have hne : u0 ≠ [] := by intro h; rw [h] at h2; simp at h2
  have hne' : t0 ≠ [] := by intro h; rw [h] at hl0; simp at hl0; omega
  set k := t.map (interp1 findR (opposite u0) (opposite u1) (some 0) (some 0)) with hk
  set k' := s.map (interp64 find (opposite t0) (opposite t1) (some 0) (some 0)) with hk'
  have hkl : k.length = old.length := by rw [hk, List.length_map, htl]
  have hkl' : k'.length = old.length := by rw [hk', List.length_map, hsl]
  have hkne : k ≠ [] := by intro h; rw [h] at hkl; simp at hkl; omega
  have hkne' : k' ≠ [] := by intro h; rw [h] at hkl'; simp at hkl'; omega
  -- new times
  have hkk : NearTables η k (toReals k') := by
    refine ⟨by simp only [toReals, List.length_map]; rw [hkl', hkl], fun i hi => ?_⟩
    have hi' : i < old.length := by omega
    rw [toReals_getD, hk, hk', getD_map_zero _ _ _ (by omega), getD_map_zero _ _ _ (by omega)]
    obtain ⟨g1, g2⟩ := hin _ (htm i hi')
    obtain ⟨g3, g4⟩ := hin' _ (hsm i hi')
    have := interp64_real find hfind findR hfR (opposite u0) (opposite u1) (opposite t0) (opposite t1) _ ε ε τ T hT0 hT' hhi hε
      (by rw [hou, hou1, hlen]) (by rw [hou]; exact h2) (fun i h => (hs i h).1) (fun i h => by
      obtain ⟨s1, s2, s3⟩ := hs i h
      rw [abs_of_nonneg ((mul_nonneg hlo.le s1).trans s2)]
      exact s3) hm0 hm1 hinc (some 0) (some 0) (t.getD i 0) (s.getD i 0) (hst i hi') (.inr ⟨g1, g3⟩) (.inr (by
        rw [hou]
        refine ⟨fun _ => ?_, fun _ => g2⟩
        rw [toReals_getD, ← hl0]
        exact_mod_cast g4))
    rw [hη]
    simpa using this
  have hsp : ∀ i, i + 1 < k.length → lo * (tr.delta : ℚ) ≤ k.getD (i + 1) 0 - k.getD i 0 := by
    intro i hi
    rw [hk, getD_map_zero _ _ _ (by omega), getD_map_zero _ _ _ (by omega)]
    have e : t.getD (i + 1) 0 - t.getD i 0 = (tr.delta : ℚ) := by
      rw [htg _ (by omega), htg _ (by omega)]; push_cast; ring
    have := stretch_spaced findR hfR (opposite u0) (opposite u1) lo _ hs (by rw [hou]; exact h2) (some 0) (some 0) (t.getD i 0) (t.getD (i + 1) 0) (by linarith)
      (hin _ (htm i (by omega))).1 (by rw [hou]; exact (hin _ (htm (i + 1) (by omega))).2)
    rwa [e] at this
  have hinc' : Increasing k' := by
    have step : ∀ i, i + 1 < k'.length → 0 ≤ k'.getD (i + 1) 0 - k'.getD i 0 := by
      intro i hi
      have q1 := hkk.2 i (by omega)
      have q2 := hkk.2 (i + 1) (by omega)
      rw [toReals_getD] at q1 q2
      have q3 := hsp i (by omega)
      have : (0 : ℝ) ≤ ((k'.getD (i + 1) 0 - k'.getD i 0 : ℚ) : ℝ) := by
        push_cast
        linarith [(abs_le.1 q1).2, (abs_le.1 q2).1]
      exact_mod_cast this
    intro i j hij hj
    have := steps_mono (fun i => k'.getD i 0) k'.length step i (j - i) (by omega)
    have e : i + (j - i) = j := by omega
    simpa only [e] using this
  refine ⟨k, t.map (interp1 findR k (toReals old) (some 0) (some 0)), s.map (interp64 find k' old (some 0) (some 0)), ?_, ?_, ?_, hkl,
    by simp [htl], by simp [hsl], ?_⟩
  · unfold moveoutS
    rw [index0_real, ← hi0]
    have e1 : (sliceTo (realTrace tr).data i0).reverse = toReals old := by
      rw [hold, show (realTrace tr).data = toReals tr.data from rfl, sliceTo_real]
      unfold toReals
      rw [List.map_reverse]
    have e2 : sliceFrom (realTrace tr).data i0 = toReals (sliceFrom tr.data i0) := by rw [← sliceFrom_real]; rfl
    simp only [bind, Except.bind]
    rw [e1, e2]
    rw [show ((List.range i0.toNat).map fun (k : Nat) =>
        -(-((realTrace tr).start - onset + (i0 : ℝ) * (realTrace tr).delta) - (k : ℝ) * (realTrace tr).delta)) = t from rfl,
      show (u0.map fun x => -x) = opposite u0 from rfl, show (u1.map fun x => -x) = opposite u1 from rfl]
    unfold interpAll
    rw [if_neg (not_not.2 (by rw [hou, hou1, hlen])), if_neg (by simpa [opposite] using hne)]
    simp only
    rw [← hk, opposite_opposite, if_neg (not_not.2 (by simpa [toReals] using hkl)), if_neg hkne]
  · unfold moveoutS64
    simp only [bind, Except.bind]
    rw [← hold, ← hsdef, show (t0.map fun x => -x) = opposite t0 from rfl, show (t1.map fun x => -x) = opposite t1 from rfl,
      interpAll64_ok find s (opposite t0) (opposite t1) (some 0) (some 0) (by rw [hot, hot1]; omega) (by simpa [opposite] using hne')]
    simp only
    rw [← hk', opposite_opposite, interpAll64_ok find s k' old (some 0) (some 0) hkl' hkne']
  · unfold interpAll
    rw [if_neg (not_not.2 (by rw [hou, hou1, hlen])), if_neg (by simpa [opposite] using hne)]
  intro i hi hfar hfar0
  rw [getD_map0 _ _ _ (by omega), getD_map_zero _ _ _ (by omega)]
  have n1 := abs_le.1 (hkk.2 (k.length - 1) (by omega))
  rw [← hkl] at hfar
  have hx := abs_le.1 (hst i hi)
  have holdl : (toReals old).length = old.length := by simp [toReals]
  have n0 := hkk.2 0 (by omega)
  rw [toReals_getD] at n0
  have n0' := abs_le.1 n0
  have hright : t.getD i 0 ≤ k.getD (k.length - 1) 0 ↔ ((s.getD i 0 : ℚ) : ℝ) ≤ (toReals k').getD (k.length - 1) 0 := by
    rcases le_or_gt 0 (t.getD i 0 - k.getD (k.length - 1) 0) with h0 | h0
    · rw [abs_of_nonneg h0] at hfar
      exact ⟨fun _ => by linarith, fun _ => by linarith⟩
    · rw [abs_of_neg h0] at hfar
      exact ⟨fun _ => by linarith, fun _ => by linarith⟩
  have hG : 0 ≤ (A : ℝ) / 2 ^ 49 + D * (2 * η + τ) / (lo * (tr.delta : ℚ)) := by
    have : (0 : ℝ) ≤ (A : ℚ) := by exact_mod_cast hA0
    positivity
  rcases lt_or_ge (t.getD i 0) (k.getD 0 0) with hb0 | hb0
  · -- before the first new time: zeros
    rw [abs_of_neg (by linarith)] at hfar0
    have hb1 : s.getD i 0 < k'.getD 0 0 := by
      have : ((s.getD i 0 : ℚ) : ℝ) < ((k'.getD 0 0 : ℚ) : ℝ) := by linarith
      exact_mod_cast this
    unfold interp64 interp1
    rw [if_pos hb1, if_pos hb0]
    simpa using hG
  · rw [abs_of_nonneg (by linarith)] at hfar0
    have hb1 : k'.getD 0 0 ≤ s.getD i 0 := by
      have : ((k'.getD 0 0 : ℚ) : ℝ) ≤ ((s.getD i 0 : ℚ) : ℝ) := by linarith
      exact_mod_cast this
    have := interp64_real find hfind findR hfR k (toReals old) k' old ((D : ℚ) / (lo * (tr.delta : ℚ))) η 0 τ A hA0 hA (by positivity) hη0
      (by rw [hkl, holdl]) (by omega)
      (fun i h => hc.le.trans (hsp i h)) (fun i h => by
        have q := hdiff i (by omega)
        rw [toReals_getD, toReals_getD]
        have q' : |((old.getD (i + 1) 0 : ℚ) : ℝ) - ((old.getD i 0 : ℚ) : ℝ)| ≤ (D : ℚ) := by exact_mod_cast q
        refine q'.trans ?_
        rw [div_mul_eq_mul_div, le_div_iff₀ hc]
        exact mul_le_mul_of_nonneg_left (hsp i h) hDR) hkk ⟨rfl, fun i _ => by simp⟩ hinc' (some 0) (some 0) (t.getD i 0) (s.getD i 0)
        (hst i hi) (.inr ⟨hb0, hb1⟩) (.inr hright)
    simp only [Option.map_none, Option.map_some, Rat.cast_zero] at this
    refine this.trans (le_of_eq ?_)
    ring

/-- Trace of the example below. -/
def errTraceS : Trace ℚ :=
  { net := [], sta := [], loc := [], cha := [], start := 0, sr := 1, data := [0, 2, 3, 1, 0, 9], ext := [] }

-- an onset at sample 4, tables which differ by 1/1000 s from the exact ones
example : ∃ (newt data : List ℝ) (data64 : List ℚ),
    moveoutS npFind (realTrace errTraceS) ((4 : ℚ) : ℝ) [2, 0, -4001 / 1000, -8] [2, 0, -3, -5] =
      .ok (data.reverse ++ toReals (sliceFrom errTraceS.data 4)) ∧
    moveoutS64 npFind 4 errTraceS 4 [2, 0, -4, -8] [2, 0, -3, -5] = .ok (data64.reverse ++ sliceFrom errTraceS.data 4) ∧
    interpAll npFind (timesBefore (realTrace errTraceS) ((4 : ℚ) : ℝ) 4) (opposite [2, 0, -4001 / 1000, -8]) (opposite [2, 0, -3, -5])
      (some 0) (some 0) = .ok newt ∧ newt.length = 4 ∧ data.length = 4 ∧ data64.length = 4 ∧
    ∀ i < 4, 1 / 200 < |(timesBefore (realTrace errTraceS) ((4 : ℚ) : ℝ) 4).getD i 0 - newt.getD 3 0| →
      1 / 200 < |(timesBefore (realTrace errTraceS) ((4 : ℚ) : ℝ) 4).getD i 0 - newt.getD 0 0| →
      |((data64.getD i 0 : ℚ) : ℝ) - data.getD i 0| ≤ 1 / 20 := by
  have hδ : errTraceS.delta = 1 := by decide +kernel
  have times : ∀ x ∈ timesBefore (realTrace errTraceS) ((4 : ℚ) : ℝ) 4, x = 0 ∨ x = 1 ∨ x = 2 ∨ x = 3 := by
    intro x hx
    have e : timesBefore (realTrace errTraceS) ((4 : ℚ) : ℝ) 4 = [0, 1, 2, 3] := by
      have e1 : (4 : ℤ).toNat = 4 := rfl
      unfold timesBefore
      rw [e1, realTrace_delta, hδ]
      simp [List.range_succ, realTrace, errTraceS]
    rw [e] at hx
    simpa using hx
  obtain ⟨newt, data, data64, h1, h2, h3, h4, h5, h6, h7⟩ := C223_multiple npFind npFind_spec npFind npFind_spec errTraceS 4
    [2, 0, -4, -8] [2, 0, -3, -5] [2, 0, -4001 / 1000, -8] [2, 0, -3, -5] (1 / 2) 1 (1 / 1000) 5 3 2 4
    (by norm_num) (by norm_num) (by norm_num) (by norm_num) rfl (by simp)
    (by intro i hi
        have : i = 0 ∨ i = 1 ∨ i = 2 := by simp [opposite] at hi; omega
        rcases this with rfl | rfl | rfl <;> norm_num [opposite])
    ⟨rfl, by
        intro i hi
        have : i = 0 ∨ i = 1 ∨ i = 2 ∨ i = 3 := by simp at hi; omega
        rcases this with rfl | rfl | rfl | rfl <;> norm_num [toReals, abs_le]⟩
    ⟨rfl, by
        intro i hi
        have : i = 0 ∨ i = 1 ∨ i = 2 ∨ i = 3 := by simp at hi; omega
        rcases this with rfl | rfl | rfl | rfl <;> norm_num [toReals]⟩
    ((increasing_iff_pairwise _).2 (by decide +kernel)) (by norm_num) (by decide +kernel) 4
    (by decide +kernel) [1, 3, 2, 0] (by decide +kernel) (by decide +kernel) (by decide) (by decide +kernel) (by norm_num) (by decide +kernel)
    (by intro i hi
        have : i = 0 ∨ i = 1 ∨ i = 2 := by simp at hi; omega
        rcases this with rfl | rfl | rfl <;> decide +kernel)
    (by decide +kernel) (by decide +kernel) (by decide +kernel)
    (by intro x hx
        rcases times x hx with rfl | rfl | rfl | rfl <;> norm_num [opposite])
    (by decide +kernel) _ _ rfl rfl (by rw [hδ]; norm_num)
  refine ⟨newt, data, data64, h1, h2, h3, h4, h5, h6, fun i hi hf hf0 => ?_⟩
  refine (h7 i hi (lt_of_le_of_lt ?_ hf) (lt_of_le_of_lt ?_ hf0)).trans ?_
  · norm_num
  · norm_num
  · rw [hδ]; norm_num

end Verif.Props
