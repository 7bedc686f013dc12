import Verif.Props.HarmonicsCounter
import Verif.Props.LstsqExists

/-!
# Harmonic decomposition: cases which meet the hypotheses of C71 - C75
-/

set_option linter.unusedSimpArgs false

namespace Verif.Props
open Verif.Py Verif.Model Verif.Model.Harmonics Verif.Spec Finset

/-- Event of the traces: R traces 1 - 5 and T traces 6 - 10 of events 1 - 5. -/
def hqEvent (r : ℕ) : ℕ := if r ≤ 5 then r else r - 5

/-- A medium with a pure cosine term, two samples with different amplitudes. -/
noncomputable def hqHeap : Heap ℝ := fun r =>
  { net := [], sta := [], loc := [], cha := if r ≤ 5 then ['R'] else ['T'], start := 0, sr := 1,
    data := (List.range 2).map fun (i : ℕ) => ((i : ℝ) + 1) *
      if r ≤ 5 then Real.cos (hpBaz (hqEvent r) * Real.pi / 180) else -Real.sin (hpBaz (hqEvent r) * Real.pi / 180),
    ext := [("event_time", .time (hqEvent r : ℝ)), ("back_azimuth", .num (hpBaz (hqEvent r)))] }

def hqStream : List ℕ := [10, 2, 3, 1, 4, 5, 6, 7, 8, 9]

theorem hqR : ofComponent hqHeap hqStream 'R' = [2, 3, 1, 4, 5] := rfl
theorem hqT : ofComponent hqHeap hqStream 'T' = [10, 6, 7, 8, 9] := rfl

theorem hqUsable (l : List ℕ) (hl : l ≠ []) : Usable hqHeap hqStream l (fun r => hpBaz (hqEvent r)) 2 where
  nonempty := hl
  time r _ := ⟨(hqEvent r : ℝ), rfl⟩
  baz _ _ := rfl
  npts _ _ := rfl
  first := ⟨10, rfl, rfl⟩

theorem hqFive : FiveDirections (ofComponent hqHeap hqStream 'R') (fun r => hpBaz (hqEvent r)) := by
  have h := (C75_counterexample someLstsq someLstsq_ok []).2.2.1
  obtain ⟨p, hp, hd⟩ := h
  refine ⟨p, ?_, ?_⟩
  · intro i
    have := hp i
    rw [hpR] at this
    rw [hqR]
    simp at this ⊢
    tauto
  · intro i j hij k
    have e : ∀ i, hpBaz (hqEvent (p i)) = hpBaz (hpEvent (p i)) := by
      intro i
      have := hp i
      rw [hpR] at this
      have h5 : p i ≤ 5 := by simp at this; omega
      simp [hqEvent, hpEvent, h5]
    beta_reduce
    rw [e, e]
    exact hd i j hij k

theorem hqPaired : Paired hqHeap (ofComponent hqHeap hqStream 'R') (ofComponent hqHeap hqStream 'T') := by
  have ht : ∀ r, (hqHeap r).getTime "event_time" = some (hqEvent r : ℝ) := fun _ => rfl
  rw [hqR, hqT]
  constructor
  · simp [ht, hqEvent]
  · simp [ht, hqEvent]
  · rfl
  · simp [ht, hqEvent]

theorem hqData (r i : ℕ) (hi : i < 2) : (hqHeap r).data.getD i 0 = (i + 1) *
    if r ≤ 5 then Real.cos (hpBaz (hqEvent r) * Real.pi / 180) else -Real.sin (hpBaz (hqEvent r) * Real.pi / 180) := by
  unfold hqHeap
  simp only []
  rw [List.getD_eq_getElem _ _ (by simpa using hi)]
  simp

/-- Coefficients: the cosine term only. -/
def hqCoef (k i : ℕ) : ℝ := if k = 1 then (i : ℝ) + 1 else 0

/-- C71, here with the frequency method. -/
example : ∃ out, harmonics someLstsq [] { components := ['R'], azim := 0, method := "freq".toList, scalars := none }
      hqHeap hqStream = .ok out ∧
    out.map (fun t => t.data) = (List.range 5).map fun k => (List.range 2).map fun i => hqCoef k i := by
  refine C71_one_component someLstsq someLstsq_ok [] _ hqHeap hqStream 'R' (fun r => hpBaz (hqEvent r)) 2 hqCoef rfl
    (Or.inl rfl) rfl (Or.inr ⟨rfl, by norm_num⟩) (hqUsable _ (by rw [hqR]; simp)) hqFive ?_
  intro r hr i hi
  rw [hqR] at hr
  have h5 : r ≤ 5 := by simp at hr; omega
  rw [hqData r i hi, if_pos h5]
  simp [harmonicSum, hqCoef]

/-- C72, here with the default scalars. -/
example : ∃ out, harmonics someLstsq [] hpArgs hqHeap hqStream = .ok out ∧
    out.map (fun t => t.data) = (List.range 10).map fun k => (List.range 2).map fun i => hqCoef k i := by
  refine C72_two_components someLstsq someLstsq_ok [] hpArgs hqHeap hqStream 'R' (fun r => hpBaz (hqEvent r))
    (fun r => hpBaz (hqEvent r)) 2 3 (3 / 10) hqCoef rfl (Or.inl rfl) rfl (by norm_num) (by norm_num) (Or.inl rfl)
    (hqUsable _ (by rw [hqR]; simp)) (hqUsable _ (by rw [hqT]; simp)) hqPaired ?_ hqFive ?_ ?_
  · intro r _ q _ he
    have ht : ∀ r, (hqHeap r).getTime "event_time" = some (hqEvent r : ℝ) := fun _ => rfl
    rw [ht, ht] at he
    have : hqEvent r = hqEvent q := by exact_mod_cast Option.some.inj he
    rw [this]
  · intro r hr i hi
    rw [hqR] at hr
    have h5 : r ≤ 5 := by simp at hr; omega
    rw [hqData r i hi, if_pos h5]
    simp [radialSum, hqCoef, hpArgs]
  · intro r hr i hi
    rw [hqT] at hr
    have h5 : ¬ r ≤ 5 := by simp at hr; omega
    rw [hqData r i hi, if_neg h5]
    simp [transverseSum, hqCoef, hpArgs, Real.cos_add_pi_div_two]

/-- C73 and C75 apply to the same stream. -/
example : ∃ (out out' : List (Trace ℝ)) (X : ℕ → ℕ → ℝ), harmonics someLstsq [] hpArgs hqHeap hqStream = .ok out ∧
      harmonics someLstsq [] { hpArgs with azim := hpArgs.azim + 30 } hqHeap hqStream = .ok out' ∧
      out.map (fun t => t.data) = ((List.range 10).map fun k => (List.range 2).map fun i => X k i) ∧
      out'.map (fun t => t.data) = ((List.range 10).map fun k => (List.range 2).map fun i =>
        rotated (radians 30) (fun k => X k i) k) :=
  C73_rotation_two someLstsq someLstsq_ok [] hpArgs 30 hqHeap hqStream 'R' _ _ 2 rfl (Or.inl rfl) (Or.inl rfl)
    (hqUsable _ (by rw [hqR]; simp)) (hqUsable _ (by rw [hqT]; simp)) (by rw [hqR, hqT]; rfl)

example : ∃ (pairs : List (ℕ × ℕ)), pairs.length = 5 ∧
    ∀ p ∈ pairs, (hqHeap p.1).getTime "event_time" = (hqHeap p.2).getTime "event_time" := by
  obtain ⟨pairs, out, h1, -, h3, -⟩ := C75_pairing_partial someLstsq someLstsq_ok [] hpArgs hqHeap hqStream 'R' _ _ 2 rfl
    (Or.inl rfl) (Or.inl rfl) (hqUsable _ (by rw [hqR]; simp)) (hqUsable _ (by rw [hqT]; simp)) hqPaired
  refine ⟨pairs, ?_, h3⟩
  have := h1.length_eq
  rw [hqR] at this
  simpa using this

/-- C74 for the same stream. -/
example : harmonics someLstsq [] { hpArgs with method := "freq".toList } hqHeap hqStream =
    harmonics someLstsq [] { hpArgs with method := "time".toList } hqHeap hqStream :=
  C74_methods_partial someLstsq someLstsq_ok [] hpArgs hqHeap hqStream 2 (by norm_num)
    (by intro f hf; injection hf with hf; subst hf; rfl) (fun _ _ _ _ => rfl)

end Verif.Props
