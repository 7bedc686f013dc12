import Verif.Props.KeptCodes
import Verif.Props.StreamDefaults

/-!
# Streams with several phases (C205; `rf/rfstream.py` lines 155-182, 308-312, 352-354, 370-371)
-/

set_option linter.unusedSimpArgs false
set_option linter.unusedSectionVars false

namespace Verif.Props
open Verif.Py Verif.Model Verif.Spec

section phases
variable {K : Type} [Field K] [LinearOrder K] [IsStrictOrderedRing K] [FloorRing K]

theorem streamMethod_of_phases (h h' : Heap K) (s : List ℕ)
    (hh : ∀ r ∈ s, (h' r).ext.get "phase" = (h r).ext.get "phase") : streamMethod h' s = streamMethod h s := by
  unfold streamMethod uniqueHeader
  rw [List.filterMap_congr hh]

/-- **C205** (part).  If all traces that have a phase have the same one, the method is its last letter in upper case, and this
is what `rf` and `moveout` use if nothing else is given. -/
theorem C205_one_phase_partial (h : Heap K) (s : List ℕ) (p : Str) (c : Char)
    (hc : CommonEntry h s "phase" (.str (p ++ [c]))) :
    streamMethod h s = .ok (some [c.toUpper]) ∧
    (∀ (env : RfEnv K) (a : RfArgs K), rf env { a with method := none } (h, s) =
      rf env { a with method := some [c.toUpper] } (h, s)) ∧
    (c.toUpper = 'P' → moveoutPhase h s none = .ok "Ps".toList) ∧
    (c.toUpper = 'S' → moveoutPhase h s none = .ok "Sp".toList) := by
  have hm : streamMethod h s = .ok (some [c.toUpper]) := by
    unfold streamMethod
    rw [(uniqueHeader_eq_some h s "phase" _).2 hc]
    simp only [List.getLast?_concat]
    rfl
  refine ⟨hm, fun env a => C88_method env a (h, s) _ hm, fun hp => ?_, fun hp => ?_⟩
  · unfold moveoutPhase
    rw [hm, hp]
    rfl
  · unfold moveoutPhase
    rw [hm, hp]
    rfl

/-- **C205** Two traces with different phases, whatever their last letters: there is no method, `rf` and `moveout` without
further arguments raise an exception and leave the stream as it is. -/
theorem C205_several (h : Heap K) (s : List ℕ) (r q : ℕ) (hr : r ∈ s) (hq : q ∈ s) (v w : Val K)
    (hv : (h r).ext.get "phase" = some v) (hw : (h q).ext.get "phase" = some w) (hne : v ≠ w) :
    streamMethod h s = .ok none ∧
    (∀ (env : RfEnv K) (a : RfArgs K), a.method = none → rf env a (h, s) = ((h, s), some .valueError)) ∧
    (∀ (sqrt : K → K) (find : List K → K → ℕ) (nanCase : Trace K → Res (List K)) (info : Str) (ref : K)
      (m : Simple.SimpleModel K), streamMoveout sqrt find nanCase info none ref m (h, s) = (m, (h, s), some .keyError)) := by
  have hno : ¬ ∃ u, CommonEntry h s "phase" u := by
    rintro ⟨u, -, hu⟩
    exact hne ((hu r hr v hv).trans (hu q hq w hw).symm)
  have hm : streamMethod h s = .ok none := by
    unfold streamMethod
    rw [(uniqueHeader_eq_none h s "phase").2 hno]
  refine ⟨hm, fun env a ha => (C41_derived env a (h, s) ha).1 hno, fun sqrt find nanCase info ref m => ?_⟩
  unfold streamMoveout moveoutPhase
  simp only [hm]

/-- **C205** What `rf` does with the phases: if the method used is the one of the traces which remain, these keep their phase;
otherwise all of them get the method as phase. -/
theorem C205_rf (env : RfEnv K) (hk : KeepsSource env) (a : RfArgs K) (hfunc : a.deconvolve ≠ some "func".toList)
    (st st' : SState K) (hok : rf env a st = (st', none)) (m : Str) (hm : rfMethod st.1 st.2 a.method = .ok m) :
    (streamMethod st.1 st'.2 = .ok (some m) → ∀ r ∈ st'.2, (st'.1 r).ext.get "phase" = (st.1 r).ext.get "phase") ∧
    (streamMethod st.1 st'.2 ≠ .ok (some m) → ∀ r ∈ st'.2, (st'.1 r).ext.get "phase" = some (.str m)) := by
  unfold rf at hok
  obtain ⟨stb, hb, hfin⟩ := andThen_ok hok
  simp only [Prod.mk.injEq, and_true] at hfin
  subst hfin
  unfold rfBody at hb
  rw [hm] at hb
  simp only at hb
  obtain ⟨stm, h1, h2⟩ := andThen_ok hb
  have hphase : ∀ r, (stm.1 r).ext.get "phase" = (st.1 r).ext.get "phase" := by
    intro r
    have := rfBefore_attr (sourceAttr "phase") (fun _ _ => rfl) (fun k' hk' x t => sourceAttr_put "phase" k' (by
      rintro rfl; revert hk'; decide) x t) env (hk "phase" (by decide)) a hfunc m st r
    simp only [h1] at this
    unfold sourceAttr at this
    simp only [Prod.mk.injEq] at this
    exact this.2.2.2
  have hinfo : ∀ r, (addInfoAll env.infoRf stb.1 stb.2 r).ext.get "phase" = (stb.1 r).ext.get "phase" := fun r =>
    forEachE_inv (fun t : Trace K => t.ext.get "phase") _ (fun t t' => addInfo_attr (fun t : Trace K => t.ext.get "phase") (fun x t => by
      rw [put_get, if_neg (by decide)]) _ t t') stb.1 stb.2 r
  have htype : ∀ r, (setType "rf".toList stm.1 stm.2 r).ext.get "phase" = (stm.1 r).ext.get "phase" := fun r =>
    forEach_attr (fun t : Trace K => t.ext.get "phase") _ (fun t => by
      rw [put_get, if_neg (by decide)]) stm.1 stm.2 r
  have hsm : streamMethod (setType "rf".toList stm.1 stm.2) stm.2 = streamMethod st.1 stm.2 :=
    streamMethod_of_phases _ _ _ fun r _ => (htype r).trans (hphase r)
  unfold labelStage at h2
  simp only [hsm] at h2
  cases hs : streamMethod st.1 stm.2 with
  | error e => rw [hs] at h2; simp at h2
  | ok m' =>
    rw [hs] at h2
    simp only [Prod.mk.injEq, and_true] at h2
    by_cases hmm : m' = some m
    · subst hmm
      rw [if_neg (by simp)] at h2
      subst h2
      simp only
      refine ⟨fun _ r _ => by rw [hinfo, htype, hphase], fun h => absurd hs h⟩
    · rw [if_pos hmm] at h2
      subst h2
      simp only
      refine ⟨fun h => ?_, fun _ r hr => ?_⟩
      · rw [hs] at h
        injection h with h
        exact absurd h hmm
      · rw [hinfo]
        exact Heap.forEach_estab (fun t : Trace K => t.ext.get "phase" = some (.str m)) _
          (fun t => by rw [put_get, if_pos rfl]) _ _ r hr

end phases

section examples

/-- A record of the phase P and one of the phase PP. -/
def twoPhases : Heap ℚ := fun r =>
  { dHeap (r % 3) with sta := if r < 3 then "A".toList else "B".toList }.put "phase"
    (.str (if r < 3 then "P".toList else "PP".toList))

/-- C205 is false: all phases are P phases, but the stream has no method, `rf` and `moveout` fail, and `rf(method='P')` replaces
the phase PP by P. -/
theorem C205_counterexample :
    (∀ r ∈ [0, 1, 2, 3, 4, 5], ∃ p : Str, (twoPhases r).ext.get "phase" = some (.str (p ++ "P".toList))) ∧
    streamMethod twoPhases [0, 1, 2, 3, 4, 5] = .ok none ∧
    (rf rEnv {} (twoPhases, [0, 1, 2, 3, 4, 5])).2 = some .valueError ∧
    (∀ m : Simple.SimpleModel ℚ, (streamMoveout id (fun _ _ => 0) (fun _ => .ok []) [] none 6 m
      (twoPhases, [0, 1, 2, 3, 4, 5])).2.2 = some .keyError) ∧
    (rf rEnv { method := some "P".toList } (twoPhases, [0, 1, 2, 3, 4, 5])).2 = none ∧
    ((rf rEnv { method := some "P".toList } (twoPhases, [0, 1, 2, 3, 4, 5])).1.1 3).getStr "phase" = some "P".toList := by
  have h := C205_several twoPhases [0, 1, 2, 3, 4, 5] 0 3 (by decide) (by decide) (.str "P".toList) (.str "PP".toList) (by decide +kernel)
    (by decide +kernel) (by decide)
  refine ⟨?_, h.1, by rw [h.2.1 rEnv {} rfl], fun m => by rw [h.2.2], by decide +kernel, by decide +kernel⟩
  intro r hr
  by_cases h3 : r < 3
  · exact ⟨[], by simp [twoPhases, h3, put_get]⟩
  · exact ⟨"P".toList, by simp [twoPhases, h3, put_get]⟩

/-- A stream with one phase, one trace without. -/
example : CommonEntry (fun r => if r = 1 then dHeap 1 else twoPhases r) [0, 1, 2] "phase" (.str ([] ++ ['P'])) := by
  refine ⟨⟨0, by decide, by decide +kernel⟩, ?_⟩
  decide +kernel

end examples

end Verif.Props
