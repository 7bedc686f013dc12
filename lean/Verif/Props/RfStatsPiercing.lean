import Verif.Spec.Tables
import Verif.Props.RfStats

/-!
# Piercing points calculated by `rfstats` (C92)
-/

set_option linter.unusedSimpArgs false
set_option linter.unusedSectionVars false

namespace Verif.Props
open Verif.Py Verif.Model.RfStats Verif.Spec

theorem toUpper_eq_P (c : Char) : c.toUpper = 'P' ↔ c = 'P' ∨ c = 'p' := by
  constructor
  · intro h
    unfold Char.toUpper at h
    split at h
    · rename_i hc
      right
      have h1 := congrArg Char.val h
      refine Char.ext ?_
      have h2 : c.val.toNat = 'p'.val.toNat := by
        have h3 := congrArg UInt32.toNat h1
        have hc1 := hc.1
        have hc2 := hc.2
        simp only [UInt32.le_iff_toNat_le, UInt32.toNat_add, UInt32.toNat_sub] at h3 hc1 hc2
        revert h3 hc1 hc2
        generalize c.val.toNat = n
        simp
        omega
      exact UInt32.toNat_inj.1 h2
    · exact .inl h
  · rintro (rfl | rfl) <;> decide

section
variable {K : Type} [Field K] [LinearOrder K] (E : RayEnv K)

/-- The phase used for the piercing point. -/
theorem ppPhaseOf_default (a : Args K) (h : a.ppPhase = none) : ppPhaseOf a = convertedPhase a.phase := by
  unfold ppPhaseOf convertedPhase
  rw [h]
  simp only [upper, List.getLast?_map]
  cases a.phase.getLast? with
  | none => simp
  | some c =>
    simp only [Option.map_some, Option.some.injEq]
    by_cases h1 : c = 'P'
    · subst h1; decide
    by_cases h2 : c = 'p'
    · subst h2; decide
    rw [if_neg (fun h => by rcases (toUpper_eq_P c).1 h with h | h; exact h1 h; exact h2 h)]
    split
    · rename_i heq; injection heq with heq; exact absurd heq h1
    · rename_i heq; injection heq with heq; exact absurd heq h2
    · rfl

/-- On success the ray parameters are set and then the piercing point is calculated from them. -/
theorem rfstats_piercing (a : Args K) (st : SDict K) (z : K) (hz : a.ppDepth = some z)
    (h : (rfstats E a st).2 = .ok true) :
    ∃ st2, E.ppoint a.model st2 z (ppPhaseOf a) = ((rfstats E a st).1, none) ∧
      ∃ st1 dist baz dep t arr rest, inputStats a st = .ok st1 ∧ distBaz E st1 = .ok (dist, baz) ∧
      numAttr st1 "event_depth" = .ok dep ∧ timeAttr st1 "event_time" = .ok t ∧
      E.arrivals a.ttModel dep dist a.phase = .ok (arr :: rest) ∧
      st2.get "slowness" = some (some (.num arr.slow)) ∧ st2.get "back_azimuth" = some (some (.num baz)) ∧
      ∀ k, k ∉ rayKeys → st2.get k = st1.get k := by
  obtain ⟨rng, st1, dist, baz, e1, e2, e3⟩ := rfstats_ok E a st true h
  have hray : rfstats E a st = rfstatsRay E a dist baz st1 := by
    have hin : InRange rng dist := by
      by_contra hc
      rw [(C61_none_iff E a st rng st1 dist baz e1 e2 e3).2 hc] at h
      cases h
    rw [rfstats_eq E a st rng st1 dist baz e1 e2 e3, afterDist.eq_def]
    cases rng with
    | none => rfl
    | some p => simp only [hin p.1 p.2 rfl, and_self, if_true]
  rw [hray] at h ⊢
  cases hd : numAttr st1 "event_depth" with
  | error e => unfold rfstatsRay at h; rw [hd] at h; cases h
  | ok dep =>
    cases ha : E.arrivals a.ttModel dep dist a.phase with
    | error e => unfold rfstatsRay at h; simp only [hd, ha] at h; cases h
    | ok arrs =>
      cases arrs with
      | nil => unfold rfstatsRay at h; simp only [hd, ha] at h; cases h
      | cons arr rest =>
        cases ht : timeAttr st1 "event_time" with
        | error e => unfold rfstatsRay at h; simp only [hd, ha, ht] at h; cases h
        | ok t =>
          have hval := fun k => Dict.get_update st1 [("distance", some (.num dist)),
            ("back_azimuth", some (.num baz)),
            ("inclination", some (.num arr.inc)), ("onset", some (.time (t + arr.time))),
            ("slowness", some (.num arr.slow)), ("phase", some (.str a.phase))] k
          refine ⟨_, ?_, st1, dist, baz, dep, t, arr, rest, e2, e3, hd, ht, ha,
            (hval _).trans (by simp [Dict.get]), (hval _).trans (by simp [Dict.get]),
            fun k hk => sget_update st1 _ k (by simpa [rayKeys, Dict.keys] using hk)⟩
          unfold rfstatsRay at h ⊢
          simp only [hd, ha, ht, hz] at h ⊢
          split at h
          · rename_i st3 heq
            rw [heq]
          · cases h

/-- **C92** With `pp_depth` and without `pp_phase` the piercing point is that of the converted phase: S for phases
ending in P, P otherwise.  It is calculated for the requested depth with the slowness and back azimuth of the first
arrival. -/
theorem C92_default (a : Args K) (st : SDict K) (z : K) (hz : a.ppDepth = some z) (hp : a.ppPhase = none)
    (h : (rfstats E a st).2 = .ok true) :
    ∃ st2, E.ppoint a.model st2 z (convertedPhase a.phase) = ((rfstats E a st).1, none) ∧
      ∃ st1 dist baz dep t arr rest, inputStats a st = .ok st1 ∧ distBaz E st1 = .ok (dist, baz) ∧
      numAttr st1 "event_depth" = .ok dep ∧ timeAttr st1 "event_time" = .ok t ∧
      E.arrivals a.ttModel dep dist a.phase = .ok (arr :: rest) ∧
      st2.get "slowness" = some (some (.num arr.slow)) ∧ st2.get "back_azimuth" = some (some (.num baz)) ∧
      ∀ k, k ∉ rayKeys → st2.get k = st1.get k := by
  have := rfstats_piercing E a st z hz h
  rwa [ppPhaseOf_default a hp] at this

/-- **C92** An explicit `pp_phase` is used as it is. -/
theorem C92_explicit (a : Args K) (st : SDict K) (z : K) (hz : a.ppDepth = some z) (p : Str)
    (hp : a.ppPhase = some p) (h : (rfstats E a st).2 = .ok true) :
    ∃ st2, E.ppoint a.model st2 z p = ((rfstats E a st).1, none) := by
  obtain ⟨st2, h2, -⟩ := rfstats_piercing E a st z hz h
  refine ⟨st2, ?_⟩
  have : ppPhaseOf a = p := by unfold ppPhaseOf; rw [hp]
  rwa [this] at h2

/-- **C92** Without `pp_depth` the ray tracer for piercing points plays no role. -/
theorem C92_no_depth (E' : RayEnv K) (a : Args K) (st : SDict K) (hz : a.ppDepth = none)
    (hg : E'.gps = E.gps) (harr : E'.arrivals = E.arrivals) : rfstats E a st = rfstats E' a st := by
  have hd : ∀ st1, distBaz E' st1 = distBaz E st1 := by intro st1; unfold distBaz; rw [hg]
  have hr : ∀ dist baz st1, rfstatsRay E' a dist baz st1 = rfstatsRay E a dist baz st1 := by
    intro dist baz st1; unfold rfstatsRay; rw [harr, hz]
  unfold rfstats
  simp only [hd, hr]

end

/-- Piercing point recorded by phase. -/
def ppRay : RayEnv ℚ :=
  { caseRay with ppoint := fun _ st z p => (st.set "pp_depth" (some (.num z)) |>.set "pp_phase" (some (.str p)), none) }

example : (rfstats ppRay ⟨some caseEvent, some ⟨0, 0, 0⟩, "PP".toList, .range 30 90, [], some 50, none, []⟩ caseObj).2 =
      .ok true ∧
    (rfstats ppRay ⟨some caseEvent, some ⟨0, 0, 0⟩, "PP".toList, .range 30 90, [], some 50, none, []⟩
      caseObj).1.get "pp_phase" = some (some (.str "S".toList)) := by decide +kernel

end Verif.Props
