import Verif.Model.RfStats
import Verif.Props.Stream
import Mathlib.Algebra.Order.Ring.Rat

/-!
# `obj2stats` and `rfstats` (C61-C64)
-/

set_option linter.unusedSimpArgs false
set_option linter.unusedSectionVars false

namespace Verif.Props
open Verif.Py Verif.Model.RfStats

section
variable {K : Type} [Field K]

/-! ## C64 -/

/-- The origin of an event: the preferred one, otherwise the first one. -/
def specOrigin (e : Event K) : Option (Origin K) := e.preferred.or e.origins.head?

theorem originOf_eq (e : Event K) :
    originOf e = match specOrigin e with
      | some o => .ok o
      | none => .error .valueError := by
  rcases e with ⟨p, os, a, b, c⟩
  cases p <;> cases os <;> rfl

theorem originProp_ok (p : Origin K → Option K) (e : Event K) (o : Origin K) (x : K)
    (ho : specOrigin e = some o) (hx : p o = some x) : originProp p e = .ok x := by
  simp [originProp, originOf_eq, ho, hx]

theorem originProp_none (p : Origin K → Option K) (e : Event K) (ho : specOrigin e = none) :
    originProp p e = .error .valueError := by
  simp [originProp, originOf_eq, ho]

theorem originProp_missing (p : Origin K → Option K) (e : Event K) (o : Origin K)
    (ho : specOrigin e = some o) (hx : p o = none) : originProp p e = .error .valueError := by
  simp [originProp, originOf_eq, ho, hx]

theorem originProp_cases (p : Origin K → Option K) (e : Event K) :
    (∃ o x, specOrigin e = some o ∧ p o = some x ∧ originProp p e = .ok x) ∨
      originProp p e = .error .valueError := by
  cases ho : specOrigin e with
  | none => exact Or.inr (originProp_none p e ho)
  | some o =>
    cases hx : p o with
    | none => exact Or.inr (originProp_missing p e o ho hx)
    | some x => exact Or.inl ⟨o, x, rfl, hx, originProp_ok p e o x ho hx⟩

theorem magnitudeOf_cases (e : Event K) :
    (∃ m, e.prefMag.or e.mags.head? = some m ∧ magnitudeOf e = .ok m) ∨
      (e.prefMag = none ∧ e.mags = [] ∧ magnitudeOf e = .error .valueError) := by
  rcases e with ⟨a, b, p, ms, c⟩
  cases p with
  | some m => exact Or.inl ⟨m, rfl, rfl⟩
  | none =>
    cases ms with
    | nil => exact Or.inr ⟨rfl, rfl, rfl⟩
    | cons m ms => exact Or.inl ⟨m, rfl, rfl⟩

/-- **C64** The attributes of the preferred origin (or else the first one) are mapped to the event entries,
the depth in km. -/
theorem C64_event (e : Event K) (o : Origin K) (lat lon dep t : K) (mag : Option K)
    (ho : specOrigin e = some o) (h1 : o.latitude = some lat) (h2 : o.longitude = some lon)
    (h3 : o.depth = some dep) (h4 : o.time = some t) (hm : e.prefMag.or e.mags.head? = some mag)
    (s : Option (Station K)) :
    ∃ d, obj2stats (some e) s = .ok d ∧ d.get "event_latitude" = some (some (.num lat)) ∧
      d.get "event_longitude" = some (some (.num lon)) ∧
      d.get "event_depth" = some (some (.num (dep / 1000))) ∧
      d.get "event_time" = some (some (.time t)) ∧
      d.get "event_magnitude" = some (mag.map .num) ∧
      d.get "event_id" = some (e.resId.map .str) := by
  have hmag : magnitudeOf e = .ok mag := by
    rcases magnitudeOf_cases e with ⟨m, h, h'⟩ | ⟨h, h', -⟩
    · rw [hm] at h; cases h; exact h'
    · rw [h, h'] at hm; cases hm
  have hobj : obj2stats (some e) s = .ok ([("event_latitude", some (.num lat)),
      ("event_longitude", some (.num lon)), ("event_depth", some (.num (dep / 1000))),
      ("event_magnitude", mag.map .num), ("event_time", some (.time t)),
      ("event_id", e.resId.map .str)] ++ (s.map stationStats).getD []) := by
    simp only [obj2stats, eventStats, originProp_ok _ e o _ ho h1, originProp_ok _ e o _ ho h2,
      originProp_ok _ e o _ ho h3, originProp_ok _ e o _ ho h4, hmag]
  exact ⟨_, hobj, by simp [Dict.get]⟩

/-- **C64** Station coordinates are mapped unchanged, whether or not an event is given. -/
theorem C64_station (e : Option (Event K)) (s : Station K) (d : SDict K)
    (h : obj2stats e (some s) = .ok d) :
    d.get "station_latitude" = some (some (.num s.latitude)) ∧
    d.get "station_longitude" = some (some (.num s.longitude)) ∧
    d.get "station_elevation" = some (some (.num s.elevation)) := by
  cases e with
  | none =>
    simp only [obj2stats] at h
    cases h
    simp [stationStats, Dict.get]
  | some e =>
    simp only [obj2stats] at h
    cases he : eventStats e with
    | error err => rw [he] at h; cases h
    | ok d0 =>
      rw [he] at h
      cases h
      unfold eventStats at he
      split at he
      · cases he
      · split at he
        · cases he
        · split at he
          · cases he
          · split at he
            · cases he
            · split at he
              · cases he
              · cases he
                simp [stationStats, Dict.get]

/-- **C64** `ValueError` iff there is no origin, an attribute of the origin is missing or there is no
magnitude; nothing else is raised. -/
theorem C64_error (e : Event K) (s : Option (Station K)) :
    (obj2stats (some e) s = .error .valueError ↔
      ((specOrigin e = none ∨ ∃ o, specOrigin e = some o ∧
        (o.latitude = none ∨ o.longitude = none ∨ o.depth = none ∨ o.time = none)) ∨
        (e.prefMag = none ∧ e.mags = []))) ∧
    ∀ err, obj2stats (some e) s = .error err → err = .valueError := by
  have key : (∃ d, obj2stats (some e) s = .ok d ∧ ∃ o, specOrigin e = some o ∧ o.latitude ≠ none ∧
      o.longitude ≠ none ∧ o.depth ≠ none ∧ o.time ≠ none ∧ ¬ (e.prefMag = none ∧ e.mags = [])) ∨
      (obj2stats (some e) s = .error .valueError ∧
      ((specOrigin e = none ∨ ∃ o, specOrigin e = some o ∧
        (o.latitude = none ∨ o.longitude = none ∨ o.depth = none ∨ o.time = none)) ∨
        (e.prefMag = none ∧ e.mags = []))) := by
    cases ho : specOrigin e with
    | none =>
      right
      refine ⟨?_, Or.inl (Or.inl rfl)⟩
      simp [obj2stats, eventStats, originProp_none _ e ho]
    | some o =>
      cases h1 : o.latitude with
      | none =>
        right
        refine ⟨?_, Or.inl (Or.inr ⟨o, rfl, Or.inl h1⟩)⟩
        simp [obj2stats, eventStats, originProp_missing _ e o ho h1]
      | some lat =>
      cases h2 : o.longitude with
      | none =>
        right
        refine ⟨?_, Or.inl (Or.inr ⟨o, rfl, Or.inr (Or.inl h2)⟩)⟩
        simp [obj2stats, eventStats, originProp_ok _ e o _ ho h1, originProp_missing _ e o ho h2]
      | some lon =>
      cases h3 : o.depth with
      | none =>
        right
        refine ⟨?_, Or.inl (Or.inr ⟨o, rfl, Or.inr (Or.inr (Or.inl h3))⟩)⟩
        simp [obj2stats, eventStats, originProp_ok _ e o _ ho h1, originProp_ok _ e o _ ho h2,
          originProp_missing _ e o ho h3]
      | some dep =>
      rcases magnitudeOf_cases e with ⟨m, hm, hm'⟩ | ⟨hm, hms, hm'⟩
      · cases h4 : o.time with
        | none =>
          right
          refine ⟨?_, Or.inl (Or.inr ⟨o, rfl, Or.inr (Or.inr (Or.inr h4))⟩)⟩
          simp [obj2stats, eventStats, originProp_ok _ e o _ ho h1, originProp_ok _ e o _ ho h2,
            originProp_ok _ e o _ ho h3, originProp_missing _ e o ho h4, hm']
        | some t =>
          left
          obtain ⟨d, hd, -⟩ := C64_event e o lat lon dep t m ho h1 h2 h3 h4 hm s
          refine ⟨d, hd, o, rfl, by simp [h1], by simp [h2], by simp [h3], by simp [h4], ?_⟩
          · rintro ⟨a, b⟩
            rw [a, b] at hm
            cases hm
      · right
        refine ⟨?_, Or.inr ⟨hm, hms⟩⟩
        simp [obj2stats, eventStats, originProp_ok _ e o _ ho h1, originProp_ok _ e o _ ho h2,
          originProp_ok _ e o _ ho h3, hm']
  rcases key with ⟨d, hd, o, ho, h1, h2, h3, h4, h5⟩ | ⟨he, hc⟩
  · refine ⟨⟨fun h => (by rw [hd] at h; cases h), ?_⟩, fun err h => (by rw [hd] at h; cases h)⟩
    rintro ((h | ⟨o', ho', h⟩) | h)
    · rw [ho] at h; cases h
    · rw [ho] at ho'; cases ho'
      rcases h with h | h | h | h <;> contradiction
    · exact absurd h h5
  · exact ⟨⟨fun _ => hc, fun _ => he⟩, fun err h => (by rw [he] at h; cases h; rfl)⟩

/-- A case: a preferred origin wins over the first one. -/
example : obj2stats (some (⟨some ⟨some 1, some 2, some 5000, some 9⟩, [⟨some 7, some 8, some 0, some 0⟩],
      none, [some 6], none⟩ : Event ℚ)) (some ⟨3, 4, 100⟩) =
    .ok [("event_latitude", some (.num 1)), ("event_longitude", some (.num 2)),
      ("event_depth", some (.num 5)), ("event_magnitude", some (.num 6)), ("event_time", some (.time 9)),
      ("event_id", none), ("station_latitude", some (.num 3)), ("station_longitude", some (.num 4)),
      ("station_elevation", some (.num 100))] := by decide +kernel

end

section
variable {K : Type} [Field K] [LinearOrder K] (E : RayEnv K)

/-! ## C61 -/

/-- The stats that `rfstats` works with: the given ones, overwritten with the attributes of event and
station if both are given. -/
def inputStats (a : Args K) (st : SDict K) : Res (SDict K) :=
  match a.event, a.station with
  | some ev, some sta =>
    match obj2stats (some ev) (some sta) with
    | .error e => .error e
    | .ok d => .ok (st.update d)
  | _, _ => .ok st

theorem rfInput_eq (a : Args K) (st : SDict K) : rfInput a st = inputStats a st := by
  unfold rfInput inputStats
  cases a.event <;> cases a.station <;> rfl

/-- The part of `rfstats` after the distance calculation. -/
def afterDist (a : Args K) (rng : Option (K × K)) (dist baz : K) (st1 : SDict K) : SDict K × Res Bool :=
  match rng with
  | some (lo, hi) => if lo ≤ dist ∧ dist ≤ hi then rfstatsRay E a dist baz st1 else (st1, .ok false)
  | none => rfstatsRay E a dist baz st1

theorem rfstats_eq (a : Args K) (st : SDict K) (rng : Option (K × K)) (st1 : SDict K) (dist baz : K)
    (h1 : effRange a.phase a.distRange = .ok rng) (h2 : inputStats a st = .ok st1)
    (h3 : distBaz E st1 = .ok (dist, baz)) :
    rfstats E a st = afterDist E a rng dist baz st1 := by
  unfold rfstats
  rw [h1]
  simp only [rfInput_eq, h2, h3]
  rfl

/-- `rfstats` ends normally only if range, event, station and coordinates are all right. -/
theorem rfstats_ok (a : Args K) (st : SDict K) (b : Bool) (h : (rfstats E a st).2 = .ok b) :
    ∃ rng st1 dist baz, effRange a.phase a.distRange = .ok rng ∧ inputStats a st = .ok st1 ∧
      distBaz E st1 = .ok (dist, baz) := by
  cases h1 : effRange a.phase a.distRange with
  | error e => unfold rfstats at h; rw [h1] at h; cases h
  | ok rng =>
    cases h2 : inputStats a st with
    | error e =>
      unfold rfstats at h
      rw [h1] at h
      simp only [rfInput_eq, h2] at h
      cases h
    | ok st1 =>
      cases h3 : distBaz E st1 with
      | error e =>
        unfold rfstats at h
        rw [h1] at h
        simp only [rfInput_eq, h2, h3] at h
        cases h
      | ok p => exact ⟨rng, st1, p.1, p.2, rfl, rfl, h3⟩

theorem rfstatsRay_ne_false (a : Args K) (dist baz : K) (st : SDict K) :
    (rfstatsRay E a dist baz st).2 ≠ .ok false := by
  unfold rfstatsRay
  split
  · simp
  · split
    · simp
    · simp
    · split
      · simp
      · simp only []
        split
        · simp
        · split <;> simp

/-- The distance is inside the range (no range: every distance). -/
def InRange (rng : Option (K × K)) (dist : K) : Prop :=
  ∀ lo hi, rng = some (lo, hi) → lo ≤ dist ∧ dist ≤ hi

/-- **C61** `rfstats` returns `None` iff the epicentral distance is outside the inclusive range. -/
theorem C61_none_iff (a : Args K) (st : SDict K) (rng : Option (K × K)) (st1 : SDict K) (dist baz : K)
    (h1 : effRange a.phase a.distRange = .ok rng) (h2 : inputStats a st = .ok st1)
    (h3 : distBaz E st1 = .ok (dist, baz)) :
    (rfstats E a st).2 = .ok false ↔ ¬ InRange rng dist := by
  rw [rfstats_eq E a st rng st1 dist baz h1 h2 h3, afterDist.eq_def]
  cases rng with
  | none =>
    constructor
    · intro h; exact absurd h (rfstatsRay_ne_false E a dist baz st1)
    · intro h; exact absurd (fun lo hi hc => nomatch hc) h
  | some p =>
    obtain ⟨lo, hi⟩ := p
    by_cases hr : lo ≤ dist ∧ dist ≤ hi
    · simp only [hr, and_self, if_true]
      constructor
      · intro h; exact absurd h (rfstatsRay_ne_false E a dist baz st1)
      · intro h
        exact absurd (fun lo' hi' hc => by cases hc; exact hr) h
    · simp only [hr, if_false, true_iff]
      intro h
      exact hr (h lo hi rfl)

/-- **C61** Explicit ranges are used as given, and `None` means no range. -/
theorem C61_explicit (phase : Str) (lo hi : K) :
    effRange phase (.range lo hi) = .ok (some (lo, hi)) ∧
    effRange phase (.none : DistRange K) = .ok none := ⟨rfl, rfl⟩

/-- **C61** The defaults of P and S (in either case). -/
theorem C61_default (phase : Str) :
    (upper phase = "P".toList → effRange phase (.default : DistRange K) = .ok (some (30, 90))) ∧
    (upper phase = "S".toList → effRange phase (.default : DistRange K) = .ok (some (50, 85))) := by
  refine ⟨fun h => ?_, fun h => ?_⟩
  · have : isSubstr "P".toList "PS".toList = true := by decide
    simp only [effRange, h, this, if_true]
  · have h1 : isSubstr "S".toList "PS".toList = true := by decide
    have h2 : ¬ "S".toList = "P".toList := by decide
    simp only [effRange, h, h1, if_true, h2, if_false]

/-- **C61 is false for phases other than P and S**: the substring test accepts 'PS' (a valid TauPy phase)
and the empty string, which silently get the range of S. -/
theorem C61_counterexample :
    effRange "PS".toList (.default : DistRange K) = .ok (some (50, 85)) ∧
    effRange [] (.default : DistRange K) = .ok (some (50, 85)) := by
  refine ⟨?_, ?_⟩
  · have h1 : isSubstr (upper "PS".toList) "PS".toList = true := by decide
    have h2 : ¬ upper "PS".toList = "P".toList := by decide
    simp only [effRange, h1, if_true, h2, if_false]
  · have h1 : isSubstr (upper []) "PS".toList = true := by decide
    have h2 : ¬ upper [] = "P".toList := by decide
    simp only [effRange, h1, if_true, h2, if_false]

/-- **C61, part that holds**: every phase other than P, S, 'PS' and '' raises `ValueError` without changing
the stats. -/
theorem C61_no_default_partial (a : Args K) (st : SDict K) (hd : a.distRange = .default)
    (h : upper a.phase ≠ [] ∧ upper a.phase ≠ "P".toList ∧ upper a.phase ≠ "S".toList ∧
      upper a.phase ≠ "PS".toList) :
    rfstats E a st = (st, .error .valueError) := by
  have hs : isSubstr (upper a.phase) "PS".toList = false := by
    rw [Bool.eq_false_iff, ne_eq, isSubstr_PS]
    tauto
  have he : effRange a.phase a.distRange = .error .valueError := by
    rw [hd]
    simp only [effRange, hs, Bool.false_eq_true, if_false]
  unfold rfstats
  rw [he]

/-! ### Streams -/

/-- The keys written from event and station. -/
def objKeys : List String :=
  ["event_latitude", "event_longitude", "event_depth", "event_magnitude", "event_time", "event_id",
   "station_latitude", "station_longitude", "station_elevation"]

/-- The keys of the ray. -/
def rayKeys : List String := ["distance", "back_azimuth", "inclination", "onset", "slowness", "phase"]

/-- The keys of the piercing point. -/
def ppKeys : List String := ["pp_latitude", "pp_longitude", "pp_depth"]

/-- `SimpleModel.ppoint` changes the piercing point only. -/
def PpointOk (E : RayEnv K) : Prop :=
  ∀ m st z p k, k ∉ ppKeys → (E.ppoint m st z p).1.get k = st.get k

theorem sget_update (st : SDict K) (d : SDict K) (k : String) (h : k ∉ d.keys) :
    (st.update d).get k = st.get k := by
  rw [Dict.get_update]
  have : Dict.get d.reverse k = none := by
    rw [Dict.get_eq_none_iff]
    simpa [Dict.keys] using h
  rw [this]; simp

theorem rfstatsRay_get (hp : PpointOk E) (a : Args K) (dist baz : K) (st : SDict K) (k : String)
    (h1 : k ∉ rayKeys) (h2 : k ∉ ppKeys) : (rfstatsRay E a dist baz st).1.get k = st.get k := by
  unfold rfstatsRay
  split
  · rfl
  · split
    · rfl
    · rfl
    · split
      · rfl
      · simp only []
        split
        · rw [sget_update _ _ _ (by simpa [Dict.keys, rayKeys] using h1)]
        · rename_i arr tl harr _ t ht _ z hz
          have := hp a.model (st.update [("distance", some (.num dist)), ("back_azimuth", some (.num baz)),
            ("inclination", some (.num arr.inc)), ("onset", some (.time (t + arr.time))),
            ("slowness", some (.num arr.slow)), ("phase", some (.str a.phase))]) z (ppPhaseOf a) k h2
          rw [sget_update _ _ _ (by simpa [Dict.keys, rayKeys] using h1)] at this
          split
          · rename_i heq
            rw [heq] at this
            exact this
          · rename_i heq
            rw [heq] at this
            exact this

/-- What `rfstats` leaves in entries not belonging to ray or piercing point. -/
theorem rfstats_get (hp : PpointOk E) (a : Args K) (st st1 : SDict K) (b : Bool)
    (h : (rfstats E a st).2 = .ok b) (hin : inputStats a st = .ok st1) (k : String)
    (h1 : k ∉ rayKeys) (h2 : k ∉ ppKeys) : (rfstats E a st).1.get k = st1.get k := by
  obtain ⟨rng, st1', dist, baz, e1, e2, e3⟩ := rfstats_ok E a st b h
  rw [hin] at e2
  cases e2
  rw [rfstats_eq E a st rng st1 dist baz e1 hin e3, afterDist.eq_def]
  cases rng with
  | none => exact rfstatsRay_get E hp a dist baz st1 k h1 h2
  | some p =>
    obtain ⟨lo, hi⟩ := p
    by_cases hr : lo ≤ dist ∧ dist ≤ hi
    · simp only [hr, and_self, if_true]
      exact rfstatsRay_get E hp a dist baz st1 k h1 h2
    · simp only [hr, if_false]

/-- Whether a trace is kept, as a function of its stats before the call. -/
def keep (a : Args K) (st : SDict K) : Bool :=
  match effRange a.phase a.distRange, inputStats a st with
  | .ok rng, .ok st1 =>
    match distBaz E st1 with
    | .ok (dist, _) =>
      match rng with
      | some (lo, hi) => decide (lo ≤ dist ∧ dist ≤ hi)
      | none => true
    | .error _ => false
  | _, _ => false

theorem keep_iff (a : Args K) (st : SDict K) (b : Bool) (h : (rfstats E a st).2 = .ok b) :
    keep E a st = b := by
  obtain ⟨rng, st1, dist, baz, e1, e2, e3⟩ := rfstats_ok E a st b h
  have := C61_none_iff E a st rng st1 dist baz e1 e2 e3
  unfold keep
  rw [e1, e2]
  simp only [e3]
  cases b with
  | false =>
    have hn := this.1 h
    cases rng with
    | none => exact absurd (fun lo hi hc => nomatch hc) hn
    | some p =>
      obtain ⟨lo, hi⟩ := p
      simp only [decide_eq_false_iff_not]
      intro hc
      exact hn (fun lo' hi' hc' => by cases hc'; exact hc)
  | true =>
    have hy : InRange rng dist := by
      by_contra hc
      rw [this.2 hc] at h
      cases h
    cases rng with
    | none => rfl
    | some p =>
      obtain ⟨lo, hi⟩ := p
      simpa using hy lo hi rfl

theorem distBaz_congr (st st' : SDict K)
    (h : ∀ k ∈ ["station_latitude", "station_longitude", "event_latitude", "event_longitude"],
      st.get k = st'.get k) : distBaz E st = distBaz E st' := by
  unfold distBaz numAttr
  rw [h "station_latitude" (by simp), h "station_longitude" (by simp), h "event_latitude" (by simp),
    h "event_longitude" (by simp)]

theorem sget_update_congr (st st' d : SDict K) (k : String) (h : st.get k = st'.get k) :
    (st.update d).get k = (st'.update d).get k := by
  rw [Dict.get_update, Dict.get_update, h]

theorem sget_update_idem (st d : SDict K) (k : String) :
    ((st.update d).update d).get k = (st.update d).get k := by
  rw [Dict.get_update, Dict.get_update]
  cases Dict.get d.reverse k <;> simp

/-- Calling `rfstats` again decides in the same way. -/
theorem keep_again (hp : PpointOk E) (a : Args K) (st : SDict K) (b : Bool)
    (h : (rfstats E a st).2 = .ok b) : keep E a (rfstats E a st).1 = keep E a st := by
  obtain ⟨rng, st1, dist, baz, e1, e2, e3⟩ := rfstats_ok E a st b h
  have hg := rfstats_get E hp a st st1 b h e2
  have hin : ∃ st2, inputStats a (rfstats E a st).1 = .ok st2 ∧
      ∀ k, k ∉ rayKeys → k ∉ ppKeys → st2.get k = st1.get k := by
    unfold inputStats at e2 ⊢
    rcases hev : a.event with _ | ev
    · rw [hev] at e2
      cases e2
      exact ⟨_, rfl, hg⟩
    · rcases hst : a.station with _ | sta
      · rw [hev, hst] at e2
        cases e2
        exact ⟨_, rfl, hg⟩
      · rw [hev, hst] at e2
        simp only [] at e2 ⊢
        cases ho : obj2stats (some ev) (some sta) with
        | error e => rw [ho] at e2; cases e2
        | ok d =>
          rw [ho] at e2
          cases e2
          refine ⟨_, rfl, fun k hk1 hk2 => ?_⟩
          rw [sget_update_congr _ _ d k (hg k hk1 hk2), sget_update_idem]
  obtain ⟨st2, hs2, hs3⟩ := hin
  have hd : distBaz E st2 = distBaz E st1 := distBaz_congr E _ _ (fun k hk => by
    have : ∀ k ∈ ["station_latitude", "station_longitude", "event_latitude", "event_longitude"],
      k ∉ rayKeys ∧ k ∉ ppKeys := by decide
    exact hs3 k (this k hk).1 (this k hk).2)
  unfold keep
  rw [e1, hs2, e2]
  simp only [hd]

theorem rfstatsLoop_keep (hp : PpointOk E) (a : Args K) (k0 : Nat → Bool) (s : List Nat)
    (h : Nat → SDict K) (acc : List Nat) (hk : ∀ r ∈ s, keep E a (h r) = k0 r) (t : List Nat)
    (ht : (rfstatsLoop E a h acc s).2 = .ok t) : t = acc ++ s.filter k0 := by
  induction s generalizing h acc with
  | nil => simp only [rfstatsLoop] at ht; cases ht; simp
  | cons r s ih =>
    unfold rfstatsLoop at ht
    have hr := hk r (by simp)
    have hnext : ∀ st b, rfstats E a (h r) = (st, .ok b) →
        ∀ r' ∈ s, keep E a (if r' = r then st else h r') = k0 r' := by
      intro st b hb r' hr'
      by_cases hrr : r' = r
      · subst hrr
        have := keep_again E hp a (h r') b (by rw [hb])
        rw [hb] at this
        simp only [if_true]
        rw [this, hr]
      · rw [if_neg hrr]
        exact hk r' (List.mem_cons_of_mem _ hr')
    split at ht
    · rename_i st hb
      have := keep_iff E a (h r) true (by rw [hb])
      rw [ih _ _ (hnext st true hb) ht]
      rw [hr] at this
      simp [this]
    · rename_i st hb
      have := keep_iff E a (h r) false (by rw [hb])
      rw [ih _ _ (hnext st false hb) ht]
      rw [hr] at this
      simp [this]
    · cases ht

/-- **C61** Applied to a stream, `rfstats` keeps exactly the traces whose distance is inside the range, in
order (also if a trace occurs twice); if it raises, no trace is discarded. -/
theorem C61_stream (hp : PpointOk E) (a : Args K) (h : Nat → SDict K) (s : List Nat) :
    ((rfstatsStream E a h s).2.2 = none →
      (rfstatsStream E a h s).2.1 = s.filter fun r => keep E a (h r)) ∧
    ((rfstatsStream E a h s).2.2 ≠ none → (rfstatsStream E a h s).2.1 = s) := by
  unfold rfstatsStream
  have := rfstatsLoop_keep E hp a (fun r => keep E a (h r)) s h [] (fun r _ => rfl)
  generalize rfstatsLoop E a h [] s = L at this
  obtain ⟨h', res⟩ := L
  cases res with
  | ok t => exact ⟨fun _ => by simpa using this t rfl, fun hc => absurd rfl hc⟩
  | error e => exact ⟨fun hc => (by cases hc), fun _ => rfl⟩

/-- What `keep` means for a trace with coordinates: inside the range. -/
theorem C61_keep (a : Args K) (st : SDict K) (rng : Option (K × K)) (st1 : SDict K) (dist baz : K)
    (h1 : effRange a.phase a.distRange = .ok rng) (h2 : inputStats a st = .ok st1)
    (h3 : distBaz E st1 = .ok (dist, baz)) : keep E a st = true ↔ InRange rng dist := by
  unfold keep
  rw [h1, h2]
  simp only [h3]
  cases rng with
  | none => exact ⟨fun _ lo hi hc => (nomatch hc), fun _ => rfl⟩
  | some p =>
    obtain ⟨lo, hi⟩ := p
    simp only [decide_eq_true_eq]
    exact ⟨fun h lo' hi' hc => (by cases hc; exact h), fun h => h lo hi rfl⟩

/-! ## C62 -/

/-- **C62** On success all ray entries come from the first arrival for the depth and distance of the
event, and all other entries (apart from the piercing point) are those of the input. -/
theorem C62_success (hp : PpointOk E) (a : Args K) (st : SDict K) (h : (rfstats E a st).2 = .ok true) :
    ∃ st1 dist baz dep t arr rest, inputStats a st = .ok st1 ∧ distBaz E st1 = .ok (dist, baz) ∧
      numAttr st1 "event_depth" = .ok dep ∧ timeAttr st1 "event_time" = .ok t ∧
      E.arrivals a.ttModel dep dist a.phase = .ok (arr :: rest) ∧
      let st' := (rfstats E a st).1
      st'.get "onset" = some (some (.time (t + arr.time))) ∧
      st'.get "distance" = some (some (.num dist)) ∧
      st'.get "back_azimuth" = some (some (.num baz)) ∧
      st'.get "inclination" = some (some (.num arr.inc)) ∧
      st'.get "slowness" = some (some (.num arr.slow)) ∧
      st'.get "phase" = some (some (.str a.phase)) ∧
      ∀ k, k ∉ rayKeys → k ∉ ppKeys → st'.get k = st1.get k := by
  obtain ⟨rng, st1, dist, baz, e1, e2, e3⟩ := rfstats_ok E a st true h
  have hg := rfstats_get E hp a st st1 true h e2
  have hray : rfstats E a st = rfstatsRay E a dist baz st1 := by
    have hin : InRange rng dist := by
      by_contra hc
      rw [(C61_none_iff E a st rng st1 dist baz e1 e2 e3).2 hc] at h
      cases h
    rw [rfstats_eq E a st rng st1 dist baz e1 e2 e3, afterDist.eq_def]
    cases rng with
    | none => rfl
    | some p => simp only [hin p.1 p.2 rfl, and_self, if_true]
  rw [hray] at h hg ⊢
  cases hd : numAttr st1 "event_depth" with
  | error e => unfold rfstatsRay at h; rw [hd] at h; cases h
  | ok dep =>
    cases ha : E.arrivals a.ttModel dep dist a.phase with
    | error e => unfold rfstatsRay at h; simp only [hd, ha] at h; cases h
    | ok arrs =>
      cases arrs with
      | nil => unfold rfstatsRay at h; simp only [hd, ha] at h; cases h
      | cons arr rest =>
        cases ht : timeAttr st1 "event_time" with
        | error e => unfold rfstatsRay at h; simp only [hd, ha, ht] at h; cases h
        | ok t =>
          refine ⟨st1, dist, baz, dep, t, arr, rest, e2, e3, hd, ht, ha, ?_⟩
          simp only []
          set st2 : SDict K := st1.update [("distance", some (.num dist)),
            ("back_azimuth", some (.num baz)),
            ("inclination", some (.num arr.inc)), ("onset", some (.time (t + arr.time))),
            ("slowness", some (.num arr.slow)), ("phase", some (.str a.phase))] with hst2
          have hfin : ∀ k, k ∉ ppKeys → (rfstatsRay E a dist baz st1).1.get k = st2.get k := by
            intro k hk
            unfold rfstatsRay
            simp only [hd, ha, ht]
            cases hpp : a.ppDepth with
            | none => rfl
            | some z =>
              simp only []
              have := hp a.model st2 z (ppPhaseOf a) k hk
              rw [hst2] at this
              rw [← hst2] at this
              split
              · rename_i heq
                rw [← hst2] at heq
                rw [heq] at this
                exact this
              · rename_i heq
                rw [← hst2] at heq
                rw [heq] at this
                exact this
          have hval : ∀ k, st2.get k = _ := fun k => Dict.get_update _ _ k
          refine ⟨?_, ?_, ?_, ?_, ?_, ?_, hg⟩
          · rw [hfin _ (by decide), hval]; simp [Dict.get]
          · rw [hfin _ (by decide), hval]; simp [Dict.get]
          · rw [hfin _ (by decide), hval]; simp [Dict.get]
          · rw [hfin _ (by decide), hval]; simp [Dict.get]
          · rw [hfin _ (by decide), hval]; simp [Dict.get]
          · rw [hfin _ (by decide), hval]; simp [Dict.get]

/-- **C62** If there is no arrival, an exception is raised and the stats only hold the input: no ray
parameter is set. -/
theorem C62_no_arrival (a : Args K) (st st1 : SDict K) (rng : Option (K × K)) (dist baz dep : K)
    (h1 : effRange a.phase a.distRange = .ok rng) (h2 : inputStats a st = .ok st1)
    (h3 : distBaz E st1 = .ok (dist, baz)) (hin : InRange rng dist)
    (h4 : numAttr st1 "event_depth" = .ok dep) (h5 : E.arrivals a.ttModel dep dist a.phase = .ok []) :
    rfstats E a st = (st1, .error .other) := by
  have hray : rfstats E a st = rfstatsRay E a dist baz st1 := by
    rw [rfstats_eq E a st rng st1 dist baz h1 h2 h3, afterDist.eq_def]
    cases rng with
    | none => rfl
    | some p => simp only [hin p.1 p.2 rfl, and_self, if_true]
  rw [hray]
  unfold rfstatsRay
  simp only [h4, h5]

theorem obj2stats_keys (ev : Event K) (sta : Station K) (d : SDict K)
    (ho : obj2stats (some ev) (some sta) = .ok d) : d.keys = objKeys := by
  simp only [obj2stats] at ho
  cases he : eventStats ev with
  | error err => rw [he] at ho; cases ho
  | ok d0 =>
    rw [he] at ho
    cases ho
    unfold eventStats at he
    split at he
    · cases he
    · split at he
      · cases he
      · split at he
        · cases he
        · split at he
          · cases he
          · split at he
            · cases he
            · cases he
              simp [stationStats, Dict.keys, objKeys]

/-- The input differs from the stats only in the attributes of event and station. -/
theorem C62_input (a : Args K) (st st1 : SDict K) (h : inputStats a st = .ok st1) (k : String)
    (hk : k ∉ objKeys) : st1.get k = st.get k := by
  unfold inputStats at h
  rcases hev : a.event with _ | ev
  · rw [hev] at h; cases h; rfl
  · rcases hst : a.station with _ | sta
    · rw [hev, hst] at h; cases h; rfl
    · rw [hev, hst] at h
      simp only [] at h
      cases ho : obj2stats (some ev) (some sta) with
      | error e => rw [ho] at h; cases h
      | ok d =>
        rw [ho] at h
        cases h
        apply sget_update
        rw [obj2stats_keys ev sta d ho]; exact hk

/-! ## C63 -/

/-- **C63, part that holds**: if event and station are both given, their attributes are used whatever is
stored in `obj`.  Missing: only one of them given (see the counterexample). -/
theorem C63_both_partial (a : Args K) (st : SDict K) (ev : Event K) (sta : Station K) (d : SDict K)
    (h1 : a.event = some ev) (h2 : a.station = some sta)
    (h3 : obj2stats (some ev) (some sta) = .ok d) :
    ∃ st1, inputStats a st = .ok st1 ∧ ∀ k v, d.get k = some v → st1.get k = some v := by
  have hn : d.NodupKeys := by
    unfold Dict.NodupKeys
    rw [obj2stats_keys ev sta d h3]
    decide
  refine ⟨st.update d, by simp [inputStats, h1, h2, h3], fun k v hk => ?_⟩
  rw [Dict.get_update, Dict.get_reverse d hn, hk]
  simp

end

/-! ## Concrete cases -/

/-- A spherical earth replaced by differences of coordinates; one arrival. -/
def caseRay : RayEnv ℚ where
  gps slat _ elat _ := .ok ((elat - slat) * 111200, 45)
  arrivals _ _ dist _ := .ok [⟨dist * 10, 20, 6⟩]
  ppoint _ st _ _ := (st, none)

/-- An event 60 degrees away. -/
def caseEvent : Event ℚ := ⟨none, [⟨some 60, some 0, some 10000, some 100⟩], none, [some 6], none⟩

/-- Stats with old event attributes. -/
def caseObj : SDict ℚ :=
  [("station_latitude", some (.num 0)), ("station_longitude", some (.num 0)),
   ("event_latitude", some (.num 10)), ("event_longitude", some (.num 0)),
   ("event_depth", some (.num 0)), ("event_time", some (.time 0))]

/-- **C63 is false**: with `event` given and the station attributes in `obj` the event is ignored: here
`rfstats` returns `None` because of the old event, 10 degrees away, although the given event is 60 degrees
away; without old event attributes it raises `AttributeError`. -/
theorem C63_counterexample :
    (rfstats caseRay ⟨some caseEvent, none, "P".toList, .default, [], none, none, []⟩ caseObj).2 =
      .ok false ∧
    (rfstats caseRay ⟨some caseEvent, some ⟨0, 0, 0⟩, "P".toList, .default, [], none, none, []⟩ caseObj).2 =
      .ok true ∧
    (rfstats caseRay ⟨some caseEvent, none, "P".toList, .default, [], none, none, []⟩
      [("station_latitude", some (.num 0)), ("station_longitude", some (.num 0))]).2 =
      .error .attributeError := by decide +kernel

/-- The hypotheses of the theorems are met by this case: the onset is 100 + 600 s. -/
example : PpointOk caseRay ∧
    (rfstats caseRay ⟨some caseEvent, some ⟨0, 0, 0⟩, "P".toList, .default, [], none, none, []⟩ caseObj).1.get
      "onset" = some (some (.time 700)) := by
  exact ⟨fun m st z p k _ => rfl, by decide +kernel⟩

/-- A stream of two traces, one of them outside the range. -/
example : (rfstatsStream caseRay ⟨none, none, "P".toList, .default, [], none, none, []⟩
    (fun r => if r = 0 then caseObj else caseObj.set "event_latitude" (some (.num 50))) [0, 1]).2 =
      ([1], none) := by decide +kernel

end Verif.Props
