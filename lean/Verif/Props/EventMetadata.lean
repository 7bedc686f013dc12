import Verif.Props.EventData

/-!
# The records of iter_event_data are among those of iter_event_metadata (C153)
-/

set_option linter.unusedSimpArgs false
set_option linter.unusedSectionVars false

namespace Verif.Props
open Verif.Py Verif.Model.Headers Verif.Model.EventIter
open scoped List

/-- Two loops side by side: if the second one yields whenever the first one does and is not ended before it, the items
of the first are a sublist of the items of the second. -/
theorem genLoop_sublist {ι κ α β γ : Type} (b1 : ι → Outcome α) (b2 : κ → Outcome β) (f : ι → κ) (ka : α → γ)
    (kb : β → γ) (is : List ι)
    (h1 : ∀ i ∈ is, ∀ x, b1 i = .yield x → ∃ y, b2 (f i) = .yield y ∧ kb y = ka x)
    (h2 : ∀ i ∈ is, ∀ e, b2 (f i) = .abort e → ∃ e', b1 i = .abort e') :
    (genLoop b1 is).items.map ka <+ (genLoop b2 (is.map f)).items.map kb := by
  induction is with
  | nil => exact List.nil_sublist _
  | cons i is ih =>
    have ih := ih (fun j hj => h1 j (List.mem_cons_of_mem _ hj)) fun j hj => h2 j (List.mem_cons_of_mem _ hj)
    have h1 := h1 i List.mem_cons_self
    have h2 := h2 i List.mem_cons_self
    rw [List.map_cons]
    unfold genLoop
    cases hb : b1 i with
    | abort e => exact List.nil_sublist _
    | skip =>
      cases hb2 : b2 (f i) with
      | abort e =>
        obtain ⟨e', he'⟩ := h2 e hb2
        rw [hb] at he'
        cases he'
      | skip => exact ih
      | yield y => exact ih.cons _
    | yield x =>
      obtain ⟨y, hy, hk⟩ := h1 x hb
      rw [hy]
      simp only [List.map_cons]
      rw [hk]
      exact ih.cons_cons _

theorem pairs_map {α β α' β' : Type} (g : α → α') (k : β → β') (a : List α) (b : List β) :
    pairs (a.map g) (b.map k) = (pairs a b).map fun p => (g p.1, k p.2) := by
  unfold pairs
  rw [List.flatMap_map, List.map_flatMap]
  refine List.flatMap_congr fun x _ => ?_
  rw [List.map_map, List.map_map]
  rfl

/-- C153.  The streams of `iter_event_data` belong to records of `iter_event_metadata`, in the same order and each to
another one: the origin times and the codes of the yielded streams are a sublist of the times and codes of the
metadata.  This holds also if `iter_event_data` is ended by an exception. -/
theorem C153_sublist {K Ev C : Type} [Field K] (E : FmtEnv K) (S : Nat → Services K Ev C) (originTime : Ev → Res K)
    (hS : ∀ n, (S n).originTime = originTime) (events : List Ev) (channels : List Str) (phase : Str)
    (win : Option (K × K)) (pad : K)
    (hid : ∀ stations, getStations channels = .ok stations → ∀ st ∈ stations, FourCodes st.1) :
    (iterEventData E S events channels phase win pad).1.items.map
      (fun x => ((originTime x.event).toOption,
        [x.request.network, x.request.station, x.request.location, x.request.channel])) <+
    (iterEventMetadata originTime (some events) channels).items.map
      (fun m => (m.eventTime, [m.network, m.station, m.location, m.channel])) := by
  unfold iterEventData iterEventMetadata
  cases requestWindow phase win with
  | error e => exact List.nil_sublist _
  | ok w =>
    cases hst : getStations channels with
    | error e => exact List.nil_sublist _
    | ok stations =>
      have hid := hid stations hst
      have hmap : pairs (events.map some) (stations.map Prod.fst) =
          (pairs events stations).zipIdx.map fun p => (some p.1.1, p.1.2.1) := by
        rw [pairs_map]
        conv_lhs => rw [← List.zipIdx_map_fst 0 (pairs events stations)]
        rw [List.map_map]
        rfl
      simp only
      rw [hmap]
      have hmem : ∀ i ∈ (pairs events stations).zipIdx, i.1.2 ∈ stations := by
        intro i hi
        have hi : i.1 ∈ pairs events stations := by
          rw [← List.zipIdx_map_fst 0 (pairs events stations)]
          exact List.mem_map_of_mem hi
        unfold pairs at hi
        obtain ⟨ev, -, hi⟩ := List.mem_flatMap.1 hi
        obtain ⟨st, hs, he⟩ := List.mem_map.1 hi
        rw [← he]
        exact hs
      refine genLoop_sublist _ _ _ _ _ _ ?_ ?_
      · intro i hi x hx
        obtain ⟨g⟩ := (C65_yield_iff E _ _ _ _ _ x).1 hx
        have ht := g.h_time
        rw [hS] at ht
        refine ⟨⟨g.net, g.sta, g.loc, g.cha, some g.ot⟩, ?_, ?_⟩
        · unfold metaStep
          rw [g.h_id]
          simp only
          rw [ht]
        · rw [g.h_event, g.h_request, ht]
          rfl
      · intro i hi e he
        obtain ⟨n, s, l, c, h4⟩ := hid _ (hmem i hi)
        unfold metaStep at he
        rw [h4] at he
        simp only at he
        cases ht : originTime i.1.1 with
        | ok t =>
          rw [ht] at he
          cases he
        | error e' =>
          refine ⟨e', ?_⟩
          unfold step
          rw [hS, ht]

/-- The second of three events has no waveforms; the metadata of the other two are those of the streams. -/
example :
    (iterEventData evEnv (fun n => { evServices plainTrace with
        waveforms := fun _ => if n = 1 then .error .other else .ok (some [plainTrace, plainTrace, plainTrace]) })
      [1, 2, 3] ["N.S..BHZ".toList] "P".toList none 10).1.items.map (fun x => x.event) = [1, 3] ∧
    ((iterEventMetadata (evServices plainTrace).originTime (some [1, 2, 3]) ["N.S..BHZ".toList]).items.map
      fun m => m.channel) = ["BH?".toList, "BH?".toList, "BH?".toList] := by
  decide +kernel

/-- The loop up to the first item whose body raises. -/
theorem genLoop_first_abort {ι α : Type} (body : ι → Outcome α) (l1 l2 : List ι) (i : ι) (e : PyErr)
    (h1 : (genLoop body l1).err = none) (h2 : body i = .abort e) :
    genLoop body (l1 ++ i :: l2) = ⟨(genLoop body l1).items, (genLoop body l1).pbar + 1, some e⟩ := by
  induction l1 with
  | nil =>
    rw [List.nil_append]
    unfold genLoop
    rw [h2]
  | cons j l1 ih =>
    rw [List.cons_append]
    unfold genLoop at h1 ⊢
    cases hb : body j with
    | abort e' =>
      rw [hb] at h1
      cases h1
    | skip =>
      rw [hb] at h1
      simp only at h1 ⊢
      rw [ih h1]
    | yield x =>
      rw [hb] at h1
      simp only at h1 ⊢
      rw [ih h1]

/-- C153.  An event without origin ends `iter_event_metadata`: the exception of the look-up is passed on at the first
station of this event, after the metadata of all events before it have been yielded.  Nothing is yielded for the events
after it. -/
theorem C153_failure {K Ev : Type} [Field K] (originTime : Ev → Res K) (before after : List Ev) (ev : Ev) (e : PyErr)
    (channels : List Str) (st : Str × Char) (stations : List (Str × Char))
    (hst : getStations channels = .ok (st :: stations)) (hid : FourCodes st.1)
    (hbefore : (iterEventMetadata originTime (some before) channels).err = none)
    (hev : originTime ev = .error e) :
    iterEventMetadata originTime (some (before ++ ev :: after)) channels =
      ⟨(iterEventMetadata originTime (some before) channels).items,
        (iterEventMetadata originTime (some before) channels).pbar + 1, some e⟩ := by
  unfold iterEventMetadata at hbefore ⊢
  rw [hst] at hbefore ⊢
  simp only at hbefore ⊢
  have hp : pairs ((before ++ ev :: after).map some) ((st :: stations).map Prod.fst) =
      pairs (before.map some) ((st :: stations).map Prod.fst) ++ (some ev, st.1) ::
        (stations.map (fun s => (some ev, s.1)) ++ pairs (after.map some) ((st :: stations).map Prod.fst)) := by
    unfold pairs
    simp only [List.map_append, List.map_cons, List.flatMap_append, List.flatMap_cons, List.map_map,
      List.cons_append]
    rfl
  rw [hp]
  refine genLoop_first_abort _ _ _ _ _ hbefore ?_
  obtain ⟨n, s, l, c, h4⟩ := hid
  unfold metaStep
  rw [h4]
  simp only
  rw [hev]

/-- C153.  A code which does not consist of four parts ends the iteration with `ValueError`, whatever the event. -/
theorem C153_bad_code {K Ev : Type} [Field K] (originTime : Ev → Res K) (events : Option (List Ev))
    (channels : List Str) (st : Str × Char) (stations : List (Str × Char))
    (hst : getStations channels = .ok (st :: stations)) (hid : ¬ FourCodes st.1) (hne : events ≠ some []) :
    iterEventMetadata originTime events channels = ⟨[], 1, some .valueError⟩ := by
  have key : ∀ ev : Option Ev, metaStep originTime (ev, st.1) = .abort .valueError := by
    intro ev
    unfold metaStep
    simp only
    split
    · rename_i n s l c h
      exact absurd ⟨n, s, l, c, h⟩ hid
    · rfl
  unfold iterEventMetadata
  rw [hst]
  simp only
  rcases events with _ | _ | ⟨ev, evs⟩
  · simp only [pairs, List.flatMap_cons, List.map_cons, List.cons_append, genLoop, key]
  · exact absurd rfl hne
  · simp only [pairs, List.map_cons, List.flatMap_cons, List.cons_append, genLoop, key]

/-- The second of three events has no origin (`IndexError` of `event.origins[0]`); a code of three parts. -/
example :
    let t : Nat → Res ℚ := fun n => if n = 2 then .error .indexError else .ok n
    iterEventMetadata t (some [1, 2, 3]) ["N.S..BHZ".toList] =
      ⟨[⟨"N".toList, "S".toList, [], "BH?".toList, some 1⟩], 2, some .indexError⟩ ∧
    iterEventMetadata t (some [1]) ["N.S.BHZ".toList] = ⟨[], 1, some .valueError⟩ := by
  intro t
  constructor
  · exact C153_failure t [1] [3] 2 .indexError ["N.S..BHZ".toList] ("N.S..BH?".toList, 'Z') [] (by decide +kernel)
      ⟨_, _, _, _, (by decide +kernel : _ = ["N".toList, "S".toList, [], "BH?".toList])⟩ (by decide +kernel)
      (by decide +kernel)
  · refine C153_bad_code t (some [1]) ["N.S.BHZ".toList] ("N.S.BH?".toList, 'Z') [] (by decide +kernel) ?_ (by simp)
    rintro ⟨n, s, l, c, h⟩
    have h3 : (splitOn '.' "N.S.BH?".toList).length = 3 := by decide +kernel
    rw [h] at h3
    simp at h3

end Verif.Props
