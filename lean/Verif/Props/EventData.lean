import Verif.Props.EventIter
import Verif.Props.Headers

/-!
# Failures, contents and stations of the event iterators (C66-C68)
-/

set_option linter.unusedSimpArgs false
set_option linter.unusedSectionVars false

namespace Verif.Props
open Verif.Py Verif.Model.Headers Verif.Model.EventIter
open scoped List

section
variable {K Ev C : Type} [Field K] (E : FmtEnv K)

/-! ## C66 -/

/-- **C66, part that holds**: an exception raised by the coordinate lookup, by `rfstats` or by the data
service for one pair only skips this pair. -/
theorem C66_skip_partial (S : Services K Ev C) (win : K × K) (pad : K) (ev : Ev) (st : Str × Char) (ot : K)
    (net sta loc cha : Str) (h1 : S.originTime ev = .ok ot)
    (h2 : splitOn '.' st.1 = [net, sta, loc, cha])
    (h : (∃ e, S.coords (st.1.dropLast ++ [st.2]) ot = .error e) ∨
      (∃ c e, S.coords (st.1.dropLast ++ [st.2]) ot = .ok c ∧ S.rfstats c ev = .error e) ∨
      (∃ c onset stats, S.coords (st.1.dropLast ++ [st.2]) ot = .ok c ∧
        S.rfstats c ev = .ok (some (onset, stats)) ∧ ∀ r, ∃ e, S.waveforms r = .error e)) :
    step E S win pad ev st = .skip := by
  rw [C65_skip_iff E S win pad ev st ot net sta loc cha h1 h2]
  rcases h with h | ⟨c, e, h, h'⟩ | ⟨c, onset, stats, h, h', hw⟩
  · exact Or.inl h
  · exact Or.inr ⟨c, h, Or.inl ⟨e, h'⟩⟩
  · exact Or.inr ⟨c, h, Or.inr (Or.inr ⟨onset, stats, h', Or.inl (hw _)⟩)⟩

/-- **C66, part that holds**: what is yielded for the other pairs does not depend on a pair that is
skipped, wherever it is, as long as no pair raises outside the `try` blocks.
Missing: events without origin, `get_waveforms` returning `None`, `merge` raising, unreadable headers. -/
theorem C66_others_partial {ι α : Type} (body : ι → Outcome α) (l1 l2 : List ι) (i : ι)
    (h1 : ∀ j ∈ l1 ++ l2, Aborts (body j) = none) (hi : Aborts (body i) = none) :
    (genLoop body (l1 ++ i :: l2)).items =
      (genLoop body l1).items ++ (Yields (body i)).toList ++ (genLoop body l2).items ∧
    (genLoop body (l1 ++ i :: l2)).err = none := by
  rw [genLoop_ok body _ (by
      intro j hj
      rw [List.mem_append, List.mem_cons] at hj
      rcases hj with hj | hj | hj
      · exact h1 j (by simp [hj])
      · rw [hj]; exact hi
      · exact h1 j (by simp [hj])),
    genLoop_ok body l1 (fun j hj => h1 j (by simp [hj])),
    genLoop_ok body l2 (fun j hj => h1 j (by simp [hj]))]
  simp only [List.filterMap_append, List.filterMap_cons, and_true]
  cases Yields (body i) <;> simp

/-- What stops the generator: no origin time, a data service returning `None`, an exception of
trim/merge or of reading the headers, or an id that does not consist of four codes. -/
theorem C66_abort_iff (S : Services K Ev C) (win : K × K) (pad : K) (ev : Ev) (st : Str × Char)
    (net sta loc cha : Str) (h2 : splitOn '.' st.1 = [net, sta, loc, cha]) :
    Aborts (step E S win pad ev st) ≠ none ↔
      (∃ e, S.originTime ev = .error e) ∨
      ∃ ot c onset stats, S.originTime ev = .ok ot ∧
        S.coords (st.1.dropLast ++ [st.2]) ot = .ok c ∧ S.rfstats c ev = .ok (some (onset, stats)) ∧
        (S.waveforms ⟨net, sta, loc, cha, onset + win.1 - pad, onset + win.2 + pad⟩ = .ok none ∨
        ∃ raw, S.waveforms ⟨net, sta, loc, cha, onset + win.1 - pad, onset + win.2 + pad⟩ = .ok (some raw) ∧
          ((∃ e, S.trimMerge (onset + win.1) (onset + win.2) raw = .error e) ∨
          ∃ stream e, S.trimMerge (onset + win.1) (onset + win.2) raw = .ok stream ∧
            stream.length = 3 ∧ (∀ w ∈ stream, w.masked = false) ∧
            toRF E (stream.map fun w => { w with tr := updTrace stats w.tr }) = .error e)) := by
  unfold step
  cases h1 : S.originTime ev with
  | error e => simp [Aborts]
  | ok ot =>
    simp only [reduceCtorEq, exists_false, false_or]
    cases hc : S.coords (st.1.dropLast ++ [st.2]) ot with
    | error e =>
      simp only [Aborts, ne_eq, not_true_eq_false, false_iff]
      rintro ⟨ot', c, _, _, h, h', -⟩
      cases h; rw [hc] at h'; cases h'
    | ok c =>
      simp only []
      have hiff : ∀ P : K → Dict (Val K) → Prop,
          (∃ ot' c' onset stats, (Except.ok ot : Res K) = .ok ot' ∧
            S.coords (st.1.dropLast ++ [st.2]) ot' = .ok c' ∧
            S.rfstats c' ev = .ok (some (onset, stats)) ∧ P onset stats) ↔
          ∃ onset stats, S.rfstats c ev = .ok (some (onset, stats)) ∧ P onset stats := by
        intro P
        constructor
        · rintro ⟨_, _, onset, stats, h, h', h'', h3⟩
          cases h; rw [hc] at h'; cases h'
          exact ⟨onset, stats, h'', h3⟩
        · rintro ⟨onset, stats, h'', h3⟩
          exact ⟨ot, c, onset, stats, rfl, hc, h'', h3⟩
      rw [hiff]
      cases hr : S.rfstats c ev with
      | error e => simp [Aborts]
      | ok o =>
        cases o with
        | none => simp [Aborts]
        | some p =>
          obtain ⟨onset, stats⟩ := p
          have hiff2 : ∀ P : K → Dict (Val K) → Prop,
              (∃ o' s', (Except.ok (some (onset, stats)) : Res (Option (K × Dict (Val K)))) =
                .ok (some (o', s')) ∧ P o' s') ↔ P onset stats := by
            intro P
            constructor
            · rintro ⟨_, _, h, h'⟩; cases h; exact h'
            · intro h; exact ⟨_, _, rfl, h⟩
          rw [hiff2]
          unfold fetch
          simp only [h2]
          cases hw : S.waveforms ⟨net, sta, loc, cha, onset + win.1 - pad, onset + win.2 + pad⟩ with
          | error e => simp [Aborts]
          | ok o =>
            cases o with
            | none => simp [Aborts]
            | some raw =>
              cases ht : S.trimMerge (onset + win.1) (onset + win.2) raw with
              | error e => simp [Aborts, ht]
              | ok stream =>
                by_cases hl : stream.length = 3
                · by_cases hm : (stream.any fun w => w.masked) = true
                  · have hm' : ¬ ∀ w ∈ stream, w.masked = false := by
                      simpa using hm
                    simp [Aborts, ht, hl, hm, hm']
                  · have hm1 : (stream.any fun w => w.masked) = false := by simpa using hm
                    have hm' : ∀ w ∈ stream, w.masked = false := by simpa using hm
                    cases hrf : toRF E (stream.map fun w => { w with tr := updTrace stats w.tr }) with
                    | error e =>
                      have hR : (∃ e, S.trimMerge (onset + win.1) (onset + win.2) raw = .error e) ∨
                          ∃ stream e, S.trimMerge (onset + win.1) (onset + win.2) raw = .ok stream ∧
                            stream.length = 3 ∧ (∀ w ∈ stream, w.masked = false) ∧
                            toRF E (stream.map fun w => { w with tr := updTrace stats w.tr }) =
                              .error e := Or.inr ⟨stream, e, ht, hl, hm', hrf⟩
                      constructor
                      · intro _
                        exact Or.inr ⟨raw, rfl, hR⟩
                      · intro _
                        simp [Aborts, ht, hl, hm1, hrf]
                    | ok ts => simp [Aborts, ht, hl, hm1, hm', hrf]
                · simp [Aborts, ht, hl]

/-! ## C67 -/

/-- The stats entries survive the conversion to `RFTrace` if the trace has no format specific header. -/
theorem initTrace_plain (t : FTrace K) (h : t.st.format = none ∨ (t.st.sac = none ∧ t.st.sh = none)) :
    ∃ t', initTrace E t = .ok t' ∧ t'.st = t.st := by
  have hread : ∀ st : FStats K, (st.format = none ∨ (st.sac = none ∧ st.sh = none)) →
      readHeader E st = .ok st := by
    intro st h
    unfold readHeader
    cases hf : st.format with
    | none => rfl
    | some f =>
      simp only []
      cases fmtOf f with
      | none => rfl
      | some fmt =>
        simp only []
        rcases h with h | ⟨h, h'⟩
        · rw [hf] at h; cases h
        · have hstep : ∀ p, readStep E fmt st p = .ok st := by
            intro p
            have : st.sub fmt = none := by cases fmt <;> assumption
            simp [readStep, this]
          have : ∀ L : Dict String, L.foldlM (readStep E fmt) st = .ok st := by
            intro L
            induction L with
            | nil => rfl
            | cons p L ih => rw [List.foldlM_cons, hstep]; exact ih
          exact this _
  have hkey : ∀ t' : FTrace K, t'.st = t.st → readHeader E t'.st = .ok t.st := by
    intro t' ht'
    rw [ht']
    exact hread _ h
  unfold initTrace
  cases hf : t.st.format with
  | none =>
    simp only []
    rw [hread _ (Or.inl hf)]
    exact ⟨_, rfl, rfl⟩
  | some f =>
    simp only []
    rw [hkey _ (by split; · split <;> rfl
                   · rfl)]
    exact ⟨_, rfl, rfl⟩

/-- `RFStream(stream)` converts every trace. -/
theorem toRF_forall2 (ws : List (WTrace K)) (ts : List (FTrace K)) (h : toRF E ws = .ok ts) :
    List.Forall₂ (fun w t => (if w.isRF then .ok w.tr else initTrace E w.tr) = .ok t) ws ts := by
  induction ws generalizing ts with
  | nil => unfold toRF at h; cases h; exact List.Forall₂.nil
  | cons w ws ih =>
    unfold toRF at h
    split at h
    · cases h
    · rename_i t ht
      split at h
      · cases h
      · rename_i ts' hts
        cases h
        exact List.Forall₂.cons ht (ih _ hts)

/-- **C67** Every yielded stream was requested for the window `onset + request_window` extended by `pad` on
both sides and has exactly three traces without gaps. -/
theorem C67_complete (S : Services K Ev C) (win : K × K) (pad : K) (ev : Ev) (st : Str × Char)
    (x : Item K Ev) (h : step E S win pad ev st = .yield x) :
    x.traces.length = 3 ∧ ∃ ot c onset stats, S.originTime ev = .ok ot ∧
      S.coords (st.1.dropLast ++ [st.2]) ot = .ok c ∧ S.rfstats c ev = .ok (some (onset, stats)) ∧
      x.request.starttime = onset + win.1 - pad ∧ x.request.endtime = onset + win.2 + pad ∧
      splitOn '.' st.1 = [x.request.network, x.request.station, x.request.location, x.request.channel] ∧
      ∃ raw stream, S.waveforms x.request = .ok (some raw) ∧
        S.trimMerge (onset + win.1) (onset + win.2) raw = .ok stream ∧
        ∀ w ∈ stream, w.masked = false := by
  obtain ⟨g⟩ := (C65_yield_iff E S win pad ev st x).1 h
  refine ⟨?_, g.ot, g.c, g.onset, g.stats, g.h_time, g.h_coords, g.h_rfstats, by rw [g.h_request],
    by rw [g.h_request], by rw [g.h_request, g.h_id], g.raw, g.stream, g.h_waveforms, g.h_trim, g.h_gaps⟩
  rw [← (toRF_forall2 E _ _ g.h_rf).length_eq, List.length_map, g.h_three]

/-- **C67, attributes, part that holds**: if the traces of the data service have no SAC or SH header (or are
already `RFTrace` objects), every trace of a yielded stream carries all ray attributes of the pair.
Missing: traces with a format specific header, whose fields overwrite the attributes. -/
theorem C67_attributes_partial (S : Services K Ev C) (win : K × K) (pad : K) (ev : Ev) (st : Str × Char)
    (x : Item K Ev) (h : step E S win pad ev st = .yield x)
    (hplain : ∀ a b raw stream, S.trimMerge a b raw = .ok stream → ∀ w ∈ stream,
      w.isRF = true ∨ w.tr.st.format = none ∨ (w.tr.st.sac = none ∧ w.tr.st.sh = none)) :
    ∃ ot c onset stats, S.originTime ev = .ok ot ∧
      S.coords (st.1.dropLast ++ [st.2]) ot = .ok c ∧ S.rfstats c ev = .ok (some (onset, stats)) ∧
      ∀ t ∈ x.traces, ∀ k v, Dict.get stats.reverse k = some v → t.st.top.get k = some v := by
  obtain ⟨g⟩ := (C65_yield_iff E S win pad ev st x).1 h
  refine ⟨g.ot, g.c, g.onset, g.stats, g.h_time, g.h_coords, g.h_rfstats, fun t ht k v hk => ?_⟩
  have hf := toRF_forall2 E _ _ g.h_rf
  rw [List.forall₂_map_left_iff] at hf
  obtain ⟨hl, hg⟩ := List.forall₂_iff_get.1 hf
  obtain ⟨i, hi, rfl⟩ := List.getElem_of_mem ht
  have hwt := hg i (by rw [hl]; exact hi) hi
  have hw : g.stream.get ⟨i, by rw [hl]; exact hi⟩ ∈ g.stream := List.get_mem _ _
  generalize g.stream.get ⟨i, by rw [hl]; exact hi⟩ = w at hwt hw
  rw [List.get_eq_getElem] at hwt
  simp only [] at hwt
  generalize x.traces[i] = t at hwt ⊢
  have hst : t.st = (updTrace g.stats w.tr).st := by
    by_cases hrf : w.isRF = true
    · rw [if_pos hrf] at hwt
      cases hwt; rfl
    · rw [if_neg hrf] at hwt
      rcases hplain _ _ _ _ g.h_trim w hw with h | h
      · exact absurd h hrf
      · obtain ⟨t', h1, h2⟩ := initTrace_plain E (updTrace g.stats w.tr) h
        rw [h1] at hwt
        cases hwt
        exact h2
  rw [hst]
  simp only [updTrace]
  rw [Dict.get_update, hk]
  rfl

end

/-- **C67** The default request window: 50 s before to 150 s after the onset for phases ending with P, 100 s
before to 50 s after for others; a given window is used unchanged. -/
theorem C67_window {K : Type} [Field K] (pre : Str) (c : Char) (w : K × K) :
    requestWindow (pre ++ [c]) (some w) = .ok w ∧
    (c = 'P' ∨ c = 'p' → requestWindow (K := K) (pre ++ [c]) none = .ok (-50, 150)) ∧
    (c = 'S' ∨ c = 's' → requestWindow (K := K) (pre ++ [c]) none = .ok (-100, 50)) := by
  unfold requestWindow
  rw [List.getLast?_concat]
  refine ⟨rfl, ?_, ?_⟩
  · rintro (rfl | rfl) <;> exact if_pos (by decide)
  · rintro (rfl | rfl) <;> exact if_neg (by decide)

/-! ## Counterexamples -/

/-- External functions for SAC headers. -/
def evEnv : FmtEnv ℚ := ⟨fun _ _ => [], fun _ => .ok 0, fun _ => false, fun _ => .ok [], fun _ => .ok []⟩

/-- A trace read from a SAC file which has the distance field `gcarc` set. -/
def sacTrace : WTrace ℚ := ⟨⟨[], [], [], [], ⟨some "SAC".toList, [], some [("gcarc", .num 7)], none⟩⟩, false, false⟩

/-- Three traces without format header. -/
def plainTrace : WTrace ℚ := ⟨⟨[], [], [], [], ⟨none, [], none, none⟩⟩, false, false⟩

/-- Services for events given by their origin times; event 0 has no origin. -/
def evServices (t : WTrace ℚ) : Services ℚ Nat Unit where
  originTime e := if e = 0 then .error .indexError else .ok e
  coords _ _ := .ok ()
  rfstats _ e := .ok (some ((e : ℚ) + 600, [("distance", .num 60), ("onset", .time ((e : ℚ) + 600))]))
  waveforms _ := .ok (some [t, t, t])
  trimMerge _ _ l := .ok l

/-- **C66 is false**: an event without origin stops the generator, the events after it are lost. -/
theorem C66_counterexample :
    (iterEventData evEnv (fun _ => evServices plainTrace) [1, 0, 2] ["N.S..BHZ".toList] "P".toList none 10).1.err =
      some .indexError ∧
    (iterEventData evEnv (fun _ => evServices plainTrace) [1, 0, 2] ["N.S..BHZ".toList] "P".toList none 10).1.items.map
      (fun x => x.event) = [1] ∧
    (iterEventData evEnv (fun _ => evServices plainTrace) [1, 2] ["N.S..BHZ".toList] "P".toList none 10).1.items.map
      (fun x => x.event) = [1, 2] := by decide +kernel

/-- **C66 is false**: a data service that returns `None` for one request (as the wrapper of the batch module
does if the service raises) stops the generator as well. -/
theorem C66_counterexample_none :
    (iterEventData evEnv (fun n => { evServices plainTrace with
        waveforms := fun _ => if n = 0 then .ok none else .ok (some [plainTrace, plainTrace, plainTrace]) })
      [1, 2] ["N.S..BHZ".toList] "P".toList none 10).1.err = some .attributeError ∧
    (iterEventData evEnv (fun n => { evServices plainTrace with
        waveforms := fun _ => if n = 0 then .ok none else .ok (some [plainTrace, plainTrace, plainTrace]) })
      [1, 2] ["N.S..BHZ".toList] "P".toList none 10).1.items.map (fun x => x.event) = [] := by
  decide +kernel

/-- **C67 is false for the attributes**: if the data service returns traces read from SAC files, the fields
of the SAC header replace the calculated attributes (here the distance 60 by 7). -/
theorem C67_counterexample :
    (iterEventData evEnv (fun _ => evServices sacTrace) [1] ["N.S..BHZ".toList] "P".toList none 10).1.items.map
      (fun x => x.traces.map fun t => t.st.top.get "distance") =
      [[some (.num 7), some (.num 7), some (.num 7)]] := by decide +kernel

/-- A case of C65 and C67: two events, two stations, three channels. -/
example : (iterEventData evEnv (fun _ => evServices plainTrace) [1, 2]
      ["N.S..BHZ".toList, "N.S..BHN".toList, "N.T..BHZ".toList] "P".toList none 10).1.items.map
      (fun x => (x.event, x.seedid, x.request.starttime, x.request.endtime)) =
    [(1, "N.S..BH?".toList, 541, 761), (1, "N.T..BH?".toList, 541, 761),
     (2, "N.S..BH?".toList, 542, 762), (2, "N.T..BH?".toList, 542, 762)] := by decide +kernel

/-! ## C68 -/

section stations

theorem assocSet_fst {V : Type} (d : List (Str × V)) (k : Str) (v : V) :
    (assocSet d k v).map Prod.fst = if k ∈ d.map Prod.fst then d.map Prod.fst else d.map Prod.fst ++ [k] := by
  induction d with
  | nil => simp [assocSet]
  | cons p d ih =>
    obtain ⟨k', v'⟩ := p
    unfold assocSet
    by_cases h : k' = k
    · subst h; simp
    · have h' : k ≠ k' := fun hc => h hc.symm
      simp only [h, if_false, List.map_cons, ih, List.mem_cons, h', false_or]
      split <;> rfl

theorem assocSet_mem {V : Type} (d : List (Str × V)) (hn : (d.map Prod.fst).Nodup) (k : Str) (v : V)
    (p : Str × V) : p ∈ assocSet d k v ↔ p = (k, v) ∨ (p ∈ d ∧ p.1 ≠ k) := by
  induction d with
  | nil => simp [assocSet]
  | cons q d ih =>
    obtain ⟨k', v'⟩ := q
    simp only [List.map_cons, List.nodup_cons] at hn
    unfold assocSet
    by_cases h : k' = k
    · subst h
      simp only [if_true, List.mem_cons]
      constructor
      · rintro (h | h)
        · exact Or.inl h
        · refine Or.inr ⟨Or.inr h, ?_⟩
          rintro rfl
          exact hn.1 (List.mem_map.2 ⟨p, h, rfl⟩)
      · rintro (h | ⟨h | h, h'⟩)
        · exact Or.inl h
        · rw [h] at h'; exact absurd rfl h'
        · exact Or.inr h
    · simp only [h, if_false, List.mem_cons, ih hn.2]
      constructor
      · rintro (h' | h' | ⟨h', h''⟩)
        · exact Or.inr ⟨Or.inl h', by rw [h']; exact h⟩
        · exact Or.inl h'
        · exact Or.inr ⟨Or.inr h', h''⟩
      · rintro (h' | ⟨h' | h', h''⟩)
        · exact Or.inr (Or.inl h')
        · exact Or.inl h'
        · exact Or.inr (Or.inr ⟨h', h''⟩)

/-- The station entry of a channel id: component replaced by '?'. -/
def stationOf (ch : Str) : Str := ch.dropLast ++ ['?']

/-- The last channel of a station entry. -/
def lastChannel (channels : List Str) (k : Str) : Option Str :=
  (channels.filter fun ch => stationOf ch = k).getLast?

/-- **C68** For non-empty channel ids the station entries are distinct, are exactly the entries of the
channels, and the component of an entry is that of its last channel. -/
theorem C68_stations (channels : List Str) (hne : ∀ ch ∈ channels, ch ≠ []) :
    ∃ d, getStations channels = .ok d ∧ (d.map Prod.fst).Nodup ∧
      (∀ ch ∈ channels, ∃ c, (stationOf ch, c) ∈ d) ∧
      ∀ k c, (k, c) ∈ d ↔ ∃ ch, lastChannel channels k = some ch ∧ ch.getLast? = some c := by
  induction channels using List.reverseRecOn with
  | nil => exact ⟨[], rfl, by simp, by simp, by simp [lastChannel]⟩
  | append_singleton l ch ih =>
    obtain ⟨d, h1, h2, h3, h4⟩ := ih (fun c hc => hne c (by simp [hc]))
    have hch := hne ch (by simp)
    obtain ⟨c, hc⟩ : ∃ c, ch.getLast? = some c := by
      cases h : ch.getLast? with
      | none => rw [List.getLast?_eq_none_iff] at h; exact absurd h hch
      | some c => exact ⟨c, rfl⟩
    refine ⟨assocSet d (stationOf ch) c, ?_, ?_, ?_, ?_⟩
    · unfold getStations at h1 ⊢
      rw [List.foldlM_append, h1]
      simp only [Except.bind, bind, List.foldlM_cons, List.foldlM_nil, hc, pure, Except.pure, stationOf]
    · rw [assocSet_fst]
      split
      · exact h2
      · rename_i hnm
        rw [List.nodup_append]
        exact ⟨h2, by simp, by
          intro a ha b hb
          simp only [List.mem_singleton] at hb
          subst hb
          rintro rfl
          exact hnm ha⟩
    · intro ch' hch'
      rcases List.mem_append.1 hch' with h | h
      · by_cases hk : stationOf ch' = stationOf ch
        · exact ⟨c, by rw [assocSet_mem _ h2]; exact Or.inl (by rw [hk])⟩
        · obtain ⟨c', hc'⟩ := h3 ch' h
          exact ⟨c', by rw [assocSet_mem _ h2]; exact Or.inr ⟨hc', hk⟩⟩
      · rw [List.mem_singleton] at h
        subst h
        exact ⟨c, by rw [assocSet_mem _ h2]; exact Or.inl rfl⟩
    · intro k c'
      rw [assocSet_mem _ h2]
      by_cases hk : stationOf ch = k
      · subst hk
        have : lastChannel (l ++ [ch]) (stationOf ch) = some ch := by
          simp [lastChannel, List.filter_append]
        rw [this]
        simp only [ne_eq, not_true_eq_false, and_false, or_false, Option.some.injEq, exists_eq_left',
          Prod.mk.injEq, true_and, hc]
        exact eq_comm
      · have : lastChannel (l ++ [ch]) k = lastChannel l k := by
          simp [lastChannel, List.filter_append, hk]
        rw [this, ← h4 k c']
        constructor
        · rintro (h | h)
          · cases h; exact absurd rfl hk
          · exact h.1
        · intro h
          exact Or.inr ⟨h, fun hc => hk hc.symm⟩

/-- An empty channel id raises `IndexError`. -/
example : getStations ["N.S..BHZ".toList, []] = .error .indexError := by decide +kernel

example : getStations ["N.S..BHZ".toList, "N.S..BHN".toList, "N.S.00.BHZ".toList] =
    .ok [("N.S..BH?".toList, 'N'), ("N.S.00.BH?".toList, 'Z')] := by decide +kernel

end stations

/-! ## C85: iter_event_metadata -/

/-- A channel id consisting of four codes. -/
def FourCodes (id : Str) : Prop := ∃ n s l c : Str, splitOn '.' id = [n, s, l, c]

/-- **C85** `iter_event_metadata` yields exactly one record per event and station, event by event, with the codes
of the station id and the origin time; without events one record per station without time. -/
theorem C85_metadata {K Ev : Type} (originTime : Ev → Res K) (times : Ev → K) (events : List Ev)
    (channels : List Str) (stations : List (Str × Char)) (hst : getStations channels = .ok stations)
    (hid : ∀ st ∈ stations, FourCodes st.1) (ht : ∀ ev ∈ events, originTime ev = .ok (times ev)) :
    (iterEventMetadata originTime (some events) channels).err = none ∧
    (iterEventMetadata originTime (some events) channels).pbar = events.length * stations.length ∧
    (iterEventMetadata originTime (some events) channels).items.map
      (fun m => (m.eventTime, [m.network, m.station, m.location, m.channel])) =
      events.flatMap (fun ev => stations.map fun st => (some (times ev), splitOn '.' st.1)) ∧
    (iterEventMetadata originTime none channels).err = none ∧
    (iterEventMetadata originTime none channels).pbar = stations.length ∧
    (iterEventMetadata originTime none channels).items.map
      (fun m => (m.eventTime, [m.network, m.station, m.location, m.channel])) =
      stations.map fun st => ((none : Option K), splitOn '.' st.1) := by
  have hstep : ∀ (ev : Option Ev) (st : Str × Char), (∀ e, ev = some e → e ∈ events) → st ∈ stations →
      ∃ m, metaStep originTime (ev, st.1) = .yield m ∧
        (m.eventTime, [m.network, m.station, m.location, m.channel]) = (ev.map times, splitOn '.' st.1) := by
    intro ev st he hs
    obtain ⟨n, s, l, c, h4⟩ := hid st hs
    unfold metaStep
    rw [h4]
    cases ev with
    | none => exact ⟨_, rfl, rfl⟩
    | some e =>
      simp only [ht e (he e rfl)]
      exact ⟨_, rfl, rfl⟩
  have hgen : ∀ evs : List (Option Ev), (∀ ev ∈ evs, ∀ e, ev = some e → e ∈ events) →
      (genLoop (metaStep originTime) (pairs evs (stations.map Prod.fst))).err = none ∧
      (genLoop (metaStep originTime) (pairs evs (stations.map Prod.fst))).pbar =
        evs.length * stations.length ∧
      (genLoop (metaStep originTime) (pairs evs (stations.map Prod.fst))).items.map
        (fun m => (m.eventTime, [m.network, m.station, m.location, m.channel])) =
        evs.flatMap fun ev => stations.map fun st => (ev.map times, splitOn '.' st.1) := by
    intro evs hevs
    have hok : ∀ p ∈ pairs evs (stations.map Prod.fst), Aborts (metaStep originTime p) = none := by
      intro p hp
      unfold pairs at hp
      rw [List.mem_flatMap] at hp
      obtain ⟨ev, hev, hp⟩ := hp
      rw [List.mem_map] at hp
      obtain ⟨s, hs, rfl⟩ := hp
      obtain ⟨st, hst', rfl⟩ := List.mem_map.1 hs
      obtain ⟨m, hm, -⟩ := hstep ev st (hevs ev hev) hst'
      rw [hm]; rfl
    rw [genLoop_ok _ _ hok]
    refine ⟨rfl, by rw [pairs_length, List.length_map], ?_⟩
    clear hok
    show (List.filterMap (fun i => Yields (metaStep originTime i)) _).map _ = _
    unfold pairs
    induction evs with
    | nil => rfl
    | cons ev evs ih =>
      rw [List.flatMap_cons, List.flatMap_cons, List.filterMap_append, List.map_append,
        ih (fun e he => hevs e (List.mem_cons_of_mem _ he))]
      congr 1
      have hev := hevs ev List.mem_cons_self
      clear hst hid hevs ih
      induction stations with
      | nil => rfl
      | cons st sts ih2 =>
        obtain ⟨m, hm, hm'⟩ := hstep ev st hev List.mem_cons_self
        simp only [List.map_cons, List.filterMap_cons, hm, Yields]
        rw [hm']
        congr 1
        exact ih2 (fun ev' st' h1 h2 => hstep ev' st' h1 (List.mem_cons_of_mem _ h2))
  obtain ⟨a1, a2, a3⟩ := hgen (events.map some) (by
    intro ev hev e he
    obtain ⟨e', h1, h2⟩ := List.mem_map.1 hev
    rw [he] at h2; cases h2; exact h1)
  obtain ⟨b1, b2, b3⟩ := hgen [none] (by
    intro ev hev e he
    rw [List.mem_singleton] at hev
    rw [hev] at he; cases he)
  unfold iterEventMetadata
  rw [hst]
  simp only []
  refine ⟨a1, by rw [a2, List.length_map], ?_, b1, by rw [b2]; simp, ?_⟩
  · rw [a3, List.flatMap_map]
    rfl
  · rw [b3]
    simp

example : (iterEventMetadata (fun e : Nat => (.ok (e : ℚ) : Res ℚ)) (some [4, 5])
      ["N.S..BHZ".toList, "N.S..BHN".toList, "N.T..BHZ".toList]).items.map (fun m => (m.station, m.channel, m.eventTime)) =
    [("S".toList, "BH?".toList, some 4), ("T".toList, "BH?".toList, some 4),
     ("S".toList, "BH?".toList, some 5), ("T".toList, "BH?".toList, some 5)] := by decide +kernel

end Verif.Props
