import Verif.Props.BatchChain

/-!
# C198: results written into the folder of the data
-/

set_option linter.unusedSimpArgs false
set_option linter.unusedSectionVars false

namespace Verif.Spec
open Verif.Py Verif.Model Verif.Model.Batch

/-- The trace is read for the pair of event and station from the folder: the pattern describes its file. -/
def ReadFor {K : Type} (cal : K → DateTime) (root : Str) (m : EventIter.Meta K) (w : Files (Trace K)) (t : Trace K) : Prop :=
  ∃ c n, readCall cal root "SAC".toList m = .ok c ∧ Glob c.fname n ∧ w n = some t

/-- The trace is of the event and station, with a channel of three letters. -/
def OfPair {K : Type} (cal : K → DateTime) (m : EventIter.Meta K) (t : Trace K) : Prop :=
  t.net = m.network ∧ t.sta = m.station ∧ t.loc = m.location ∧ t.cha.length = 3 ∧
    ∃ u x, t.getTime "event_time" = some u ∧ m.eventTime = some x ∧ cal u = cal x

end Verif.Spec

namespace Verif.Props
open Verif.Py Verif.Spec Verif.Model Verif.Model.Batch

section sac
variable {K : Type} [Field K] [LinearOrder K] [IsStrictOrderedRing K] [FloorRing K] (cal : K → DateTime)

/-- Codes without separators and a time to the second. -/
def RegularTrace (t : Trace K) : Prop :=
  CleanCode t.net ∧ CleanCode t.sta ∧ CleanCode t.loc ∧ CleanCode t.cha ∧
    ∃ u, t.getTime "event_time" = some u ∧ DateTime.Valid (cal u)

/-- The folder contains traces in files with their names only. -/
def NamedFolder (root : Str) (w : Files (Trace K)) : Prop :=
  ∀ n t, w n = some t → RegularTrace cal t ∧ fmtPattern root (traceFields cal t) (fnames .sac) = .ok n

theorem kept_fields (t : Trace K) : traceFields cal (keptTrace t) = traceFields cal t := by
  have h := keptTrace_same t
  unfold traceFields
  rw [h.net, h.sta, h.loc, h.cha, h.getTime (k := "event_time") (by decide)]

theorem kept_regular (t : Trace K) (h : RegularTrace cal t) : RegularTrace cal (keptTrace t) := by
  have e := keptTrace_same t
  unfold RegularTrace at h ⊢
  rw [← e.net, ← e.sta, ← e.loc, ← e.cha, ← e.getTime (k := "event_time") (by decide)]
  exact h

theorem kept_pair (m : EventIter.Meta K) (t : Trace K) : OfPair cal m (keptTrace t) ↔ OfPair cal m t := by
  have e := keptTrace_same t
  unfold OfPair
  rw [← e.net, ← e.sta, ← e.loc, ← e.cha, ← e.getTime (k := "event_time") (by decide)]

theorem regular_clean (t : Trace K) (h : RegularTrace cal t) : Fields.Clean (traceFields cal t) :=
  ⟨h.1, h.2.1, h.2.2.1, h.2.2.2.1⟩

/-- A file is read for a pair exactly if its trace is of the pair. -/
theorem readFor_iff (root : Str) (hr : Literal root) (m : EventIter.Meta K) (hm : Regular cal m) (w : Files (Trace K))
    (hw : NamedFolder cal root w) (t : Trace K) :
    ReadFor cal root m w t ↔ OfPair cal m t ∧ ∃ n, w n = some t := by
  obtain ⟨x, hx, vx⟩ := hm.2.2.2
  have aux : ∀ n, w n = some t → ∃ c, readCall cal root "SAC".toList m = .ok c ∧ (Glob c.fname n ↔ OfPair cal m t) := by
    intro n hn
    obtain ⟨hreg, hname⟩ := hw n t hn
    obtain ⟨u, hu, vu⟩ := hreg.2.2.2.2
    obtain ⟨c, n', h1, h2, h3⟩ := C98_sac cal root hr m ⟨hm.1, hm.2.1, hm.2.2.1⟩ x hx (traceFields cal t)
      (regular_clean cal t hreg) (cal u) (by unfold traceFields; rw [hu]; rfl) vu vx
    rw [hname] at h2
    cases h2
    refine ⟨c, h1, h3.trans ⟨?_, ?_⟩⟩
    · rintro ⟨a1, a2, a3, a4, a5⟩
      exact ⟨a1, a2, a3, a4, u, x, hu, hx, a5⟩
    · rintro ⟨a1, a2, a3, a4, u', x', hu', hx', a5⟩
      rw [hu] at hu'; rw [hx] at hx'
      cases hu'; cases hx'
      exact ⟨a1, a2, a3, a4, a5⟩
  constructor
  · rintro ⟨c, n, h1, h2, h3⟩
    obtain ⟨c', h4, h5⟩ := aux n h3
    rw [h1] at h4
    cases h4
    exact ⟨h5.1 h2, n, h3⟩
  · rintro ⟨hp, n, hn⟩
    obtain ⟨c, h4, h5⟩ := aux n hn
    exact ⟨c, n, h4, h5.2 hp, hn⟩

theorem writeEach_cons (name : Trace K → Res Str) (w : Files (Trace K)) (t : Trace K) (ts : List (Trace K)) (n : Str)
    (h : name t = .ok n) : writeEach name w (t :: ts) = writeEach name (w.put n (keptTrace t)) ts := by
  rw [writeEach, h]

/-- **C198** (exceptions).  A trace without a file name, e.g. without event time, ends the loop with its exception; the traces before it are
written, those after it are not. -/
theorem C198_stops (name : Trace K → Res Str) (t : Trace K) (us : List (Trace K)) (e : PyErr) (he : name t = .error e) (ts : List (Trace K)) :
    ∀ w : Files (Trace K), (∀ t ∈ ts, ∃ n, name t = .ok n) →
      writeEach name w (ts ++ t :: us) = ((writeEach name w ts).1, some e) ∧ (writeEach name w ts).2 = none := by
  induction ts with
  | nil =>
    intro w _
    refine ⟨?_, rfl⟩
    show (match name t with | .error e => (w, some e) | .ok n => writeEach name (w.put n (keptTrace t)) us) = _
    rw [he]
    rfl
  | cons a ts ih =>
    intro w h
    obtain ⟨n, hn⟩ := h a List.mem_cons_self
    rw [List.cons_append, writeEach_cons name w a _ n hn, writeEach_cons name w a ts n hn]
    exact ih _ fun t ht => h t (List.mem_cons_of_mem _ ht)

theorem put_named (root : Str) (w : Files (Trace K)) (hw : NamedFolder cal root w) (t : Trace K) (ht : RegularTrace cal t)
    (n : Str) (hn : fmtPattern root (traceFields cal t) (fnames .sac) = .ok n) :
    NamedFolder cal root (w.put n (keptTrace t)) := by
  intro n' t' h
  unfold Files.put at h
  split at h
  · rename_i e
    cases h
    subst e
    exact ⟨kept_regular cal t ht, by rw [kept_fields]; exact hn⟩
  · exact hw n' t' h

/-- The files after writing: those of the traces written (the last one of each name), and the others as before. -/
theorem writeSacFiles_spec (root : Str) (ts : List (Trace K)) :
    ∀ w : Files (Trace K), NamedFolder cal root w → (∀ t ∈ ts, RegularTrace cal t) →
      (ts.Pairwise fun t t' => fmtPattern root (traceFields cal t) (fnames .sac) ≠
        fmtPattern root (traceFields cal t') (fnames .sac)) →
      (writeSacFiles cal root w ts).2 = none ∧ NamedFolder cal root (writeSacFiles cal root w ts).1 ∧
      (∀ t ∈ ts, ∀ n, fmtPattern root (traceFields cal t) (fnames .sac) = .ok n →
        (writeSacFiles cal root w ts).1 n = some (keptTrace t)) ∧
      ∀ n, (∀ t ∈ ts, fmtPattern root (traceFields cal t) (fnames .sac) ≠ .ok n) →
        (writeSacFiles cal root w ts).1 n = w n := by
  induction ts with
  | nil =>
    intro w hw _ _
    exact ⟨rfl, hw, fun t ht => absurd ht List.not_mem_nil, fun _ _ => rfl⟩
  | cons t ts ih =>
    intro w hw hreg hpw
    rw [List.pairwise_cons] at hpw
    have ht := hreg t List.mem_cons_self
    obtain ⟨u, hu, vu⟩ := ht.2.2.2.2
    obtain ⟨n0, hn0⟩ : ∃ n0, fmtPattern root (traceFields cal t) (fnames .sac) = .ok n0 :=
      ⟨_, sac_name root (traceFields cal t) (cal u) (by unfold traceFields; rw [hu]; rfl)⟩
    obtain ⟨i1, i2, i3, i4⟩ := ih (w.put n0 (keptTrace t)) (put_named cal root w hw t ht n0 hn0)
      (fun t' h' => hreg t' (List.mem_cons_of_mem _ h')) hpw.2
    have e : writeSacFiles cal root w (t :: ts) = writeSacFiles cal root (w.put n0 (keptTrace t)) ts :=
      writeEach_cons _ w t ts n0 hn0
    rw [e]
    refine ⟨i1, i2, ?_, ?_⟩
    · intro t' ht' n hn
      rcases List.mem_cons.1 ht' with rfl | ht'
      · rw [hn0] at hn
        cases hn
        rw [i4 n0 (fun t' h' h => hpw.1 t' h' (by rw [hn0, h]))]
        exact put_same _ _ _
      · exact i3 t' ht' n hn
    · intro n hn
      rw [i4 n (fun t' h' => hn t' (List.mem_cons_of_mem _ h'))]
      exact put_other _ _ _ _ (fun h => hn t List.mem_cons_self (by rw [hn0, h]))

/-- **C198** (partial: what is read is not only what was written) After a stream of an event and a station was written
to SAC files, those traces are read for this pair which are in the stream, together with the traces which were in the
folder before and whose channel is not in the stream. -/
theorem C198_read_partial (root : Str) (hr : Literal root) (m : EventIter.Meta K) (hm : Regular cal m)
    (w : Files (Trace K)) (hw : NamedFolder cal root w) (ts : List (Trace K)) (hreg : ∀ t ∈ ts, RegularTrace cal t)
    (hpair : ∀ t ∈ ts, OfPair cal m t) (hch : ts.Pairwise fun t t' => t.cha ≠ t'.cha) :
    (writeSacFiles cal root w ts).2 = none ∧
    ∀ t, ReadFor cal root m (writeSacFiles cal root w ts).1 t ↔
      (∃ t' ∈ ts, t = keptTrace t') ∨ (ReadFor cal root m w t ∧ ∀ t' ∈ ts, t.cha ≠ t'.cha) := by
  -- names of traces of the pair differ exactly if their channels differ
  have names : ∀ t t' : Trace K, RegularTrace cal t → RegularTrace cal t' → OfPair cal m t → OfPair cal m t' →
      (fmtPattern root (traceFields cal t) (fnames .sac) = fmtPattern root (traceFields cal t') (fnames .sac) ↔
        t.cha = t'.cha) := by
    intro t t' ht ht' hp hp'
    obtain ⟨u, hu, vu⟩ := ht.2.2.2.2
    obtain ⟨u', hu', vu'⟩ := ht'.2.2.2.2
    rw [C81_sac root _ _ (regular_clean cal t ht) (regular_clean cal t' ht') (cal u) (cal u')
      (by unfold traceFields; rw [hu]; rfl) (by unfold traceFields; rw [hu']; rfl) vu vu']
    obtain ⟨a1, a2, a3, -, v, x, hv, hx, e⟩ := hp
    obtain ⟨b1, b2, b3, -, v', x', hv', hx', e'⟩ := hp'
    rw [hu] at hv; cases hv
    rw [hu'] at hv'; cases hv'
    rw [hx] at hx'; cases hx'
    constructor
    · rintro ⟨-, -, -, h, -⟩; exact h
    · intro h
      exact ⟨a1.trans b1.symm, a2.trans b2.symm, a3.trans b3.symm, h, e.trans e'.symm⟩
  have hpw : ts.Pairwise fun t t' => fmtPattern root (traceFields cal t) (fnames .sac) ≠
      fmtPattern root (traceFields cal t') (fnames .sac) :=
    List.Pairwise.imp_of_mem (fun {t t'} ht ht' hne h =>
      hne ((names t t' (hreg t ht) (hreg t' ht') (hpair t ht) (hpair t' ht')).1 h)) hch
  obtain ⟨s1, s2, s3, s4⟩ := writeSacFiles_spec cal root ts w hw hreg hpw
  have hnamed : ∀ t, RegularTrace cal t → ∃ n, fmtPattern root (traceFields cal t) (fnames .sac) = .ok n := by
    intro t ht
    obtain ⟨u, hu, vu⟩ := ht.2.2.2.2
    exact ⟨_, sac_name root (traceFields cal t) (cal u) (by unfold traceFields; rw [hu]; rfl)⟩
  refine ⟨s1, fun t => ?_⟩
  rw [readFor_iff cal root hr m hm _ s2, readFor_iff cal root hr m hm w hw]
  constructor
  · rintro ⟨hp, n, hn⟩
    by_cases hex : ∃ t' ∈ ts, fmtPattern root (traceFields cal t') (fnames .sac) = .ok n
    · obtain ⟨t', ht', h⟩ := hex
      rw [s3 t' ht' n h] at hn
      exact .inl ⟨t', ht', (Option.some.inj hn).symm⟩
    · have hne : ∀ t' ∈ ts, fmtPattern root (traceFields cal t') (fnames .sac) ≠ .ok n := fun t' h' h => hex ⟨t', h', h⟩
      rw [s4 n hne] at hn
      refine .inr ⟨⟨hp, n, hn⟩, fun t' ht' hc => ?_⟩
      obtain ⟨g1, g2⟩ := hw n t hn
      refine hne t' ht' ?_
      rw [← g2]
      exact ((names t t' g1 (hreg t' ht') hp (hpair t' ht')).2 hc).symm
  · rintro (⟨t', ht', rfl⟩ | ⟨⟨hp, n, hn⟩, hc⟩)
    · obtain ⟨n, hn⟩ := hnamed t' (hreg t' ht')
      exact ⟨(kept_pair cal m t').2 (hpair t' ht'), n, s3 t' ht' n hn⟩
    · refine ⟨hp, n, ?_⟩
      rw [s4 n (fun t' ht' h => ?_)]
      · exact hn
      · obtain ⟨g1, g2⟩ := hw n t hn
        refine hc t' ht' ((names t t' g1 (hreg t' ht') hp (hpair t' ht')).1 ?_)
        rw [g2, h]

/-- **C198** (partial) If no trace with another channel was in the folder for the pair, exactly the stream is read: a new
folder, or commands which do not change the channels. -/
theorem C198_exact_partial (root : Str) (hr : Literal root) (m : EventIter.Meta K) (hm : Regular cal m)
    (w : Files (Trace K)) (hw : NamedFolder cal root w) (ts : List (Trace K)) (hreg : ∀ t ∈ ts, RegularTrace cal t)
    (hpair : ∀ t ∈ ts, OfPair cal m t) (hch : ts.Pairwise fun t t' => t.cha ≠ t'.cha)
    (hold : ∀ t, ReadFor cal root m w t → ∃ t' ∈ ts, t.cha = t'.cha) (t : Trace K) :
    ReadFor cal root m (writeSacFiles cal root w ts).1 t ↔ ∃ t' ∈ ts, t = keptTrace t' := by
  rw [(C198_read_partial cal root hr m hm w hw ts hreg hpair hch).2 t]
  refine ⟨fun h => ?_, fun h => .inl h⟩
  rcases h with h | ⟨h1, h2⟩
  · exact h
  · obtain ⟨t', ht', e⟩ := hold t h1
    exact absurd e (h2 t' ht')

/-- **C198** A Q file is replaced as a whole: exactly the stream written last is read. -/
theorem C198_q (root : Str) (x : Heap K × List Nat) (m : EventIter.Meta K) (hb : Belongs cal m x)
    (w : Files (Heap K × List Nat)) :
    ((qFiles cal root).write x w).2 = none ∧
    ((qFiles cal root).write x w).1 (pairFile cal root m) = some ((fun r => keptTrace (x.1 r)), x.2) := by
  obtain ⟨h1, h2⟩ := belongs_name cal root m x hb
  unfold OneFile.write
  rw [h1, h2]
  exact ⟨rfl, put_same _ _ _⟩

end sac

section examples

/-- A trace of the example with a given channel and samples. -/
def placeTrace (cha : Str) (data : List ℚ) : Trace ℚ :=
  { net := "N".toList, sta := "A".toList, loc := [], cha := cha, start := 0, sr := 1, data := data,
    ext := [("event_time", .time 1)] }

def placeMeta : EventIter.Meta ℚ := ⟨"N".toList, "A".toList, [], "BH?".toList, some 1⟩

instance (s : Str) : Decidable (CleanCode s) :=
  inferInstanceAs (Decidable ('.' ∉ s ∧ '/' ∉ s ∧ '_' ∉ s ∧ '?' ∉ s ∧ '*' ∉ s ∧ '[' ∉ s))

theorem place_valid : DateTime.Valid (exCal 1) := by
  unfold DateTime.Valid
  decide +kernel

theorem place_meta : Regular exCal placeMeta :=
  ⟨by decide, by decide, by decide, 1, rfl, place_valid⟩

theorem place_regular (cha : Str) (hc : CleanCode cha) (data : List ℚ) : RegularTrace exCal (placeTrace cha data) :=
  ⟨(by decide : CleanCode "N".toList), (by decide : CleanCode "A".toList), (by decide : CleanCode []), hc, 1, rfl,
    place_valid⟩

/-- **C198** False as stated: three components are in the folder of SAC files; after the calculation of receiver functions
in this folder, which turns them into L, Q and T, the vertical component is still read with them. -/
theorem C198_counterexample :
    let data : List (Trace ℚ) := [placeTrace "BHZ".toList [1], placeTrace "BHN".toList [2], placeTrace "BHE".toList [3]]
    let rfs : List (Trace ℚ) := [placeTrace "BHL".toList [4], placeTrace "BHQ".toList [5], placeTrace "BHT".toList [6]]
    let w := (writeSacFiles exCal "d".toList (fun _ => none) data).1
    ReadFor exCal "d".toList placeMeta (writeSacFiles exCal "d".toList w rfs).1 (keptTrace (placeTrace "BHZ".toList [1])) := by
  intro data rfs w
  have hm := place_meta
  have hr : Literal "d".toList := ⟨by decide, by decide, by decide⟩
  have hp : ∀ cha data, cha.length = 3 → OfPair exCal placeMeta (placeTrace cha data) := fun cha data h =>
    ⟨rfl, rfl, rfl, h, 1, 1, rfl, rfl, rfl⟩
  have hw0 : NamedFolder exCal "d".toList (fun _ => none) := fun n t h => by cases h
  have h1 : ∀ t ∈ data, RegularTrace exCal t ∧ OfPair exCal placeMeta t := by
    intro t ht
    simp only [data, List.mem_cons, List.not_mem_nil, or_false] at ht
    rcases ht with rfl | rfl | rfl
    · exact ⟨place_regular _ (by decide) _, hp _ _ rfl⟩
    · exact ⟨place_regular _ (by decide) _, hp _ _ rfl⟩
    · exact ⟨place_regular _ (by decide) _, hp _ _ rfl⟩
  have h2 : ∀ t ∈ rfs, RegularTrace exCal t ∧ OfPair exCal placeMeta t ∧ t.cha ≠ "BHZ".toList := by
    intro t ht
    simp only [rfs, List.mem_cons, List.not_mem_nil, or_false] at ht
    rcases ht with rfl | rfl | rfl
    · exact ⟨place_regular _ (by decide) _, hp _ _ rfl, by decide⟩
    · exact ⟨place_regular _ (by decide) _, hp _ _ rfl, by decide⟩
    · exact ⟨place_regular _ (by decide) _, hp _ _ rfl, by decide⟩
  have d1 : data.Pairwise fun t t' => t.cha ≠ t'.cha := by decide
  have d2 : rfs.Pairwise fun t t' => t.cha ≠ t'.cha := by decide
  have hw : NamedFolder exCal "d".toList w := by
    refine (writeSacFiles_spec exCal "d".toList data _ hw0 (fun t ht => (h1 t ht).1) ?_).2.1
    decide +kernel
  refine ((C198_read_partial exCal "d".toList hr placeMeta hm w hw rfs (fun t ht => (h2 t ht).1)
    (fun t ht => (h2 t ht).2.1) d2).2 _).2 (.inr ⟨?_, fun t' ht' h => (h2 t' ht').2.2 h.symm⟩)
  exact ((C198_read_partial exCal "d".toList hr placeMeta hm _ hw0 data (fun t ht => (h1 t ht).1)
    (fun t ht => (h1 t ht).2) d1).2 _).2 (.inl ⟨_, by simp [data], rfl⟩)

/-- Into a new folder: exactly the receiver functions are read. -/
example (t : Trace ℚ) :
    ReadFor exCal "d".toList placeMeta (writeSacFiles exCal "d".toList (fun _ => none) [placeTrace "BHQ".toList [5]]).1 t ↔
      ∃ t' ∈ [placeTrace "BHQ".toList [5]], t = keptTrace t' := by
  refine C198_exact_partial exCal "d".toList ⟨by decide, by decide, by decide⟩ placeMeta place_meta _
    (fun n t h => by cases h) _ ?_ ?_ (by decide) ?_ t
  · intro t ht
    rw [List.mem_singleton] at ht
    subst ht
    exact place_regular _ (by decide) _
  · intro t ht
    rw [List.mem_singleton] at ht
    subst ht
    exact ⟨rfl, rfl, rfl, rfl, 1, 1, rfl, rfl, rfl⟩
  · rintro t ⟨c, n, -, -, h⟩
    cases h

/-- A trace which cannot be named between two others: the first one is written only. -/
example : let name : Trace ℚ → Res Str := fun t => if t.cha = "BHT".toList then .error .valueError else .ok t.cha
    let r := writeEach name (fun _ => none) [placeTrace "BHQ".toList [5], placeTrace "BHT".toList [6], placeTrace "BHL".toList [7]]
    r.2 = some .valueError ∧ (r.1 "BHQ".toList).isSome = true ∧ r.1 "BHL".toList = none := by decide +kernel

end examples

end Verif.Props
