import Verif.Props.EventIter
import Verif.Model.Batch

/-!
# Reading data in the batch program (C94, C99)
-/

set_option linter.unusedSimpArgs false
set_option linter.unusedSectionVars false

namespace Verif.Props
open Verif.Py Verif.Model Verif.Model.Batch Verif.Model.EventIter Verif.Model.Headers

section data
variable {K Ev C : Type} [Field K] (E : FmtEnv K)

/-- The services with the data service wrapped as by `init_data`. -/
def wrapped (S : Services K Ev C) : Services K Ev C := { S with waveforms := wrapWaveforms S.waveforms }

/-- **C94** (general form of the defect) Whenever the data service fails for a pair which is in range, the wrapped
service ends the whole iteration with `AttributeError`; the unwrapped service would have skipped the pair. -/
theorem C94_abort (S : Services K Ev C) (win : K × K) (pad : K) (ev : Ev) (st : Str × Char) (ot onset : K) (c : C)
    (stats : Dict (Val K)) (net sta loc cha : Str) (e : PyErr) (h1 : S.originTime ev = .ok ot)
    (h2 : S.coords (st.1.dropLast ++ [st.2]) ot = .ok c) (h3 : S.rfstats c ev = .ok (some (onset, stats)))
    (h4 : splitOn '.' st.1 = [net, sta, loc, cha])
    (h5 : S.waveforms ⟨net, sta, loc, cha, onset + win.1 - pad, onset + win.2 + pad⟩ = .error e) :
    step E (wrapped S) win pad ev st = .abort .attributeError ∧ step E S win pad ev st = .skip := by
  constructor
  · unfold step wrapped
    simp only [h1, h2, h3]
    unfold fetch
    simp only [h4, wrapWaveforms, h5]
  · unfold step
    simp only [h1, h2, h3]
    unfold fetch
    simp only [h4, h5]

/-- **C94** (what holds) As long as the data service does not fail, the wrapper makes no difference. -/
theorem C94_no_failure_partial (S : Nat → Services K Ev C) (events : List Ev) (channels : List Str) (phase : Str)
    (win : Option (K × K)) (pad : K) (h : ∀ n r, ∃ s, (S n).waveforms r = .ok s) :
    iterEventData E (fun n => wrapped (S n)) events channels phase win pad =
      iterEventData E S events channels phase win pad := by
  have : (fun n => wrapped (S n)) = S := by
    funext n
    unfold wrapped
    have : wrapWaveforms (S n).waveforms = (S n).waveforms := by
      funext r
      obtain ⟨s, hs⟩ := h n r
      unfold wrapWaveforms
      rw [hs]
    rw [this]
  rw [this]

/-- **C94** (what holds) The streams yielded before the first failure are the same as without the wrapper: the wrapper
never adds or changes streams. -/
theorem C94_prefix (S : Nat → Services K Ev C) (events : List Ev) (channels : List Str) (phase : Str)
    (win : Option (K × K)) (pad : K) :
    (iterEventData E (fun n => wrapped (S n)) events channels phase win pad).1.items <+:
      (iterEventData E S events channels phase win pad).1.items := by
  unfold iterEventData
  cases requestWindow phase win with
  | error e => exact List.prefix_refl _
  | ok w =>
    simp only []
    cases getStations channels with
    | error e => exact List.prefix_refl _
    | ok stations =>
      simp only []
      have hstep : ∀ (S : Services K Ev C) (ev : Ev) (st : Str × Char),
          step E (wrapped S) w pad ev st = step E S w pad ev st ∨
          step E (wrapped S) w pad ev st = .abort .attributeError := by
        intro S ev st
        unfold step wrapped
        simp only []
        cases S.originTime ev with
        | error e => exact .inl rfl
        | ok ot =>
          simp only []
          cases S.coords (st.1.dropLast ++ [st.2]) ot with
          | error e => exact .inl rfl
          | ok c =>
            simp only []
            cases S.rfstats c ev with
            | error e => exact .inl rfl
            | ok o =>
              cases o with
              | none => exact .inl rfl
              | some os =>
                obtain ⟨onset, stats⟩ := os
                simp only []
                unfold fetch
                split
                · rename_i net sta loc cha _
                  simp only [wrapWaveforms]
                  cases hw : S.waveforms ⟨net, sta, loc, cha, onset + w.1 - pad, onset + w.2 + pad⟩ with
                  | error e => exact .inr rfl
                  | ok s => exact .inl rfl
                · exact .inl rfl
      generalize (pairs events stations).zipIdx = l
      induction l with
      | nil => exact List.prefix_refl _
      | cons p l ih =>
        unfold genLoop
        rcases hstep (S p.2) p.1.1 p.1.2 with hs | hs
        · rw [hs]
          cases step E (S p.2) w pad p.1.1 p.1.2 with
          | abort e => exact List.prefix_refl _
          | skip => exact ih
          | yield x => exact List.cons_prefix_cons.2 ⟨rfl, ih⟩
        · rw [hs]
          exact List.nil_prefix

end data

/-- A data service without data for the first station. -/
def gapService : Services ℚ Nat Unit where
  originTime _ := .ok 0
  coords _ _ := .ok ()
  rfstats _ _ := .ok (some (0, []))
  waveforms r := if r.station = "PB01".toList then .error .other else
    .ok (some (List.replicate 3 ⟨⟨[], [], [], [], ⟨none, [], none, none⟩⟩, false, true⟩))
  trimMerge _ _ s := .ok s

/-- **C94** is false: without data for the first station, nothing is processed at all. -/
theorem C94_counterexample (E : FmtEnv ℚ) :
    ((iterEventData E (fun _ => wrapped gapService) [7] ["CX.PB01..BHZ".toList, "CX.PB02..BHZ".toList] "P".toList none 10).1.items.map
      (fun x => x.event)) = [] ∧
    (iterEventData E (fun _ => wrapped gapService) [7] ["CX.PB01..BHZ".toList, "CX.PB02..BHZ".toList] "P".toList none 10).1.err =
      some .attributeError ∧
    ((iterEventData E (fun _ => gapService) [7] ["CX.PB01..BHZ".toList, "CX.PB02..BHZ".toList] "P".toList none 10).1.items.map
      (fun x => (x.event, x.seedid))) = [(7, "CX.PB02..BH?".toList)] := by
  refine ⟨?_, ?_, ?_⟩ <;> rfl

/-! ## C99: reading processed files -/

section processed
variable {K Ev S : Type}

/-- **C99** With a known format, one stream per readable event-station pair is yielded, in the order of the pairs;
pairs whose files cannot be read are left out and no exception is added. -/
theorem C99_processed_partial (originTime : Ev → Res K) (read : ReadCall K → Res S) (cal : K → DateTime)
    (events : Option (List Ev)) (channels : List Str) (pin : Str) (format : Str) (f : Format)
    (hf : formatKey format = some f) :
    ∃ call : Meta K → ReadCall K, (∀ m, readCall cal pin format m = .ok (call m)) ∧
      (iterProcessed originTime read cal events channels pin format).1 =
        (iterEventMetadata originTime events channels).items.filterMap (fun m => (read (call m)).toOption) ∧
      (iterProcessed originTime read cal events channels pin format).2 =
        (iterEventMetadata originTime events channels).err := by
  have hfm : f = .h5 ∨ format ≠ "H5".toList := by
    unfold formatKey at hf
    split at hf
    · rename_i h; right; rw [h]; decide
    · split at hf
      · rename_i h; right; rw [h]; decide
      · split at hf
        · left; simpa using hf.symm
        · cases hf
  have htot : ∀ m : Meta K, ∃ c, readCall cal pin format m = .ok c := by
    intro m
    unfold readCall
    simp only [hf]
    have : ∃ n, fmtPattern pin (metaFields cal m format) (fnames f) = .ok n := by
      rcases hfm with rfl | hne
      · exact ⟨_, by simp [fmtPattern, fnames, fmtPiece]; rfl⟩
      · have ht : (metaFields cal m format).eventTime = some .dummy ∨
            ∃ t, (metaFields cal m format).eventTime = some (.time t) := by
          unfold metaFields
          simp only []
          cases m.eventTime with
          | none => left; simp only []; rw [if_pos hne]
          | some t => exact .inr ⟨_, rfl⟩
        rcases ht with ht | ⟨t, ht⟩
        · cases f <;> simp [fmtPattern, fnames, idPieces, fmtPiece, ht]
        · cases f <;> simp [fmtPattern, fnames, idPieces, fmtPiece, ht]
    obtain ⟨n, hn⟩ := this
    rw [hn]
    exact ⟨_, rfl⟩
  choose call hcall using htot
  refine ⟨call, hcall, ?_⟩
  have hstep : ∀ m, processedStep read cal pin format m =
      match (read (call m)).toOption with | none => .skip | some s => .yield s := by
    intro m
    unfold processedStep
    simp only [hcall m]
    cases read (call m) <;> rfl
  have hgen := genLoop_ok (processedStep read cal pin format) (iterEventMetadata originTime events channels).items
    (fun m _ => by rw [hstep]; cases (read (call m)).toOption <;> rfl)
  unfold iterProcessed
  simp only [hgen]
  refine ⟨?_, trivial⟩
  congr 1
  funext m
  rw [hstep]
  cases (read (call m)).toOption <;> rfl

/-- **C99** (defect) `write` accepts a format in any case, but files written with a lower case name of the format cannot
be read back with the same option: reading raises `KeyError`. -/
theorem C99_counterexample :
    (∀ (wr : Str → Format → List Nat → Option PyErr) (h : Nat → Fields) (fs : FS) (stream : List Nat) (root : Str)
      (kind : Kind), Batch.write wr h fs stream root "sac".toList kind = Batch.write wr h fs stream root "SAC".toList kind) ∧
    (∀ (read : ReadCall ℚ → Res Nat) (cal : ℚ → DateTime),
      iterProcessed (fun _ : Nat => .ok (0 : ℚ)) read cal (some [7]) ["CX.PB01..BHZ".toList] "rf".toList "sac".toList =
        ([], some .keyError)) := by
  refine ⟨fun wr h fs stream root kind => ?_, fun read cal => ?_⟩
  · unfold Batch.write
    rw [show upper "sac".toList = upper "SAC".toList by decide]
  · rfl

end processed

end Verif.Props
