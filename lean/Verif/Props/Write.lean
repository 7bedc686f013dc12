import Verif.Model.Headers
import Verif.Props.StreamOps

/-!
# Writing streams (C59, C60)
-/

set_option linter.unusedSimpArgs false
set_option linter.unusedSectionVars false

namespace Verif.Props
open Verif.Py Verif.Model.Headers

section
variable {K : Type} [Field K] (E : FmtEnv K)

theorem fset_self (h : FHeap K) (r : Nat) (t : FTrace K) : h.set r t r = t := by simp [FHeap.set]

theorem fset_ne (h : FHeap K) {r r' : Nat} (t : FTrace K) (hne : r' ≠ r) : h.set r t r' = h r' := by
  simp [FHeap.set, hne]

/-- Only traces of the stream are touched by the first loop. -/
theorem writeLoop_other (format : Str) (compat : Bool) (h : FHeap K) (s : List Nat) (r : Nat)
    (hr : r ∉ s) : (writeLoop E format compat h s).1 r = h r := by
  induction s generalizing h with
  | nil => rfl
  | cons a s ih =>
    simp only [List.mem_cons, not_or] at hr
    unfold writeLoop
    cases writeHeader E format compat (h a).st with
    | error e => rfl
    | ok st =>
      simp only []
      rw [ih _ hr.2, fset_ne _ _ hr.1]

/-- The first loop on a stream of distinct traces whose headers can be written. -/
theorem writeLoop_ok (format : Str) (compat : Bool) (h : FHeap K) (s : List Nat) (hs : s.Nodup)
    (hw : ∀ r ∈ s, ∃ st, writeHeader E format compat (h r).st = .ok st) :
    (writeLoop E format compat h s).2 = none ∧
    ∀ r ∈ s, ∃ st, writeHeader E format compat (h r).st = .ok st ∧
      (writeLoop E format compat h s).1 r =
        ⟨(h r).net, if upper format = "Q".toList then (h r).id else (h r).sta, (h r).loc, (h r).cha, st⟩ := by
  induction s generalizing h with
  | nil => exact ⟨rfl, by simp⟩
  | cons a s ih =>
    simp only [List.nodup_cons] at hs
    obtain ⟨st, hst⟩ := hw a (by simp)
    let t : FTrace K :=
      ⟨(h a).net, if upper format = "Q".toList then (h a).id else (h a).sta, (h a).loc, (h a).cha, st⟩
    have hstep : writeLoop E format compat h (a :: s) = writeLoop E format compat (h.set a t) s := by
      rw [writeLoop, hst]
      simp only []
      congr 2
      by_cases hq : upper format = "Q".toList
      · simp only [hq, if_true, t]; rfl
      · simp only [hq, if_false, t]
    have hne : ∀ r ∈ s, (h.set a t) r = h r := fun r hr =>
      fset_ne _ _ (by rintro rfl; exact hs.1 hr)
    obtain ⟨h1, h2⟩ := ih (h.set a t) hs.2 (fun r hr => by
      rw [hne r hr]; exact hw r (List.mem_cons_of_mem _ hr))
    rw [hstep]
    refine ⟨h1, fun r hr => ?_⟩
    rcases List.mem_cons.1 hr with hra | hra
    · subst hra
      refine ⟨st, hst, ?_⟩
      rw [writeLoop_other E format compat _ s r hs.1, fset_self]
    · obtain ⟨st', h3, h4⟩ := h2 r hra
      rw [hne r hra] at h3 h4
      exact ⟨st', h3, h4⟩

theorem restoreLoop_other (h : FHeap K) (s : List Nat) (r : Nat) (hr : r ∉ s) :
    (restoreLoop h s).1 r = h r := by
  induction s generalizing h with
  | nil => rfl
  | cons a s ih =>
    simp only [List.mem_cons, not_or] at hr
    unfold restoreLoop
    split
    · rw [ih _ hr.2, fset_ne _ _ hr.1]
    · rfl

theorem restoreLoop_ok (h : FHeap K) (s : List Nat) (hs : s.Nodup) (sta : Nat → Str)
    (hw : ∀ r ∈ s, ∃ a b, splitOn '.' (h r).sta = a :: sta r :: b) :
    (restoreLoop h s).2 = none ∧
    ∀ r ∈ s, (restoreLoop h s).1 r = ⟨(h r).net, sta r, (h r).loc, (h r).cha, (h r).st⟩ := by
  induction s generalizing h with
  | nil => exact ⟨rfl, by simp⟩
  | cons a s ih =>
    simp only [List.nodup_cons] at hs
    obtain ⟨x, y, hxy⟩ := hw a (by simp)
    have hstep : restoreLoop h (a :: s) = restoreLoop (h.set a { h a with sta := sta a }) s := by
      rw [restoreLoop, hxy]
    have hne : ∀ r ∈ s, (h.set a { h a with sta := sta a }) r = h r := fun r hr =>
      fset_ne _ _ (by rintro rfl; exact hs.1 hr)
    obtain ⟨h1, h2⟩ := ih (h.set a { h a with sta := sta a }) hs.2 (fun r hr => by
      rw [hne r hr]; exact hw r (List.mem_cons_of_mem _ hr))
    rw [hstep]
    refine ⟨h1, fun r hr => ?_⟩
    rcases List.mem_cons.1 hr with hra | hra
    · subst hra
      rw [restoreLoop_other _ s r hs.1, fset_self]
    · rw [h2 r hra, hne r hra]

/-- `tr.id.split('.')` for codes without dots in network and station. -/
theorem split_id (t : FTrace K) (h1 : '.' ∉ t.net) (h2 : '.' ∉ t.sta) :
    splitOn '.' t.id = t.net :: t.sta :: splitOn '.' (t.loc ++ '.' :: t.cha) := by
  unfold FTrace.id
  rw [splitOn_append _ _ _ h1, splitOn_append _ _ _ h2]

/-- Two traces have the same SEED codes. -/
def SameCodes (a b : FTrace K) : Prop := a.net = b.net ∧ a.sta = b.sta ∧ a.loc = b.loc ∧ a.cha = b.cha

variable [DecidableEq K]

/-- **C59, part that holds**: if the traces are distinct objects, network and station codes contain no dots
and neither the header conversion nor the writer raises, then `write` in Q format raises nothing and leaves
all codes of all traces as they were, while the writer saw the full id as station.
Missing: streams containing a trace twice, codes with dots, a failing writer (see the counterexamples). -/
theorem C59_codes_partial (format : Str) (hq : upper format = "Q".toList) (compat : Bool)
    (out : FHeap K → Str → List Nat → Option PyErr) (w : WState K) (s : List Nat) (hs : s.Nodup)
    (hdot : ∀ r ∈ s, '.' ∉ (w.heap r).net ∧ '.' ∉ (w.heap r).sta)
    (hw : ∀ r ∈ s, ∃ st, writeHeader E format compat (w.heap r).st = .ok st)
    (hout : ∀ h i, (∀ r ∈ s, (h r).sta = (w.heap r).id) → out h i s = none) :
    (write E format compat out w s).2 = none ∧
    ∀ r, SameCodes ((write E format compat out w s).1.heap r) (w.heap r) := by
  cases s with
  | nil => exact ⟨rfl, fun r => ⟨rfl, rfl, rfl, rfl⟩⟩
  | cons a s' =>
    generalize hS : a :: s' = s at *
    have hne : s ≠ [] := by rw [← hS]; simp
    obtain ⟨h1, h2⟩ := writeLoop_ok E format compat w.heap s hs hw
    have h3 := writeLoop_other E format compat w.heap s
    generalize hL : writeLoop E format compat w.heap s = L at h1 h2 h3
    obtain ⟨hp, eo⟩ := L
    simp only at h1 h2 h3
    subst h1
    have hh5 : ¬ upper format = "H5".toList := by rw [hq]; decide
    have hsta : ∀ r ∈ s, (hp r).sta = (w.heap r).id := by
      intro r hr
      obtain ⟨st, -, h4⟩ := h2 r hr
      rw [h4]; simp [hq]
    have hwr : write E format compat out w s =
        (⟨(restoreLoop hp s).1, w.index⟩, (restoreLoop hp s).2) := by
      rw [← hS] at hL hout ⊢
      unfold write
      simp only [hL, hh5, if_false, Option.getD_none]
      rw [hout hp w.index (by rw [hS]; exact hsta)]
      simp only [hq, if_true]
    obtain ⟨h5, h6⟩ := restoreLoop_ok hp s hs (fun r => (w.heap r).sta) (fun r hr => by
      rw [hsta r hr, split_id _ (hdot r hr).1 (hdot r hr).2]
      exact ⟨_, _, rfl⟩)
    rw [hwr]
    refine ⟨h5, fun r => ?_⟩
    by_cases hr : r ∈ s
    · obtain ⟨st, -, h4⟩ := h2 r hr
      simp only [h6 r hr, h4]
      exact ⟨rfl, rfl, rfl, rfl⟩
    · simp only [restoreLoop_other hp s r hr, h3 r hr]
      exact ⟨rfl, rfl, rfl, rfl⟩

omit [DecidableEq K] in
/-- **C59** Reading a Q file whose station field is a full id restores network, station and location. -/
theorem C59_read (t : FTrace K) (n st l c : Str) (hf : ∃ f, t.st.format = some f ∧ upper f = "Q".toList)
    (hsta : t.sta = n ++ '.' :: (st ++ '.' :: (l ++ '.' :: c)))
    (h1 : '.' ∉ n) (h2 : '.' ∉ st) (h3 : '.' ∉ l) (t' : FTrace K) (ht : initTrace E t = .ok t') :
    t'.net = n ∧ t'.sta = st ∧ t'.loc = l ∧ t'.cha = t.cha := by
  obtain ⟨f, hf1, hf2⟩ := hf
  have hcount : t.sta.count '.' > 1 := by
    rw [hsta]
    simp only [List.count_append, List.count_cons_self]
    omega
  have hsp : splitOn '.' t.sta = n :: st :: l :: splitOn '.' c := by
    rw [hsta, splitOn_append _ _ _ h1, splitOn_append _ _ _ h2, splitOn_append _ _ _ h3]
  unfold initTrace at ht
  rw [hf1] at ht
  simp only [hf2, hcount, and_self, if_true, hsp] at ht
  split at ht
  · cases ht; exact ⟨rfl, rfl, rfl, rfl⟩
  · cases ht

/-- **C59** Other formats never touch the codes, whatever happens. -/
theorem C59_other_formats (format : Str) (hq : upper format ≠ "Q".toList) (compat : Bool)
    (out : FHeap K → Str → List Nat → Option PyErr) (w : WState K) (s : List Nat) (r : Nat) :
    SameCodes ((write E format compat out w s).1.heap r) (w.heap r) := by
  have hloop : ∀ (h : FHeap K) (s : List Nat),
      SameCodes ((writeLoop E format compat h s).1 r) (h r) := by
    intro h s
    induction s generalizing h with
    | nil => exact ⟨rfl, rfl, rfl, rfl⟩
    | cons a s ih =>
      unfold writeLoop
      cases writeHeader E format compat (h a).st with
      | error e => exact ⟨rfl, rfl, rfl, rfl⟩
      | ok st =>
        simp only [hq, if_false]
        have := ih (h.set a { h a with st := st })
        by_cases hra : r = a
        · subst hra
          rw [fset_self] at this
          exact this
        · rw [fset_ne _ _ hra] at this
          exact this
  cases s with
  | nil => exact ⟨rfl, rfl, rfl, rfl⟩
  | cons a s' =>
    have := hloop w.heap (a :: s')
    unfold write
    generalize writeLoop E format compat w.heap (a :: s') = L at this
    obtain ⟨hp, eo⟩ := L
    cases eo with
    | some e => exact this
    | none =>
      simp only [hq, if_false]
      split
      · exact this
      · split <;> exact this

end

/-! ## Counterexamples for C59 -/

/-- External functions that never fail (no JSON values are needed). -/
def quietEnv : FmtEnv ℚ := ⟨fun _ _ => [], fun _ => .ok 0, fun _ => false, fun _ => .ok [], fun _ => .ok []⟩

/-- Two traces `N.S..Z` and `N.S..R`. -/
def twoTraces : FHeap ℚ := fun r =>
  ⟨"N".toList, "S".toList, [], if r = 0 then "BHZ".toList else "BHR".toList, ⟨none, [], none, none⟩⟩

/-- **C59 is false**: if the writer raises, the station codes stay replaced by the ids. -/
theorem C59_counterexample_writer :
    ((write quietEnv "Q".toList false (fun _ _ _ => some .other) ⟨twoTraces, []⟩ [0]).1.heap 0).sta =
      "N.S..BHZ".toList := by decide +kernel

/-- **C59 is false**: a stream containing one trace object twice ends with an exception and a wrong code,
although the writer succeeds. -/
theorem C59_counterexample_twice :
    (write quietEnv "Q".toList false (fun _ _ _ => none) ⟨twoTraces, []⟩ [0, 0]).2 = some .indexError ∧
    ((write quietEnv "Q".toList false (fun _ _ _ => none) ⟨twoTraces, []⟩ [0, 0]).1.heap 0).sta =
      "N".toList := by decide +kernel

/-- The hypotheses of `C59_codes_partial` hold for the two traces and a writer that succeeds. -/
example : (∀ r ∈ [0, 1], '.' ∉ (twoTraces r).net ∧ '.' ∉ (twoTraces r).sta) ∧ [0, 1].Nodup ∧
    ∀ r ∈ [0, 1], ∃ st, writeHeader quietEnv "Q".toList false (twoTraces r).st = .ok st := by
  refine ⟨by decide, by decide, fun r _ => ?_⟩
  exact ⟨⟨none, [], none, some []⟩, by rfl⟩

/-! ## C60 -/

section
variable {K : Type} [Field K] [DecidableEq K] (E : FmtEnv K)

/-- **C60, part that holds**: the index is the same after `write` as before unless the underlying writer
raises, for every format, stream type and every other exception.
Missing: an exception raised by the writer (see the counterexample). -/
theorem C60_index_partial (format : Str) (compat : Bool) (out : FHeap K → Str → List Nat → Option PyErr)
    (hout : ∀ h i s, out h i s = none) (w : WState K) (s : List Nat) :
    (write E format compat out w s).1.index = w.index := by
  cases s with
  | nil => rfl
  | cons a s' =>
    unfold write
    generalize writeLoop E format compat w.heap (a :: s') = L
    obtain ⟨hp, eo⟩ := L
    cases eo with
    | some e => rfl
    | none =>
      simp only [hout]
      split
      · rfl
      · split <;> rfl

/-- Formats other than H5 never touch the index, even if the writer raises. -/
theorem C60_other_formats (format : Str) (hf : upper format ≠ "H5".toList) (compat : Bool)
    (out : FHeap K → Str → List Nat → Option PyErr) (w : WState K) (s : List Nat) :
    (write E format compat out w s).1.index = w.index := by
  cases s with
  | nil => rfl
  | cons a s' =>
    unfold write
    generalize writeLoop E format compat w.heap (a :: s') = L
    obtain ⟨hp, eo⟩ := L
    cases eo with
    | some e => rfl
    | none =>
      simp only [hf, if_false, Option.getD_none]
      split
      · rfl
      · split <;> rfl

/-- The index under which an H5 file is written depends on the type of the stream; an unknown type
raises `KeyError` before the writer is called. -/
theorem C60_writer_index (compat : Bool) (out out' : FHeap K → Str → List Nat → Option PyErr)
    (w : WState K) (s : List Nat) (key : Str) (hkey : key ≠ [])
    (hidx : writeIndex w.heap s = some (.str key))
    (hsame : ∀ i, h5Index key = some i → ∀ h, out h i s = out' h i s) :
    write E "H5".toList compat out w s = write E "H5".toList compat out' w s ∧
    (h5Index key = none → (write E "H5".toList compat out w s).2 = some .keyError) := by
  have hhead : ∀ st : FStats K, writeHeader E "H5".toList compat st = .ok st := fun st => by
    have : fmtOf "H5".toList = none := by decide
    rw [writeHeader, this]
  have hq : ¬ upper "H5".toList = "Q".toList := by decide
  have hloop : ∀ (h : FHeap K) (s : List Nat), writeLoop E "H5".toList compat h s = (h, none) := by
    intro h s
    induction s generalizing h with
    | nil => rfl
    | cons a s ih =>
      unfold writeLoop
      simp only [hhead, hq, if_false]
      rw [ih]
      congr 1
      funext r
      by_cases hr : r = a
      · subst hr; rw [fset_self]
      · rw [fset_ne _ _ hr]
  cases s with
  | nil => simp [writeIndex, streamType] at hidx
  | cons a s' =>
    obtain ⟨c, k, rfl⟩ := List.exists_cons_of_ne_nil hkey
    have h5 : upper "H5".toList = "H5".toList := by decide
    unfold write
    simp only [hloop, h5, if_true, hidx]
    cases hi : h5Index (c :: k) with
    | none => simp
    | some i => simp [hsame i hi]

/-- H5 headers are not rewritten by rf. -/
theorem h5_header (format : Str) (hf : lower format = "h5".toList) (compat : Bool) (st : FStats K) :
    writeHeader E format compat st = .ok st := by
  have : fmtOf format = none := by simp only [fmtOf, hf]; decide
  simp [writeHeader, this]

end

/-- **C60 is false**: if the writer raises, the index of the stream type stays. -/
theorem C60_counterexample :
    (write quietEnv "H5".toList false (fun _ _ _ => some .other)
      ⟨fun _ => ⟨"N".toList, "S".toList, [], "BHZ".toList, ⟨none, [("type", .str "profile".toList)], none, none⟩⟩,
        "old".toList⟩ [0]).1.index = "waveforms/{channel[2]}_{box_pos}".toList := by decide +kernel

end Verif.Props
