import Verif.Props.WriteIndex
import Verif.Props.HarmonicsLayout
import Verif.Props.Profile
import Verif.Props.StreamOps

/-!
# Writing the results of the processing steps to H5 files (C140)

The model of the processing steps and the model of writing use different records for a trace.  They are linked by
the two entries of the header which decide on the place in the file.
-/

set_option linter.unusedSimpArgs false
set_option linter.unusedSectionVars false

namespace Verif.Props
open Verif.Py Verif.Model Verif.Model.Headers Verif.Model.Harmonics Verif.Model.Profile Verif.Spec

/-- The object `r` of the heap seen by the writer has the type and the event time of the trace `t`. -/
def SameTypeTime {K : Type} (t : Trace K) (f : FTrace K) : Prop :=
  f.st.top.get "type" = t.ext.get "type" ∧ f.st.top.get "event_time" = t.ext.get "event_time"

/-- The stream `s` on the heap seen by the writer consists of the traces `out`. -/
def Holds {K : Type} (h : FHeap K) (s : List Nat) (out : List (Trace K)) : Prop :=
  List.Forall₂ (fun r t => SameTypeTime t (h r)) s out

/-- A stream is written to an H5 file at the given place: whatever happens is the outcome of the writer. -/
def WrittenAt {K : Type} [Field K] [DecidableEq K] (E : FmtEnv K) (out : FHeap K → Str → List Nat → Option PyErr)
    (w : WState K) (s : List Nat) (place : Str) : Prop :=
  ∀ (compat : Bool) (format : Str), format = "H5".toList ∨ format = "h5".toList →
    (write E format compat out w s).2 = out w.heap place s

theorem holds_common {K : Type} (h : FHeap K) (s : List Nat) (out : List (Trace K)) (v : Val K)
    (hh : Holds h s out) (hne : out ≠ []) (hv : ∀ t ∈ out, t.ext.get "type" = some v) : CommonType h s v := by
  have key : ∀ r ∈ s, (h r).st.top.get "type" = some v := by
    intro r hr
    obtain ⟨i, hi, rfl⟩ := List.mem_iff_getElem.1 hr
    have hi' : i < out.length := by rw [← hh.length_eq]; exact hi
    have := (List.forall₂_iff_get.1 hh).2 i hi hi'
    rw [List.get_eq_getElem, List.get_eq_getElem] at this
    rw [this.1, hv _ (List.getElem_mem hi')]
  cases hh with
  | nil => exact absurd rfl hne
  | cons h1 h2 =>
    exact ⟨⟨_, List.mem_cons_self, key _ List.mem_cons_self⟩, fun r hr w hw => by
      rw [key r hr] at hw; exact (Option.some.inj hw).symm⟩

theorem holds_ne {K : Type} (h : FHeap K) (s : List Nat) (out : List (Trace K)) (hh : Holds h s out) (hne : out ≠ []) :
    s ≠ [] := by
  rintro rfl
  cases hh
  exact hne rfl

section
variable {K : Type} [Field K] [LinearOrder K] [IsStrictOrderedRing K] [FloorRing K] (E : FmtEnv K)
  (wr : FHeap K → Str → List Nat → Option PyErr)

/-- **C140** The result of `rf` is written below station and event time. -/
theorem C140_rf_partial (env : RfEnv K) (a : RfArgs K) (st st' : SState K) (hok : rf env a st = (st', none))
    (hne : st'.2 ≠ []) (w : WState K) (s : List Nat) (hh : Holds w.heap s (st'.2.map st'.1)) :
    WrittenAt E wr w s rfPlace := fun compat format hf =>
  C91_rf E compat format hf wr w s (holds_ne _ _ _ hh (by simpa using hne))
    (holds_common _ _ _ _ hh (by simpa using hne) (by
      intro t ht
      obtain ⟨r, hr, rfl⟩ := List.mem_map.1 ht
      exact (C44_labels env a st st' hok).1 r hr))

/-- **C140** The result of `profile` is written by component and position. -/
theorem C140_profile_partial (within : K × K → List (K × K) → Bool) (boxes : List (Box K)) (crs : Bool)
    (h h' : Heap K) (s0 l : List Nat) (next : Nat) (hs : ∀ r ∈ s0, r < next)
    (hok : profile within boxes crs h s0 next = .ok (h', l)) (hne : l ≠ [])
    (w : WState K) (s : List Nat) (hh : Holds w.heap s (l.map h')) : WrittenAt E wr w s profilePlace :=
  fun compat format hf =>
  C91_profile E compat format hf wr w s (holds_ne _ _ _ hh (by simpa using hne))
    (holds_common _ _ _ _ hh (by simpa using hne) (by
      intro t ht
      obtain ⟨r, hr, rfl⟩ := List.mem_map.1 ht
      obtain ⟨-, -, -, key, -, -, h6⟩ := profile_ok within boxes crs h h' s0 l next hs hok
      exact (h6 r hr).2.2.2.1))

/-- The header of a stacked trace has the listed entries of the first trace, the onset and nothing else. -/
theorem stackOne_header (h : Heap K) (s : List Nat) (tr t : Trace K) (ident : Str)
    (hok : stackOne h s tr ident = .ok t) (k : String) (hk : k ≠ "onset") :
    t.ext.get k = if k ∈ stackEntries then tr.ext.get k else none := by
  have hext : ∀ l : List String, Dict.get (l.filterMap fun k => (tr.ext.get k).map fun v => (k, v)) k =
      if k ∈ l then tr.ext.get k else none := by
    intro l
    induction l with
    | nil => rfl
    | cons a l ih =>
      rw [List.filterMap_cons]
      cases ha : tr.ext.get a with
      | none =>
        simp only [Option.map_none, ih, List.mem_cons]
        by_cases hk : k = a
        · subst hk; simp [ha]
        · simp [hk]
      | some v =>
        simp only [Option.map_some, Dict.get, ih, List.mem_cons]
        by_cases hk : a = k
        · subst hk; simp [ha]
        · simp [hk, Ne.symm hk]
  unfold stackOne at hok
  split at hok
  · split at hok
    · cases hok
    · simp only [] at hok
      split at hok
      · injection hok with hok
        subst hok
        simp only [Trace.put]
        rw [Dict.get_set_ne _ _ hk]
        exact hext stackEntries
      · cases hok
      · injection hok with hok
        subst hok
        exact hext stackEntries
  · cases hok

theorem stack_header (order : List Str → List Str) (h : Heap K) (s : List Nat) (out : List (Trace K))
    (hok : stack order h s = .ok out) (t : Trace K) (ht : t ∈ out) (k : String) (hk : k ≠ "onset") :
    t.ext.get k = if k ∈ stackEntries then (s.head?.bind fun r => (h r).ext.get k) else none := by
  obtain ⟨r0, s', rfl, hall⟩ := stack_ok order h s out hok
  obtain ⟨i, hi, rfl⟩ := List.mem_iff_getElem.1 ht
  have hi' := hi
  rw [← hall.length_eq] at hi'
  have := (List.forall₂_iff_get.1 hall).2 i hi' hi
  rw [List.get_eq_getElem, List.get_eq_getElem] at this
  rw [stackOne_header h _ _ _ _ this k hk]
  rfl

/-- **C140** The result of `stack` has neither type nor event time; it is written at the place which the user has
configured in `obspyh5`. -/
theorem C140_stack_partial (order : List Str → List Str) (h : Heap K) (s0 : List Nat) (out : List (Trace K))
    (hok : stack order h s0 = .ok out) (w : WState K) (s : List Nat) (hne : s ≠ []) (hh : Holds w.heap s out) :
    WrittenAt E wr w s w.index := by
  intro compat format hf
  have key : ∀ r ∈ s, (w.heap r).st.top.get "type" = none ∧ (w.heap r).st.top.get "event_time" = none := by
    intro r hr
    obtain ⟨i, hi, rfl⟩ := List.mem_iff_getElem.1 hr
    have hi' : i < out.length := by rw [← hh.length_eq]; exact hi
    have := (List.forall₂_iff_get.1 hh).2 i hi hi'
    rw [List.get_eq_getElem, List.get_eq_getElem] at this
    rw [this.1, this.2, stack_header order h s0 out hok _ (List.getElem_mem hi') _ (by decide),
      stack_header order h s0 out hok _ (List.getElem_mem hi') _ (by decide)]
    exact ⟨if_neg (by decide), if_neg (by decide)⟩
  cases s with
  | nil => exact absurd rfl hne
  | cons r s' =>
    rw [C91_no_type E compat format hf wr w (r :: s') hne (fun v ⟨⟨q, hq, hv⟩, _⟩ => by
      rw [(key q hq).1] at hv; cases hv) r rfl, (key r List.mem_cons_self).2]
    rfl

end

/-- **C140** fails for harmonics: whatever the stream and the arguments, if `harmonics` returns, its result cannot be
written to an H5 file.  `KeyError` is raised before the writer is called, no trace is changed and the place configured
by the user stays. -/
theorem C140_harmonics_fails (L : LstsqEnv) (info : Str) (a : HArgs) (h : Heap ℝ) (s0 : List ℕ) (out : List (Trace ℝ))
    (ho : harmonics L info a h s0 = .ok out) (E : FmtEnv ℝ) (wr : FHeap ℝ → Str → List Nat → Option PyErr)
    (w : WState ℝ) (s : List Nat) (hh : Holds w.heap s out) (compat : Bool) (format : Str)
    (hf : format = "H5".toList ∨ format = "h5".toList) :
    (write E format compat wr w s).2 = some .keyError ∧ (write E format compat wr w s).1.heap = w.heap ∧
    (write E format compat wr w s).1.index = w.index := by
  obtain ⟨f, -, hlen, hc, hk⟩ := C76_layout_partial L info a h s0 out ho
  have hne : out ≠ [] := by
    rintro rfl
    simp only [List.length_nil] at hlen
    omega
  have hty : ∀ t ∈ out, t.ext.get "type" = some (.str "harmonic".toList) := by
    intro t ht
    obtain ⟨k, hk', rfl⟩ := List.mem_iff_getElem.1 ht
    rw [(hk k _ (List.getElem?_eq_getElem hk')).2.2.2.2.2.2]
    unfold layoutEntry
    rw [if_neg (by decide), if_pos rfl]
  exact C91_unknown E compat format hf wr w s (holds_ne _ _ _ hh hne) _ (holds_common _ _ _ _ hh hne hty)
    (fun h => absurd (Val.str.inj h) (by decide)) (fun h => absurd (Val.str.inj h) (by decide))
    (fun h => absurd (Val.str.inj h) (by decide))

/-- The traces as the writer sees them. -/
def asFile {K : Type} (t : Trace K) : FTrace K := ⟨t.net, t.sta, t.loc, t.cha, ⟨none, t.ext, none, none⟩⟩

/-- The heap of the writer with the given traces at the places 0, 1, 2, ... -/
def fileHeap {K : Type} (out : List (Trace K)) : FHeap K :=
  fun r => (out[r]?.map asFile).getD ⟨[], [], [], [], ⟨none, [], none, none⟩⟩

theorem holds_fileHeap {K : Type} (out : List (Trace K)) : Holds (fileHeap out) (List.range out.length) out := by
  unfold Holds
  rw [List.forall₂_iff_get]
  refine ⟨by simp, fun i h1 h2 => ?_⟩
  rw [List.get_eq_getElem, List.get_eq_getElem]
  simp only [List.getElem_range]
  unfold fileHeap
  rw [List.getElem?_eq_getElem h2]
  exact ⟨rfl, rfl⟩

/-- **C140** is wrong as stated: the ten traces of the decomposition of a stream for two components cannot be
written, even by a writer which accepts everything. -/
theorem C140_counterexample : ∃ out : List (Trace ℝ), harmonics someLstsq [] hpArgs hqHeap hqStream = .ok out ∧
    out.length = 10 ∧ ∀ (E : FmtEnv ℝ) (i : Str) (compat : Bool),
      (write E "H5".toList compat (fun _ _ _ => none) ⟨fileHeap out, i⟩ (List.range out.length)).2 = some .keyError := by
  obtain ⟨out, ho, -⟩ := C76_counterexample_components
  obtain ⟨f, -, hl, -⟩ := C76_layout_partial _ _ _ _ _ _ ho
  exact ⟨out, ho, hl, fun E i compat =>
    (C140_harmonics_fails _ _ _ _ _ _ ho E _ ⟨fileHeap out, i⟩ _ (holds_fileHeap out) compat _ (Or.inl rfl)).1⟩

end Verif.Props
