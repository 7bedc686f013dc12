import Verif.Spec.Tables
import Verif.Props.Write
import Verif.Props.Headers

/-!
# Documented header fields (C55) and place of traces in H5 files (C91)
-/

set_option linter.unusedSimpArgs false
set_option linter.unusedSectionVars false

namespace Verif.Props
open Verif.Py Verif.Model.Headers Verif.Spec

/-- **C55** The fields used are those of the documentation. -/
theorem C55_documented :
    headerMap .sh = documentedFields.map (fun x => (x.1, x.2.1)) ∧
    headerMap .sac = documentedFields.map (fun x => (x.1, x.2.2)) := by decide

section
variable {K : Type} [Field K] [DecidableEq K] (E : FmtEnv K)

/-- All types present in the stream agree with `v`, and there is one. -/
def CommonType (h : FHeap K) (s : List Nat) (v : Val K) : Prop :=
  (∃ r ∈ s, (h r).st.top.get "type" = some v) ∧ ∀ r ∈ s, ∀ w, (h r).st.top.get "type" = some w → w = v

theorem streamType_common (h : FHeap K) (s : List Nat) (v : Val K) :
    streamType h s = some v ↔ CommonType h s v := by
  unfold streamType
  set l := s.filterMap (fun r => (h r).st.top.get "type") with hl
  have hmem : ∀ w, w ∈ l ↔ ∃ r ∈ s, (h r).st.top.get "type" = some w := by
    intro w
    rw [hl, List.mem_filterMap]
  have hc : CommonType h s v ↔ v ∈ l ∧ ∀ w ∈ l, w = v := by
    constructor
    · rintro ⟨h1, h2⟩
      exact ⟨(hmem v).2 h1, fun w hw => by obtain ⟨r, hr, e⟩ := (hmem w).1 hw; exact h2 r hr w e⟩
    · rintro ⟨h1, h2⟩
      exact ⟨(hmem v).1 h1, fun r hr w e => h2 w ((hmem w).2 ⟨r, hr, e⟩)⟩
  rw [hc]
  cases l with
  | nil => simp
  | cons a l =>
    simp only []
    constructor
    · intro h
      split at h
      · rename_i hall
        injection h with h
        subst h
        rw [List.all_eq_true] at hall
        refine ⟨List.mem_cons_self, fun w hw => ?_⟩
        rcases List.mem_cons.1 hw with rfl | hw
        · rfl
        · simpa using hall w hw
      · cases h
    · rintro ⟨h1, h2⟩
      have ha := h2 a List.mem_cons_self
      subst ha
      rw [if_pos]
      rw [List.all_eq_true]
      intro w hw
      simpa using h2 w (List.mem_cons_of_mem _ hw)

theorem streamType_none (h : FHeap K) (s : List Nat) (hno : ∀ v, ¬ CommonType h s v) : streamType h s = none := by
  cases hs : streamType h s with
  | none => rfl
  | some v => exact absurd ((streamType_common h s v).1 hs) (hno v)

/-- In H5 format no header is touched. -/
theorem h5_loop (compat : Bool) (format : Str) (hf : format = "H5".toList ∨ format = "h5".toList)
    (h : FHeap K) (s : List Nat) : writeLoop E format compat h s = (h, none) := by
  have hhead : ∀ st : FStats K, writeHeader E format compat st = .ok st := fun st => by
    have : fmtOf format = none := by rcases hf with rfl | rfl <;> decide
    rw [writeHeader, this]
  have hq : ¬ upper format = "Q".toList := by rcases hf with rfl | rfl <;> decide
  induction s generalizing h with
  | nil => rfl
  | cons a s ih =>
    unfold writeLoop
    simp only [hhead, hq, if_false]
    rw [ih]
    congr 1
    funext r
    by_cases hr : r = a
    · subst hr; rw [fset_self]
    · rw [fset_ne _ _ hr]

/-- The call of the writer, for a known index. -/
theorem h5_call (compat : Bool) (format : Str) (hf : format = "H5".toList ∨ format = "h5".toList)
    (out : FHeap K → Str → List Nat → Option PyErr) (w : WState K) (s : List Nat) (hs : s ≠ []) (i : Str)
    (hi : (writeIndex w.heap s = none ∧ i = w.index) ∨ (writeIndex w.heap s = some (.str []) ∧ i = w.index) ∨
      ∃ c k, writeIndex w.heap s = some (.str (c :: k)) ∧ h5Index (c :: k) = some i) :
    (write E format compat out w s).2 = out w.heap i s := by
  have h5 : upper format = "H5".toList := by rcases hf with rfl | rfl <;> decide
  have hq : ¬ ("H5".toList = "Q".toList) := by decide
  cases s with
  | nil => exact absurd rfl hs
  | cons a s' =>
    unfold write
    simp only [h5_loop E compat format hf, h5, if_true]
    rcases hi with ⟨h1, rfl⟩ | ⟨h1, rfl⟩ | ⟨c, k, h1, h2⟩
    · rw [h1]
      simp only [Option.getD_none]
      cases out w.heap w.index (a :: s') with
      | none => simp
      | some e => rfl
    · rw [h1]
      simp only [Option.getD_none]
      cases out w.heap w.index (a :: s') with
      | none => simp
      | some e => rfl
    · rw [h1]
      simp only [h2, Option.getD_some]
      cases out w.heap i (a :: s') with
      | none => simp
      | some e => rfl

theorem writeIndex_common (h : FHeap K) (s : List Nat) (v : Val K) (hc : CommonType h s v) :
    writeIndex h s = some v := by
  unfold writeIndex
  rw [(streamType_common h s v).2 hc]

variable (compat : Bool) (format : Str) (hf : format = "H5".toList ∨ format = "h5".toList)
  (out : FHeap K → Str → List Nat → Option PyErr) (w : WState K) (s : List Nat) (hs : s ≠ [])

include hf hs

/-- **C91** Receiver functions are written below station and event time. -/
theorem C91_rf (hc : CommonType w.heap s (.str "rf".toList)) :
    (write E format compat out w s).2 = out w.heap rfPlace s :=
  h5_call E compat format hf out w s hs rfPlace
    (.inr (.inr ⟨'r', ['f'], writeIndex_common _ _ _ hc, by decide +kernel⟩))

/-- **C91** Profiles are written by component and position of the box. -/
theorem C91_profile (hc : CommonType w.heap s (.str "profile".toList)) :
    (write E format compat out w s).2 = out w.heap profilePlace s :=
  h5_call E compat format hf out w s hs profilePlace
    (.inr (.inr ⟨'p', "rofile".toList, writeIndex_common _ _ _ hc, by decide +kernel⟩))

/-- **C91** Streams without type or with different types are written as receiver functions if the first trace has
an event time, and at the place configured by the user otherwise. -/
theorem C91_no_type (hno : ∀ v, ¬ CommonType w.heap s v) (r : Nat) (hr : s.head? = some r) :
    (write E format compat out w s).2 =
      out w.heap (if ((w.heap r).st.top.get "event_time").isSome then rfPlace else w.index) s := by
  cases s with
  | nil => cases hr
  | cons a s' =>
    injection hr with hr
    subst hr
    have hw : writeIndex w.heap (a :: s') =
        if ((w.heap a).st.top.get "event_time").isSome then some (.str "rf".toList) else none := by
      unfold writeIndex
      rw [streamType_none _ _ hno]
      rfl
    refine h5_call E compat format hf out w _ hs _ ?_
    by_cases he : ((w.heap a).st.top.get "event_time").isSome
    · rw [if_pos he] at hw ⊢
      exact .inr (.inr ⟨'r', ['f'], hw, by decide +kernel⟩)
    · rw [if_neg he] at hw ⊢
      exact .inl ⟨hw, rfl⟩

/-- **C91** Any other type raises `KeyError`; nothing is written and no trace is changed. -/
theorem C91_unknown (v : Val K) (hc : CommonType w.heap s v) (h1 : v ≠ .str "rf".toList)
    (h2 : v ≠ .str "profile".toList) (h3 : v ≠ .str []) :
    (write E format compat out w s).2 = some .keyError ∧ (write E format compat out w s).1.heap = w.heap ∧
    (write E format compat out w s).1.index = w.index := by
  have h5 : upper format = "H5".toList := by rcases hf with rfl | rfl <;> decide
  cases s with
  | nil => exact absurd rfl hs
  | cons a s' =>
    unfold write
    simp only [h5_loop E compat format hf, h5, if_true, writeIndex_common _ _ _ hc]
    cases v with
    | str k =>
      cases k with
      | nil => exact absurd rfl h3
      | cons c k =>
        have : h5Index (c :: k) = none := by
          unfold h5Index
          rw [if_neg (fun h => h1 (by rw [h])), if_neg (fun h => h2 (by rw [h]))]
        simp [this]
    | _ => simp

end

/-- The hypotheses are met: one receiver function; two traces of different type. -/
example : CommonType (K := ℚ)
      (fun _ => ⟨[], [], [], [], ⟨none, [("type", .str "rf".toList)], none, none⟩⟩) [0, 1] (.str "rf".toList) ∧
    ∀ v, ¬ CommonType (K := ℚ)
      (fun r => ⟨[], [], [], [], ⟨none, [("type", .str (if r = 0 then "rf".toList else "profile".toList))],
        none, none⟩⟩) [0, 1] v := by
  refine ⟨⟨⟨0, by decide, by decide⟩, fun r _ w hw => ?_⟩, ?_⟩
  · have := Option.some.inj hw
    exact this.symm
  · rintro v ⟨-, h⟩
    have h0 := h 0 (by decide) _ rfl
    have h1 := h 1 (by decide) _ rfl
    rw [← h1] at h0
    exact absurd h0 (by decide)

/-- The writer sees the place of profiles. -/
example : (write quietEnv "h5".toList false (fun _ i _ => if i = profilePlace then none else some .other)
    ⟨fun _ => ⟨"N".toList, "S".toList, [], "BHZ".toList, ⟨none, [("type", .str "profile".toList)], none, none⟩⟩,
      "old".toList⟩ [0]).2 = none := by decide +kernel

end Verif.Props
