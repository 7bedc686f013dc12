import Verif.Props.Write
import Verif.Props.HeaderStale

/-!
# A stream written to a file is read back with its headers and codes (C154)
-/

set_option linter.unusedSimpArgs false
set_option linter.unusedSectionVars false

namespace Verif.Props
open Verif.Py Verif.Model.Headers

section
variable {K : Type} [Field K] [DecidableEq K] (E : FmtEnv K)

/-- `t` is what ObsPy reads from a Q file for the trace `a` that was passed to the writer: the station field, the
component and the SH header; network and location are not part of the file. -/
structure StoredQ (a t : FTrace K) : Prop where
  sta : t.sta = a.sta
  cha : t.cha = a.cha
  format : t.st.format = some "Q".toList
  sh : t.st.sh = a.st.sh
  fresh : ∀ h ∈ headers, t.st.top.get h = none

/-- The same for SAC files, which hold all codes. -/
structure StoredSac (a t : FTrace K) : Prop where
  codes : SameCodes t a
  format : t.st.format = some "SAC".toList
  sac : t.st.sac = a.st.sac
  fresh : ∀ h ∈ headers, t.st.top.get h = none

/-- The writer of ObsPy is called with the heap `hw` for this stream, and its failure is the only reason for a failure
of `write`. -/
def WriterGets (format : Str) (compat : Bool) (w : WState K) (s : List Nat) (hw : FHeap K) : Prop :=
  ∀ out : FHeap K → Str → List Nat → Option PyErr,
    (write E format compat out w s).2 = out hw w.index s

theorem forall2_through {α β γ : Type} (P : α → β → Prop) (f : β → Res γ) (Q : α → γ → Prop) (l : List α) (m : List β)
    (hp : List.Forall₂ P l m) (h : ∀ a ∈ l, ∀ b, P a b → ∃ c, f b = .ok c ∧ Q a c) :
    ∃ m', m.mapM f = .ok m' ∧ List.Forall₂ Q l m' := by
  induction hp with
  | nil => exact ⟨[], rfl, .nil⟩
  | @cons a b l m hab _ ih =>
    obtain ⟨c, hc, hq⟩ := h a List.mem_cons_self b hab
    obtain ⟨m', hm, hf⟩ := ih fun x hx => h x (List.mem_cons_of_mem _ hx)
    exact ⟨c :: m', by rw [List.mapM_cons, hc, hm]; rfl, .cons hq hf⟩

/-- C154, Q format: the writer gets traces from which `RFStream` makes, after reading, the stream with the codes and
the headers of the stream that was written; in particular each trace gets its own headers back. -/
theorem C154_q (hj : JsonOk E) (format : Str) (hq : format = "Q".toList ∨ format = "q".toList) (w : WState K)
    (s : List Nat) (hs : s.Nodup) (hne : s ≠ [])
    (hdot : ∀ r ∈ s, '.' ∉ (w.heap r).net ∧ '.' ∉ (w.heap r).sta ∧ '.' ∉ (w.heap r).loc)
    (hnew : ∀ r ∈ s, (w.heap r).st.sh = none)
    (hv : ∀ r ∈ s, ∀ h ∈ commentHeaders, ∀ v, (w.heap r).st.top.get h = some v → JsonVal v) :
    ∃ hw, WriterGets E format false w s hw ∧
      ∀ ts : List (FTrace K), List.Forall₂ (fun r t => StoredQ (hw r) t) s ts →
        ∃ ts', ts.mapM (initTrace E) = .ok ts' ∧ List.Forall₂ (fun r t =>
          SameCodes t (w.heap r) ∧ ∀ h ∈ headers, t.st.top.get h = (w.heap r).st.top.get h) s ts' := by
  have hup : upper format = "Q".toList := by rcases hq with rfl | rfl <;> decide
  have hlo : lower format = "q".toList := by rcases hq with rfl | rfl <;> decide
  have hloop : ∀ r ∈ s, ∃ st, writeHeader E format false (w.heap r).st = .ok st := fun r hr => by
    obtain ⟨st', d, st'', h1, -⟩ := C57_roundtrip E hj (w.heap r).st format "Q".toList false hlo (by decide) (hnew r hr)
      (hv r hr) [] (fun _ _ => rfl) none
    exact ⟨st', h1⟩
  obtain ⟨h1, h2⟩ := writeLoop_ok E format false w.heap s hs hloop
  refine ⟨(writeLoop E format false w.heap s).1, ?_, ?_⟩
  · intro out
    have hh5 : ¬ upper format = "H5".toList := by rw [hup]; decide
    cases s with
    | nil => exact absurd rfl hne
    | cons a s' =>
      generalize hS : a :: s' = s at *
      generalize hL : writeLoop E format false w.heap s = L at h1 h2
      obtain ⟨hp, eo⟩ := L
      simp only at h1 h2
      subst h1
      have hwr : write E format false out w s = match out hp w.index s with
          | some e => (⟨hp, w.index⟩, some e)
          | none => (⟨(restoreLoop hp s).1, w.index⟩, (restoreLoop hp s).2) := by
        rw [← hS] at hL ⊢
        unfold write
        simp only [hL, hh5, if_false, Option.getD_none]
        simp only [hup, if_true]
        cases out hp w.index (a :: s') <;> rfl
      rw [hwr]
      cases ho : out hp w.index s with
      | some e => rfl
      | none =>
        exact (restoreLoop_ok hp s hs (fun r => (w.heap r).sta) (fun r hr => by
          obtain ⟨st, -, h4⟩ := h2 r hr
          rw [h4]
          simp only [hup, if_true]
          rw [split_id _ (hdot r hr).1 (hdot r hr).2.1]
          exact ⟨_, _, rfl⟩)).1
  · intro ts hts
    refine forall2_through _ _ _ _ _ hts fun r hr t ht => ?_
    obtain ⟨st, hst, hheap⟩ := h2 r hr
    obtain ⟨top0, sac0, hform⟩ : ∃ top0 sac0, t.st = ⟨some "Q".toList, top0, sac0, t.st.sh⟩ :=
      ⟨t.st.top, t.st.sac, by
        have := ht.format
        cases hts : t.st
        rw [hts] at this
        simp only at this ⊢
        rw [this]⟩
    have hfresh := ht.fresh
    have hsh := ht.sh
    rw [hheap] at hsh
    simp only at hsh
    rw [hform] at hfresh
    simp only at hfresh
    obtain ⟨st', d, st'', e1, e2, e3, e4, e5, -⟩ := C57_roundtrip E hj (w.heap r).st format "Q".toList false hlo
      (by decide) (hnew r hr) (hv r hr) top0 hfresh sac0
    rw [hst] at e1
    injection e1 with e1
    subst e1
    have hread : readHeader E t.st = .ok st'' := by
      rw [hform, hsh, e3]
      exact e4
    have hsta : t.sta = (w.heap r).net ++ '.' :: ((w.heap r).sta ++ '.' :: ((w.heap r).loc ++ '.' :: (w.heap r).cha)) := by
      rw [ht.sta, hheap]
      simp only [hup, if_true]
      rfl
    obtain ⟨t', ht'⟩ : ∃ t', initTrace E t = .ok t' := by
      unfold initTrace
      simp only
      split
      · rename_i st hr2
        exact ⟨_, rfl⟩
      · rename_i e hr2
        exfalso
        have : ∀ x : FTrace K, x.st = t.st → readHeader E x.st = .ok st'' := fun x hx => by rw [hx]; exact hread
        rw [this _ (by
          split
          · rfl
          · split
            · split <;> rfl
            · rfl)] at hr2
        cases hr2
    obtain ⟨c1, c2, c3, c4⟩ := C59_read E t _ _ _ _ ⟨_, ht.format, by decide⟩ hsta (hdot r hr).1 (hdot r hr).2.1
      (hdot r hr).2.2 t' ht'
    refine ⟨t', ht', ⟨c1, c2, c3, ?_⟩, fun h hh => ?_⟩
    · rw [c4, ht.cha, hheap]
    · have hst' : t'.st = st'' := by
        unfold initTrace at ht'
        simp only at ht'
        split at ht'
        · rename_i st0 hr2
          injection ht' with ht'
          rw [← ht']
          simp only
          have : ∀ x : FTrace K, x.st = t.st → readHeader E x.st = .ok st'' := fun x hx => by rw [hx]; exact hread
          rw [this _ (by
            split
            · rfl
            · split
              · split <;> rfl
              · rfl)] at hr2
          injection hr2 with hr2
          exact hr2.symm
        · cases ht'
      rw [hst', e5 h hh]
      simp

/-- C154, SAC format. -/
theorem C154_sac (hi : ReftimeIndep E) (format : Str) (hq : lower format = "sac".toList)
    (compat : Bool) (w : WState K) (s : List Nat) (hs : s.Nodup) (hne : s ≠ [])
    (hform : upper format = "SAC".toList) (t0 : Nat → K)
    (hr : ∀ r ∈ s, E.reftime (E.toSac (w.heap r).st.top (w.heap r).st.sac) = .ok (t0 r))
    (ht : ∀ r ∈ s, TimesOk (w.heap r).st.top)
    (hnull : ∀ r ∈ s, ∀ h v, (w.heap r).st.top.get h = some v → E.isNull (sacVal (t0 r) h v) = false)
    (hscratch : ∀ r ∈ s, ∀ f ∈ sacFields, (E.toSac (w.heap r).st.top (w.heap r).st.sac).get f = none) :
    ∃ hw, WriterGets E format compat w s hw ∧
      ∀ ts : List (FTrace K), List.Forall₂ (fun r t => StoredSac (hw r) t) s ts →
        ∃ ts', ts.mapM (initTrace E) = .ok ts' ∧ List.Forall₂ (fun r t =>
          SameCodes t (w.heap r) ∧ ∀ h ∈ headers, t.st.top.get h = (w.heap r).st.top.get h) s ts' := by
  have hup : ¬ upper format = "Q".toList := by rw [hform]; decide
  have hround := fun r (hrs : r ∈ s) => C56_roundtrip E hi (w.heap r).st format "SAC".toList compat hq (by decide) (t0 r)
    (hr r hrs) (ht r hrs) (hnull r hrs) (hscratch r hrs)
  have hloop : ∀ r ∈ s, ∃ st, writeHeader E format compat (w.heap r).st = .ok st := fun r hrs => by
    obtain ⟨st', d, st'', h1, -⟩ := hround r hrs [] (fun _ _ => rfl) none
    exact ⟨st', h1⟩
  obtain ⟨h1, h2⟩ := writeLoop_ok E format compat w.heap s hs hloop
  refine ⟨(writeLoop E format compat w.heap s).1, ?_, ?_⟩
  · intro out
    have hh5 : ¬ upper format = "H5".toList := by rw [hform]; decide
    cases s with
    | nil => exact absurd rfl hne
    | cons a s' =>
      generalize hL : writeLoop E format compat w.heap (a :: s') = L at h1 h2
      obtain ⟨hp, eo⟩ := L
      simp only at h1 h2
      subst h1
      unfold write
      simp only [hL, hh5, if_false, Option.getD_none, hup]
      cases out hp w.index (a :: s') <;> rfl
  · intro ts hts
    refine forall2_through _ _ _ _ _ hts fun r hrs t hst => ?_
    obtain ⟨st, hw1, hheap⟩ := h2 r hrs
    obtain ⟨top0, sh0, hformt⟩ : ∃ top0 sh0, t.st = ⟨some "SAC".toList, top0, t.st.sac, sh0⟩ :=
      ⟨t.st.top, t.st.sh, by
        have := hst.format
        cases hts : t.st
        rw [hts] at this
        simp only at this ⊢
        rw [this]⟩
    have hfresh := hst.fresh
    have hsac := hst.sac
    rw [hheap] at hsac
    simp only at hsac
    rw [hformt] at hfresh
    simp only at hfresh
    obtain ⟨st', d, st'', e1, e2, e3, e4, e5, -⟩ := hround r hrs top0 hfresh sh0
    rw [hw1] at e1
    injection e1 with e1
    subst e1
    have hread : readHeader E t.st = .ok st'' := by
      rw [hformt, hsac, e3]
      exact e4
    have hinit : initTrace E t = .ok { t with st := st'' } := by
      unfold initTrace
      have hf := hst.format
      have : ¬ (upper "SAC".toList = "Q".toList ∧ t.sta.count '.' > 1) := fun h => absurd h.1 (by decide)
      simp only [hf, if_neg this]
      rw [hread]
    refine ⟨_, hinit, ?_, fun h hh => e5 h hh⟩
    have hc := hst.codes
    rw [hheap] at hc
    simp only [if_neg hup] at hc
    exact hc

end

/-! ## A case meeting the hypotheses -/

/-- Two components of a station with onset, slowness, phase and event id. -/
def savedHeap : FHeap ℚ := fun r =>
  ⟨"N".toList, "S".toList, [], if r = 0 then "BHZ".toList else "BHR".toList, caseStats⟩

/-- What is in the two files: all traces as they were passed to the writer, with fresh standard headers. -/
def readTrace (a : FTrace ℚ) (format : Str) : FTrace ℚ :=
  { a with st := ⟨some format, [("sampling_rate", .num 10)], a.st.sac, a.st.sh⟩ }

example : ∃ E : FmtEnv ℚ, ∀ out, ∃ hw,
    (write E "Q".toList false out ⟨savedHeap, []⟩ [0, 1]).2 = out hw [] [0, 1] ∧
    ∃ a b, ([0, 1].map fun r => readTrace (hw r) "Q".toList).mapM (initTrace E) = .ok [a, b] ∧
      b.cha = "BHR".toList ∧ b.sta = "S".toList ∧ b.st.top.get "phase" = some (.str "P".toList) := by
  obtain ⟨E, -, hj, -, -, -, -, hv, hsh⟩ := caseStats_case
  refine ⟨E, fun out => ?_⟩
  obtain ⟨hw, h1, h2⟩ := C154_q E hj "Q".toList (.inl rfl) ⟨savedHeap, []⟩ [0, 1] (by decide) (by decide)
    (fun r hr => by revert r; decide) (fun r _ => hsh) (fun r _ => hv)
  refine ⟨hw, h1 out, ?_⟩
  have hs : ∀ r, StoredQ (hw r) (readTrace (hw r) "Q".toList) := fun r =>
    ⟨rfl, rfl, rfl, rfl, by
      have : ∀ h ∈ headers, Dict.get [("sampling_rate", Val.num (10 : ℚ))] h = none := by decide
      exact this⟩
  obtain ⟨ts', h3, h4⟩ := h2 _ (.cons (hs 0) (.cons (hs 1) .nil))
  cases h4 with
  | cons ha hl =>
    cases hl with
    | cons hb hn =>
      cases hn
      exact ⟨_, _, h3, hb.1.2.2.2, hb.1.2.1, hb.2 _ (by decide)⟩

example : ∃ E : FmtEnv ℚ, ∀ out, ∃ hw,
    (write E "SAC".toList false out ⟨savedHeap, []⟩ [0, 1]).2 = out hw [] [0, 1] ∧
    ∃ a b, ([0, 1].map fun r => readTrace (hw r) "SAC".toList).mapM (initTrace E) = .ok [a, b] ∧
      b.cha = "BHR".toList ∧ b.sta = "S".toList ∧ b.st.top.get "onset" = some (.time 10) := by
  obtain ⟨E, hi, -, hr, ht, hn, hf, -, -⟩ := caseStats_case
  refine ⟨E, fun out => ?_⟩
  obtain ⟨hw, h1, h2⟩ := C154_sac E hi "SAC".toList (by decide) false ⟨savedHeap, []⟩ [0, 1] (by decide) (by decide)
    (by decide) (fun _ => 5) (fun r _ => hr) (fun r _ => ht) (fun r _ => hn) (fun r _ => hf)
  refine ⟨hw, h1 out, ?_⟩
  have hs : ∀ r, StoredSac (hw r) (readTrace (hw r) "SAC".toList) := fun r =>
    ⟨⟨rfl, rfl, rfl, rfl⟩, rfl, rfl, by
      have : ∀ h ∈ headers, Dict.get [("sampling_rate", Val.num (10 : ℚ))] h = none := by decide
      exact this⟩
  obtain ⟨ts', h3, h4⟩ := h2 _ (.cons (hs 0) (.cons (hs 1) .nil))
  cases h4 with
  | cons ha hl =>
    cases hl with
    | cons hb hn =>
      cases hn
      exact ⟨_, _, h3, hb.1.2.2.2, hb.1.2.1, hb.2 _ (by decide)⟩

end Verif.Props
