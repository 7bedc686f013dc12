import Verif.Props.StreamRoundtrip
import Verif.Model.TraceWrite

/-!
# C212: writing a stream again, in the same or in another format
-/

set_option linter.unusedSimpArgs false
set_option linter.unusedSectionVars false

namespace Verif.Spec
open Verif.Py

/-- Two dictionaries with the same entries. -/
def SameEntries {V : Type} (a b : Dict V) : Prop := ∀ k, a.get k = b.get k

end Verif.Spec

namespace Verif.Props
open Verif.Py Verif.Model.Headers Verif.Spec

section
variable {K : Type} [Field K] (E : FmtEnv K)

/-- The stats with another SH header. -/
def withSh (x : Option (Dict (Val K))) (st : FStats K) : FStats K := ⟨st.format, st.top, st.sac, x⟩

/-- The stats with another SAC header. -/
def withSac (x : Option (Dict (Val K))) (st : FStats K) : FStats K := ⟨st.format, st.top, x, st.sh⟩

theorem convertWrite_withSh (x : Option (Dict (Val K))) (st : FStats K) (v : Val K) :
    convertWrite E (withSh x st) v = convertWrite E st v := rfl

theorem fold_map {σ α : Type} (f : σ → α → Res σ) (g : σ → σ) (h : ∀ s a, f (g s) a = (f s a).map g) (L : List α) (s : σ) :
    L.foldlM f (g s) = (L.foldlM f s).map g := by
  induction L generalizing s with
  | nil => rfl
  | cons a L ih =>
    rw [List.foldlM_cons, List.foldlM_cons, h]
    cases f s a with
    | error e => rfl
    | ok s' => exact ih s'

/-- The SAC header does not depend on an SH header, and leaves it as it is. -/
theorem writeHeader_withSh (format : Str) (hf : lower format = "sac".toList) (compat : Bool) (x : Option (Dict (Val K)))
    (st : FStats K) : writeHeader E format compat (withSh x st) = (writeHeader E format compat st).map (withSh x) := by
  unfold writeHeader
  rw [fmtOf_sac format hf]
  simp only
  have hi : (writeInit E .sac (withSh x st), ([] : Dict (Val K))) =
      (fun s : FStats K × Dict (Val K) => (withSh x s.1, s.2)) (writeInit E .sac st, []) := rfl
  rw [hi, fold_map (writeStep E .sac) (fun s : FStats K × Dict (Val K) => (withSh x s.1, s.2))]
  · cases (headerMap .sac).foldlM (writeStep E .sac) (writeInit E .sac st, ([] : Dict (Val K))) with
    | error e => rfl
    | ok s => rfl
  · rintro ⟨s, c⟩ p
    unfold writeStep
    simp only [reduceCtorEq, false_and, if_false]
    show (match s.top.get p.1 with | none => _ | some v => _) = _
    cases s.top.get p.1 with
    | none => rfl
    | some v =>
      simp only [convertWrite_withSh]
      cases (if hasConversion .sac p.1 = true then convertWrite E s v else .ok v) with
      | error e => rfl
      | ok v' => rfl

/-- The SH header does not depend on a SAC header, and leaves it as it is. -/
theorem writeHeader_withSac (format : Str) (hf : lower format = "q".toList) (compat : Bool) (x : Option (Dict (Val K)))
    (st : FStats K) : writeHeader E format compat (withSac x st) = (writeHeader E format compat st).map (withSac x) := by
  unfold writeHeader
  rw [fmtOf_q format hf]
  simp only
  have hi : (writeInit E .sh (withSac x st), ([] : Dict (Val K))) =
      (fun s : FStats K × Dict (Val K) => (withSac x s.1, s.2)) (writeInit E .sh st, []) := by
    obtain ⟨f, t, a, b⟩ := st
    cases b <;> rfl
  rw [hi, fold_map (writeStep E .sh) (fun s : FStats K × Dict (Val K) => (withSac x s.1, s.2))]
  · cases (headerMap .sh).foldlM (writeStep E .sh) (writeInit E .sh st, ([] : Dict (Val K))) with
    | error e => rfl
    | ok s =>
      show writeComment E .sh compat (withSac x s.1, s.2) = _
      unfold writeComment
      simp only
      cases compat with
      | true => rfl
      | false =>
        simp only [Bool.false_eq_true, if_false]
        split
        · cases E.dumps s.2 with
          | error e => rfl
          | ok c => rfl
        · rfl
  · rintro ⟨s, c⟩ p
    unfold writeStep
    simp only [true_and]
    show (if p.2 = "COMMENT" then (match s.top.get p.1 with | some v => _ | none => _) else
      (match s.top.get p.1 with | none => _ | some v => _)) = _
    split
    · cases s.top.get p.1 <;> rfl
    · cases s.top.get p.1 <;> rfl

/-- **C212** (other format).  What a trace written in Q format before has in its SH header does not matter for SAC files, and vice
versa; the other header is left as it is. -/
theorem C212_formats (format : Str) (compat : Bool) (st : FStats K) (x : Option (Dict (Val K))) :
    (lower format = "sac".toList → writeHeader E format compat ⟨st.format, st.top, st.sac, x⟩ =
      (writeHeader E format compat st).map fun r => ⟨r.format, r.top, r.sac, x⟩) ∧
    (lower format = "q".toList → writeHeader E format compat ⟨st.format, st.top, x, st.sh⟩ =
      (writeHeader E format compat st).map fun r => ⟨r.format, r.top, x, r.sh⟩) :=
  ⟨fun h => writeHeader_withSh E format h compat x st, fun h => writeHeader_withSac E format h compat x st⟩

/-- The entries for COMMENT are collected from the stats alone. -/
def collect (top : Dict (Val K)) (c : Dict (Val K)) (p : String × String) : Dict (Val K) :=
  if p.2 = "COMMENT" then (match top.get p.1 with | some v => c.set p.1 v | none => c) else c

/-- The other entries go into the SH header. -/
def putSh (top : Dict (Val K)) (d : Dict (Val K)) (p : String × String) : Dict (Val K) :=
  if p.2 = "COMMENT" then d else (match top.get p.1 with | some v => d.set p.2 v | none => d)

theorem sh_step (fm : Option Str) (top : Dict (Val K)) (sac : Option (Dict (Val K))) (d c : Dict (Val K)) (p : String × String) :
    writeStep E .sh (⟨fm, top, sac, some d⟩, c) p = .ok (⟨fm, top, sac, some (putSh top d p)⟩, collect top c p) := by
  unfold writeStep putSh collect
  by_cases h : p.2 = "COMMENT"
  · simp only [h, and_self, if_true]
    cases top.get p.1 <;> rfl
  · simp only [h, and_false, if_false]
    cases top.get p.1 <;> rfl

theorem sh_fold (fm : Option Str) (top : Dict (Val K)) (sac : Option (Dict (Val K))) (L : List (String × String)) (d c : Dict (Val K)) :
    L.foldlM (writeStep E .sh) (⟨fm, top, sac, some d⟩, c) =
      .ok (⟨fm, top, sac, some (L.foldl (putSh top) d)⟩, L.foldl (collect top) c) := by
  induction L generalizing d c with
  | nil => rfl
  | cons p L ih =>
    rw [List.foldlM_cons, sh_step]
    exact ih _ _

include E in
theorem putSh_get (top d : Dict (Val K)) (f : String) : ((headerMap .sh).foldl (putSh top) d).get f =
    (((swapDict (notComment (headerMap .sh))).get f).bind (fun h => top.get h)).or (d.get f) := by
  obtain ⟨d', c', h1, -, h3, -⟩ := sh_writeLoop E (headerMap .sh) (by unfold Dict.NodupKeys; decide) (by decide)
    none top none [] d (by simp [Dict.NodupKeys, Dict.keys])
  rw [sh_fold] at h1
  simp only [Except.ok.injEq, Prod.mk.injEq, FStats.mk.injEq, Option.some.injEq, true_and] at h1
  rw [h1.1]
  exact h3 f

theorem sh_value (format : Str) (hf : lower format = "q".toList) (compat : Bool) (fm : Option Str) (top : Dict (Val K))
    (sac sh : Option (Dict (Val K))) :
    writeHeader E format compat ⟨fm, top, sac, sh⟩ =
      writeComment E .sh compat (⟨fm, top, sac, some ((headerMap .sh).foldl (putSh top) (sh.getD []))⟩,
        (headerMap .sh).foldl (collect top) []) := by
  have hinit : writeInit E .sh ⟨fm, top, sac, sh⟩ = ⟨fm, top, sac, some (sh.getD [])⟩ := by cases sh <;> rfl
  unfold writeHeader
  rw [fmtOf_q format hf]
  simp only
  rw [hinit, sh_fold]

/-- **C212** (Q).  Written again in Q format a trace has an SH header with the same entries; its other headers are unchanged. -/
theorem C212_q (format format' : Str) (hf : lower format = "q".toList) (hf' : lower format' = "q".toList) (compat : Bool)
    (st st' : FStats K) (h : writeHeader E format compat st = .ok st') :
    ∃ st'' d' d'', writeHeader E format' compat st' = .ok st'' ∧ st''.top = st.top ∧ st''.sac = st.sac ∧ st''.format = st.format ∧
      st'.sh = some d' ∧ st''.sh = some d'' ∧ SameEntries d'' d' := by
  obtain ⟨fm, top, sac, sh⟩ := st
  rw [sh_value E format hf] at h
  set L := headerMap .sh with hL
  set d := L.foldl (putSh top) (sh.getD []) with hd
  set c := L.foldl (collect top) ([] : Dict (Val K)) with hc
  have hnoc : (swapDict (notComment L)).get "COMMENT" = none := by rw [hL]; decide
  have hfix : ∀ e : Dict (Val K), (∀ f, f ≠ "COMMENT" → e.get f = d.get f) →
      ∀ f, f ≠ "COMMENT" → (L.foldl (putSh top) e).get f = e.get f := by
    intro e he f hfc
    rw [hL, putSh_get E top e f, he f hfc, hd, hL, putSh_get E top _ f]
    cases ((swapDict (notComment (headerMap .sh))).get f).bind (fun h => top.get h) <;> rfl
  have hcom : ∀ e : Dict (Val K), (L.foldl (putSh top) e).get "COMMENT" = e.get "COMMENT" := by
    intro e
    rw [hL, putSh_get E top e, ← hL, hnoc]
    rfl
  unfold writeComment at h
  cases compat with
  | true =>
    simp only [if_true, Except.ok.injEq] at h
    subst h
    refine ⟨⟨fm, top, sac, some ((L.foldl (putSh top) (d.erase "COMMENT")).erase "COMMENT")⟩, d.erase "COMMENT", _, ?_, rfl, rfl, rfl, rfl, rfl, ?_⟩
    · exact sh_value E format' hf' true fm top sac (some (d.erase "COMMENT"))
    intro f
    simp only [FStats.sub, Option.getD_some, Dict.get_erase]
    split
    · rfl
    · rename_i hne
      rw [hfix (d.erase "COMMENT") (fun f hf => by rw [Dict.get_erase, if_neg hf]) f hne, Dict.get_erase, if_neg hne]
  | false =>
    simp only [Bool.false_eq_true, if_false] at h
    by_cases hlen : c.length > 0
    · rw [if_pos hlen] at h
      cases hs : E.dumps c with
      | error e => rw [hs] at h; cases h
      | ok t =>
        rw [hs] at h
        simp only [Except.ok.injEq] at h
        subst h
        refine ⟨⟨fm, top, sac, some ((L.foldl (putSh top) (d.set "COMMENT" (.str t))).set "COMMENT" (.str t))⟩, d.set "COMMENT" (.str t), _,
          ?_, rfl, rfl, rfl, rfl, rfl, ?_⟩
        · have := sh_value E format' hf' false fm top sac (some (d.set "COMMENT" (.str t)))
          unfold writeComment at this
          simp only [Bool.false_eq_true, if_false] at this
          rw [← hL, ← hc, if_pos hlen, hs] at this
          exact this
        intro f
        simp only [FStats.sub, Option.getD_some, Dict.get_set]
        split
        · rfl
        · rename_i hne
          rw [hfix (d.set "COMMENT" (.str t)) (fun f hf => by rw [Dict.get_set, if_neg hf]) f hne, Dict.get_set, if_neg hne]
    · rw [if_neg hlen] at h
      simp only [Except.ok.injEq] at h
      subst h
      refine ⟨⟨fm, top, sac, some (L.foldl (putSh top) d)⟩, d, _, ?_, rfl, rfl, rfl, rfl, rfl, ?_⟩
      · have := sh_value E format' hf' false fm top sac (some d)
        unfold writeComment at this
        simp only [Bool.false_eq_true, if_false] at this
        rw [← hL, ← hc, if_neg hlen] at this
        exact this
      intro f
      by_cases hne : f = "COMMENT"
      · rw [hne, hcom]
      · exact hfix d (fun _ _ => rfl) f hne

/-- What is assumed about `obspy_to_sac_header` for a trace with a SAC header made by it for the same trace: the entries of the rf headers
are kept and the other entries are the same again; the reference time is a matter of the entries. -/
structure SacAgain (st : FStats K) : Prop where
  keep : ∀ d : Dict (Val K), (∀ f, f ∉ sacFields → d.get f = (E.toSac st.top st.sac).get f) →
    SameEntries (E.toSac st.top (some d)) d
  ref : ∀ d d' : Dict (Val K), SameEntries d d' → E.reftime d = E.reftime d'

/-- **C212** (SAC).  Written again as SAC file a trace has a SAC header with the same entries. -/
theorem C212_sac (hi : ReftimeIndep E) (st : FStats K) (format format' : Str) (compat : Bool)
    (hf : lower format = "sac".toList) (hf' : lower format' = "sac".toList) (t0 : K)
    (hr : E.reftime (E.toSac st.top st.sac) = .ok t0) (ht : TimesOk st.top) (hagain : SacAgain E st) :
    ∃ st' st'' d' d'', writeHeader E format compat st = .ok st' ∧ writeHeader E format' compat st' = .ok st'' ∧
      st''.top = st.top ∧ st''.sh = st.sh ∧ st'.sac = some d' ∧ st''.sac = some d'' ∧ SameEntries d'' d' := by
  have key : ∀ (fmt : Str) (hfm : lower fmt = "sac".toList) (s : FStats K), E.reftime (E.toSac s.top s.sac) = .ok t0 → TimesOk s.top →
      ∃ d, writeHeader E fmt compat s = .ok ⟨s.format, s.top, some d, s.sh⟩ ∧ E.reftime d = .ok t0 ∧
        ∀ f, d.get f = (((swapDict (headerMap .sac)).get f).bind (fun h => (s.top.get h).map (sacVal t0 h))).or
          ((E.toSac s.top s.sac).get f) := by
    intro fmt hfm s hr ht
    obtain ⟨d, h1, h2, h3⟩ := sac_writeLoop E hi t0 (headerMap .sac) sac_fields_mem (by decide)
      s.format s.top s.sh ht [] (E.toSac s.top s.sac) hr
    refine ⟨d, ?_, h2, h3⟩
    have hinit : writeInit E .sac s = ⟨s.format, s.top, some (E.toSac s.top s.sac), s.sh⟩ := by
      simp [writeInit, FStats.sub]
    simp [writeHeader, fmtOf_sac fmt hfm, hinit, h1, writeComment]
  obtain ⟨d', h1, h2, h3⟩ := key format hf st hr ht
  have hsw : ∀ f, f ∉ sacFields → (swapDict (headerMap .sac)).get f = none := by
    intro f hf
    rw [Dict.get_eq_none_iff]
    intro hm
    have : ∀ k ∈ (swapDict (headerMap .sac)).keys, k ∈ sacFields := by decide
    exact hf (this f hm)
  have hk := hagain.keep d' fun f hf => by rw [h3 f, hsw f hf]; rfl
  obtain ⟨d'', h4, h5, h6⟩ := key format' hf' ⟨st.format, st.top, some d', st.sh⟩ (by
    show E.reftime (E.toSac st.top (some d')) = .ok t0
    rw [hagain.ref _ _ hk, h2]) ht
  refine ⟨_, _, d', d'', h1, h4, rfl, rfl, rfl, rfl, fun f => ?_⟩
  rw [h6 f]
  show Option.or _ ((E.toSac st.top (some d')).get f) = _
  rw [hk f, h3 f]
  cases ((swapDict (headerMap .sac)).get f).bind (fun h => (st.top.get h).map (sacVal t0 h)) <;> rfl

variable [DecidableEq K]

theorem writer_gets_q (format : Str) (hup : upper format = "Q".toList) (compat : Bool) (w : WState K)
    (s : List Nat) (hs : s.Nodup) (hne : s ≠ [])
    (hdot : ∀ r ∈ s, '.' ∉ (w.heap r).net ∧ '.' ∉ (w.heap r).sta)
    (hloop : ∀ r ∈ s, ∃ st, writeHeader E format compat (w.heap r).st = .ok st) :
    WriterGets E format compat w s (writeLoop E format compat w.heap s).1 := by
  obtain ⟨h1, h2⟩ := writeLoop_ok E format compat w.heap s hs hloop
  intro out
  have hh5 : ¬ upper format = "H5".toList := by rw [hup]; decide
  cases s with
  | nil => exact absurd rfl hne
  | cons a s' =>
    generalize hS : a :: s' = s at *
    generalize hL : writeLoop E format compat w.heap s = L at h1 h2
    obtain ⟨hp, eo⟩ := L
    simp only at h1 h2
    subst h1
    have hwr : write E format compat out w s = match out hp w.index s with
        | some e => (⟨hp, w.index⟩, some e)
        | none => (⟨(restoreLoop hp s).1, w.index⟩, (restoreLoop hp s).2) := by
      rw [← hS] at hL ⊢
      unfold write
      simp only [hL, hh5, if_false, Option.getD_none]
      simp only [hup, if_true]
      cases out hp w.index (a :: s') <;> rfl
    rw [hwr]
    cases ho : out hp w.index s with
    | some e => rfl
    | none =>
      exact (restoreLoop_ok hp s hs (fun r => (w.heap r).sta) (fun r hr => by
        obtain ⟨st, -, h4⟩ := h2 r hr
        rw [h4]
        simp only [hup, if_true]
        rw [split_id _ (hdot r hr).1 (hdot r hr).2]
        exact ⟨_, _, rfl⟩)).1

/-- The state after a successful call in Q format. -/
theorem after_q (format : Str) (hup : upper format = "Q".toList) (compat : Bool)
    (out : FHeap K → Str → List Nat → Option PyErr) (w : WState K) (s : List Nat) (hs : s.Nodup) (hne : s ≠ [])
    (hdot : ∀ r ∈ s, '.' ∉ (w.heap r).net ∧ '.' ∉ (w.heap r).sta)
    (hloop : ∀ r ∈ s, ∃ st, writeHeader E format compat (w.heap r).st = .ok st)
    (hout : (write E format compat out w s).2 = none) :
    ∀ r ∈ s, ∃ st, writeHeader E format compat (w.heap r).st = .ok st ∧
      (write E format compat out w s).1.heap r = ⟨(w.heap r).net, (w.heap r).sta, (w.heap r).loc, (w.heap r).cha, st⟩ := by
  obtain ⟨h1, h2⟩ := writeLoop_ok E format compat w.heap s hs hloop
  have hh5 : ¬ upper format = "H5".toList := by rw [hup]; decide
  cases s with
  | nil => exact absurd rfl hne
  | cons a s' =>
    generalize hS : a :: s' = s at *
    generalize hL : writeLoop E format compat w.heap s = L at h1 h2
    obtain ⟨hp, eo⟩ := L
    simp only at h1 h2
    subst h1
    have hwr : write E format compat out w s = match out hp w.index s with
        | some e => (⟨hp, w.index⟩, some e)
        | none => (⟨(restoreLoop hp s).1, w.index⟩, (restoreLoop hp s).2) := by
      rw [← hS] at hL ⊢
      unfold write
      simp only [hL, hh5, if_false, Option.getD_none]
      simp only [hup, if_true]
      cases out hp w.index (a :: s') <;> rfl
    rw [hwr] at hout ⊢
    cases ho : out hp w.index s with
    | some e => rw [ho] at hout; cases hout
    | none =>
      simp only
      intro r hr
      obtain ⟨st, h3, h4⟩ := h2 r hr
      refine ⟨st, h3, ?_⟩
      rw [(restoreLoop_ok hp s hs (fun r => (w.heap r).sta) (fun r hr => by
        obtain ⟨st, -, h4⟩ := h2 r hr
        rw [h4]
        simp only [hup, if_true]
        rw [split_id _ (hdot r hr).1 (hdot r hr).2]
        exact ⟨_, _, rfl⟩)).2 r hr, h4]

/-- **C212** (stream).  If a stream is written in Q format twice, the writer gets the same codes and headers in both calls. -/
theorem C212_stream (format : Str) (hq : format = "Q".toList ∨ format = "q".toList) (compat : Bool)
    (out : FHeap K → Str → List Nat → Option PyErr) (w : WState K) (s : List Nat) (hs : s.Nodup) (hne : s ≠ [])
    (hdot : ∀ r ∈ s, '.' ∉ (w.heap r).net ∧ '.' ∉ (w.heap r).sta)
    (hloop : ∀ r ∈ s, ∃ st, writeHeader E format compat (w.heap r).st = .ok st)
    (hout : (write E format compat out w s).2 = none) :
    ∃ hw hw', WriterGets E format compat w s hw ∧ WriterGets E format compat (write E format compat out w s).1 s hw' ∧
      ∀ r ∈ s, SameCodes (hw' r) (hw r) ∧ (hw' r).st.top = (hw r).st.top ∧
        ∃ d d', (hw r).st.sh = some d ∧ (hw' r).st.sh = some d' ∧ SameEntries d' d := by
  have hup : upper format = "Q".toList := by rcases hq with rfl | rfl <;> decide
  have hlo : lower format = "q".toList := by rcases hq with rfl | rfl <;> decide
  have haft := after_q E format hup compat out w s hs hne hdot hloop hout
  set w' := (write E format compat out w s).1 with hw'
  have hdot' : ∀ r ∈ s, '.' ∉ (w'.heap r).net ∧ '.' ∉ (w'.heap r).sta := by
    intro r hr
    obtain ⟨st, -, h⟩ := haft r hr
    rw [h]
    exact hdot r hr
  have hloop' : ∀ r ∈ s, ∃ st, writeHeader E format compat (w'.heap r).st = .ok st := by
    intro r hr
    obtain ⟨st, h1, h⟩ := haft r hr
    obtain ⟨st'', -, -, h2, -⟩ := C212_q E format format hlo hlo compat _ _ h1
    rw [h]
    exact ⟨st'', h2⟩
  refine ⟨_, _, writer_gets_q E format hup compat w s hs hne hdot hloop, writer_gets_q E format hup compat w' s hs hne hdot' hloop', ?_⟩
  intro r hr
  obtain ⟨st1, a1, a2⟩ := (writeLoop_ok E format compat w.heap s hs hloop).2 r hr
  obtain ⟨st2, b1, b2⟩ := (writeLoop_ok E format compat w'.heap s hs hloop').2 r hr
  obtain ⟨st, c1, c2⟩ := haft r hr
  rw [a1] at c1
  cases c1
  rw [c2] at b1 b2
  simp only at b1
  obtain ⟨st'', d', d'', e1, e2, -, -, e5, e6, e7⟩ := C212_q E format format hlo hlo compat _ _ a1
  rw [e1] at b1
  cases b1
  rw [a2, b2]
  simp only [hup, if_true]
  have htop : st1.top = (w.heap r).st.top := by
    cases hw0 : (w.heap r).st with
    | mk fm top sac sh =>
      rw [hw0, sh_value E format hlo] at a1
      unfold writeComment at a1
      simp only at a1
      split at a1
      · cases a1; rfl
      · split at a1
        · split at a1
          · cases a1; rfl
          · cases a1
        · cases a1; rfl
  refine ⟨⟨rfl, rfl, rfl, rfl⟩, e2.trans htop.symm, d', d'', e5, e6, e7⟩

/-- A call in a format other than Q and H5 with headers which can be written: what the writer gets is what is left. -/
theorem write_plain (format : Str) (hq : ¬ upper format = "Q".toList) (hh5 : ¬ upper format = "H5".toList) (compat : Bool)
    (out : FHeap K → Str → List Nat → Option PyErr) (w : WState K) (s : List Nat) (hs : s.Nodup) (hne : s ≠ [])
    (hloop : ∀ r ∈ s, ∃ st, writeHeader E format compat (w.heap r).st = .ok st) :
    write E format compat out w s =
      (⟨(writeLoop E format compat w.heap s).1, w.index⟩, out (writeLoop E format compat w.heap s).1 w.index s) := by
  obtain ⟨h1, -⟩ := writeLoop_ok E format compat w.heap s hs hloop
  cases s with
  | nil => exact absurd rfl hne
  | cons a s' =>
    generalize hL : writeLoop E format compat w.heap (a :: s') = L at h1
    obtain ⟨hp, eo⟩ := L
    simp only at h1
    subst h1
    unfold write
    simp only [hL, hh5, if_false, Option.getD_none, hq]
    cases out hp w.index (a :: s') <;> rfl

/-- **C212** (stream, SAC).  If a stream is written as SAC files twice, the writer gets the same codes and headers in both calls, also if
the first call fails in the writer. -/
theorem C212_stream_sac (hi : ReftimeIndep E) (format : Str) (hf : format = "SAC".toList ∨ format = "sac".toList) (compat : Bool)
    (out : FHeap K → Str → List Nat → Option PyErr) (w : WState K) (s : List Nat) (hs : s.Nodup) (hne : s ≠ [])
    (hok : ∀ r ∈ s, (∃ t0, E.reftime (E.toSac (w.heap r).st.top (w.heap r).st.sac) = .ok t0) ∧ TimesOk (w.heap r).st.top ∧
      SacAgain E (w.heap r).st) :
    ∃ hw hw', WriterGets E format compat w s hw ∧ WriterGets E format compat (write E format compat out w s).1 s hw' ∧
      ∀ r ∈ s, SameCodes (hw' r) (hw r) ∧ (hw' r).st.top = (hw r).st.top ∧ (hw' r).st.sh = (hw r).st.sh ∧
        ∃ d d', (hw r).st.sac = some d ∧ (hw' r).st.sac = some d' ∧ SameEntries d' d := by
  have hq : ¬ upper format = "Q".toList := by rcases hf with rfl | rfl <;> decide
  have hh5 : ¬ upper format = "H5".toList := by rcases hf with rfl | rfl <;> decide
  have hlo : lower format = "sac".toList := by rcases hf with rfl | rfl <;> decide
  have hsac := fun r (hr : r ∈ s) => C212_sac E hi (w.heap r).st format format compat hlo hlo (hok r hr).1.choose
    (hok r hr).1.choose_spec (hok r hr).2.1 (hok r hr).2.2
  have hloop : ∀ r ∈ s, ∃ st, writeHeader E format compat (w.heap r).st = .ok st := by
    intro r hr
    obtain ⟨st', -, -, -, h, -⟩ := hsac r hr
    exact ⟨st', h⟩
  have h2 := (writeLoop_ok E format compat w.heap s hs hloop).2
  set hw := (writeLoop E format compat w.heap s).1 with hhw
  have hst : (write E format compat out w s).1 = ⟨hw, w.index⟩ := by
    rw [write_plain E format hq hh5 compat out w s hs hne hloop]
  rw [hst]
  have hloop' : ∀ r ∈ s, ∃ st, writeHeader E format compat (hw r).st = .ok st := by
    intro r hr
    obtain ⟨st', st'', -, -, h, h', -⟩ := hsac r hr
    obtain ⟨st, a, b⟩ := h2 r hr
    rw [h] at a
    cases a
    rw [b]
    exact ⟨st'', h'⟩
  have h3 := (writeLoop_ok E format compat hw s hs hloop').2
  refine ⟨hw, (writeLoop E format compat hw s).1,
    fun o => by rw [write_plain E format hq hh5 compat o w s hs hne hloop],
    fun o => by rw [write_plain E format hq hh5 compat o ⟨hw, w.index⟩ s hs hne hloop'], fun r hr => ?_⟩
  obtain ⟨st', st'', d', d'', h, h', e1, e2, e3, e4, e5⟩ := hsac r hr
  obtain ⟨st, a, b⟩ := h2 r hr
  rw [h] at a
  cases a
  obtain ⟨st2, c, d⟩ := h3 r hr
  rw [b] at c d
  simp only at c
  rw [h'] at c
  cases c
  have hkeep : st'.top = (w.heap r).st.top ∧ st'.sh = (w.heap r).st.sh := by
    obtain ⟨⟨t0, h0⟩, ht, -⟩ := hok r hr
    obtain ⟨x, g1, -, -⟩ := sac_writeLoop E hi t0 (headerMap .sac) sac_fields_mem (by decide)
      (w.heap r).st.format (w.heap r).st.top (w.heap r).st.sh ht [] (E.toSac (w.heap r).st.top (w.heap r).st.sac) h0
    have hinit : writeInit E .sac (w.heap r).st =
        ⟨(w.heap r).st.format, (w.heap r).st.top, some (E.toSac (w.heap r).st.top (w.heap r).st.sac), (w.heap r).st.sh⟩ := by
      simp [writeInit, FStats.sub]
    have : writeHeader E format compat (w.heap r).st = .ok ⟨(w.heap r).st.format, (w.heap r).st.top, some x, (w.heap r).st.sh⟩ := by
      simp [writeHeader, fmtOf_sac format hlo, hinit, g1, writeComment]
    rw [this] at h
    cases h
    exact ⟨rfl, rfl⟩
  rw [b, d]
  simp only [hq, if_false]
  exact ⟨⟨rfl, rfl, rfl, rfl⟩, e1.trans hkeep.1.symm, e2.trans hkeep.2.symm, d', d'', e3, e4, e5⟩

/-- **C212** (H5 and further formats).  A successful call in a format without headers of rf, such as H5, leaves traces and index as they were,
so that the next call is the same call. -/
theorem C212_h5 (format : Str) (hq : ¬ upper format = "Q".toList) (hf : fmtOf format = none) (compat : Bool)
    (out : FHeap K → Str → List Nat → Option PyErr) (w : WState K) (s : List Nat)
    (hok : (write E format compat out w s).2 = none) : (write E format compat out w s).1 = w := by
  have hl : ∀ (s : List Nat) (h : FHeap K), writeLoop E format compat h s = (h, none) := by
    intro s
    induction s with
    | nil => intro h; rfl
    | cons a s ih =>
      intro h
      have hw : writeHeader E format compat (h a).st = .ok (h a).st := by unfold writeHeader; rw [hf]
      rw [writeLoop, hw]
      simp only [hq, if_false]
      rw [ih]
      congr 1
      funext r
      by_cases hr : r = a
      · subst hr; exact fset_self _ _ _
      · exact fset_ne _ _ hr
  cases s with
  | nil => rfl
  | cons a s =>
    revert hok
    unfold write
    simp only [hl, hq, if_false]
    generalize (if upper format = "H5".toList then _ else _ : Res (Option Str)) = i
    cases i with
    | error e => intro h; cases h
    | ok i =>
      simp only
      cases out w.heap (i.getD w.index) (a :: s) with
      | some e => intro h; cases h
      | none => intro _; rfl

/-- A trace as the writer gets it. -/
def passed (format : Str) (t : FTrace K) (st : FStats K) : FTrace K :=
  ⟨t.net, if upper format = "Q".toList then t.id else t.sta, t.loc, t.cha, st⟩

/-- A call for one trace in a format other than H5, with codes without dots for Q: the writer gets the trace with its headers, and the
trace has its codes and the written headers afterwards; nothing else changes. -/
theorem trace_write (format : Str) (hh5 : ¬ upper format = "H5".toList) (compat : Bool)
    (out : FHeap K → Str → List Nat → Option PyErr) (w : WState K) (r : Nat)
    (hdot : '.' ∉ (w.heap r).net ∧ '.' ∉ (w.heap r).sta) (st : FStats K)
    (hst : writeHeader E format compat (w.heap r).st = .ok st)
    (hout : out (w.heap.set r (passed format (w.heap r) st)) w.index [r] = none) :
    traceWrite E format compat out w r =
      (⟨w.heap.set r ⟨(w.heap r).net, (w.heap r).sta, (w.heap r).loc, (w.heap r).cha, st⟩, w.index⟩, none) := by
  have hl : writeLoop E format compat w.heap [r] = (w.heap.set r (passed format (w.heap r) st), none) := by
    rw [writeLoop, hst]
    simp only [writeLoop]
    congr 2
    by_cases hq : upper format = "Q".toList
    · simp only [hq, if_true, passed]; rfl
    · simp only [hq, if_false, passed]
  unfold traceWrite write
  simp only [hl, hh5, if_false, Option.getD_none, hout]
  by_cases hq : upper format = "Q".toList
  · rw [if_pos hq]
    have hsta : ((w.heap.set r (passed format (w.heap r) st)) r).sta = (w.heap r).id := by
      rw [fset_self]; simp [passed, hq]
    have hr : restoreLoop (w.heap.set r (passed format (w.heap r) st)) [r] =
        ((w.heap.set r (passed format (w.heap r) st)).set r
          { (w.heap.set r (passed format (w.heap r) st)) r with sta := (w.heap r).sta }, none) := by
      rw [restoreLoop, hsta, split_id _ hdot.1 hdot.2]
      simp only [restoreLoop]
    rw [hr]
    refine Prod.ext ?_ rfl
    simp only
    congr 1
    funext q
    by_cases hqr : q = r
    · subst hqr
      rw [fset_self, fset_self, fset_self]
      rfl
    · rw [fset_ne _ _ hqr, fset_ne _ _ hqr, fset_ne _ _ hqr]
  · rw [if_neg hq]
    simp only [passed, hq, if_false]

/-- **C212** (trace by trace).  Writing the traces of a stream one after the other gives each trace to the writer as the stream does:
with the same codes and headers. -/
theorem C212_traces (format : Str) (hh5 : ¬ upper format = "H5".toList) (compat : Bool)
    (out : FHeap K → Str → List Nat → Option PyErr) (hout : ∀ h i s, out h i s = none) (w : WState K) (s : List Nat) (hs : s.Nodup)
    (hdot : ∀ r ∈ s, '.' ∉ (w.heap r).net ∧ '.' ∉ (w.heap r).sta)
    (hloop : ∀ r ∈ s, ∃ st, writeHeader E format compat (w.heap r).st = .ok st) :
    ∃ w', writeTraces E format compat out w s = (w', none) ∧ w'.index = w.index ∧ (∀ r, r ∉ s → w'.heap r = w.heap r) ∧
      ∀ r ∈ s, ∃ st, (writeLoop E format compat w.heap s).1 r = passed format (w.heap r) st ∧
        (writeLoop E format compat w.heap [r]).1 r = passed format (w.heap r) st ∧
        w'.heap r = ⟨(w.heap r).net, (w.heap r).sta, (w.heap r).loc, (w.heap r).cha, st⟩ := by
  have h1 := (writeLoop_ok E format compat w.heap s hs hloop).2
  suffices H : ∀ (s : List Nat) (w : WState K), s.Nodup → (∀ r ∈ s, '.' ∉ (w.heap r).net ∧ '.' ∉ (w.heap r).sta) →
      (∀ r ∈ s, ∃ st, writeHeader E format compat (w.heap r).st = .ok st) →
      ∃ w', writeTraces E format compat out w s = (w', none) ∧ w'.index = w.index ∧ (∀ r, r ∉ s → w'.heap r = w.heap r) ∧
        ∀ r ∈ s, ∃ st, writeHeader E format compat (w.heap r).st = .ok st ∧
          w'.heap r = ⟨(w.heap r).net, (w.heap r).sta, (w.heap r).loc, (w.heap r).cha, st⟩ by
    obtain ⟨w', a, b, c, d⟩ := H s w hs hdot hloop
    refine ⟨w', a, b, c, fun r hr => ?_⟩
    obtain ⟨st, e1, e2⟩ := d r hr
    obtain ⟨st', f1, f2⟩ := h1 r hr
    obtain ⟨st'', g1, g2⟩ := (writeLoop_ok E format compat w.heap [r] (by simp) (by simpa using hloop r hr)).2 r (by simp)
    rw [e1] at f1 g1
    cases f1
    cases g1
    exact ⟨st, f2, g2, e2⟩
  intro s
  induction s with
  | nil => intro w _ _ _; exact ⟨w, rfl, rfl, fun _ _ => rfl, by simp⟩
  | cons a s ih =>
    intro w hs hdot hloop
    simp only [List.nodup_cons] at hs
    obtain ⟨st, hst⟩ := hloop a (by simp)
    have hw := trace_write E format hh5 compat out w a (hdot a (by simp)) st hst (hout _ _ _)
    have hne : ∀ r ∈ s, r ≠ a := by rintro r hr rfl; exact hs.1 hr
    obtain ⟨w', b1, b2, b3, b4⟩ := ih ⟨w.heap.set a ⟨(w.heap a).net, (w.heap a).sta, (w.heap a).loc, (w.heap a).cha, st⟩, w.index⟩ hs.2
      (fun r hr => by simp only [fset_ne _ _ (hne r hr)]; exact hdot r (by simp [hr]))
      (fun r hr => by simp only [fset_ne _ _ (hne r hr)]; exact hloop r (by simp [hr]))
    refine ⟨w', by rw [writeTraces, hw]; exact b1, b2, fun r hr => ?_, fun r hr => ?_⟩
    · simp only [List.mem_cons, not_or] at hr
      rw [b3 r hr.2]; exact fset_ne _ _ hr.1
    · rcases List.mem_cons.1 hr with rfl | hr
      · exact ⟨st, hst, by rw [b3 r hs.1]; exact fset_self _ _ _⟩
      · obtain ⟨st', c1, c2⟩ := b4 r hr
        simp only [fset_ne _ _ (hne r hr)] at c1 c2
        exact ⟨st', c1, c2⟩

/-- **C212** (failures).  The loop ends with the first trace which cannot be written; what was written before stays, later traces are not
touched. -/
theorem C212_stops (format : Str) (compat : Bool) (out : FHeap K → Str → List Nat → Option PyErr) (s rest : List Nat) (r : Nat) (w w1 w2 : WState K)
    (e : PyErr) (h1 : writeTraces E format compat out w s = (w1, none)) (h2 : traceWrite E format compat out w1 r = (w2, some e)) :
    writeTraces E format compat out w (s ++ r :: rest) = (w2, some e) := by
  induction s generalizing w with
  | nil =>
    rw [writeTraces] at h1
    cases h1
    rw [List.nil_append, writeTraces, h2]
  | cons a s ih =>
    rw [writeTraces] at h1
    rw [List.cons_append, writeTraces]
    rcases hw : traceWrite E format compat out w a with ⟨w', o⟩
    rw [hw] at h1
    cases o with
    | none => exact ih w' h1
    | some x => cases h1

end

/-! ## Cases meeting the hypotheses -/

/-- A trace with onset, slowness, phase and event id as SAC file. -/
example : ReftimeIndep (caseEnv (fun _ => []) (fun _ => none)) ∧ TimesOk caseStats.top ∧
    SacAgain (caseEnv (fun _ => []) (fun _ => none)) caseStats := by
  refine ⟨caseEnv_indep _ _, caseStats_times, ⟨fun d _ f => rfl, fun d d' h => ?_⟩⟩
  simp only [caseEnv, h "nzyear"]

/-- The format H5. -/
example : ¬ upper "H5".toList = "Q".toList ∧ fmtOf "H5".toList = none := by decide

/-- The same trace in Q format, with the text of the comment being `x`, twice: the order of the entries may differ in general, here it is
the same too. -/
example : let E := caseEnv (fun _ => "x".toList) (fun _ => none)
    let d : Dict (Val ℚ) := [("P-ONSET", .time 10), ("SLOWNESS", .num 6), ("COMMENT", .str "x".toList)]
    writeHeader E "Q".toList false caseStats = .ok ⟨none, caseStats.top, none, some d⟩ ∧
    writeHeader E "q".toList false ⟨none, caseStats.top, none, some d⟩ = .ok ⟨none, caseStats.top, none, some d⟩ := ⟨rfl, rfl⟩

/-- Written as SAC file in between. -/
example : let E := caseEnv (fun _ => "x".toList) (fun _ => none)
    let d : Dict (Val ℚ) := [("P-ONSET", .time 10), ("SLOWNESS", .num 6), ("COMMENT", .str "x".toList)]
    let s : Dict (Val ℚ) := [("nzyear", .num 5), ("a", .num (10 - 5)), ("kuser1", .str "P".toList), ("user1", .num 6)]
    writeHeader E "SAC".toList false ⟨none, caseStats.top, none, some d⟩ = .ok ⟨none, caseStats.top, some s, some d⟩ := rfl

end Verif.Props
