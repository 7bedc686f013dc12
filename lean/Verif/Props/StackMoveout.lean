import Verif.Props.CoherentStack
import Verif.Props.MoveoutLinear
import Verif.Props.Stream

/-!
# Move out correction before and after stacking (C170)

The property expected: for traces of the same slowness it does not matter if a stream is first corrected and then
stacked or first stacked and then corrected.  It is false of the code because `stack` drops the slowness: `moveout` of a
stack always raises an exception (`C170_never`, `C170_counterexample`).  If the common slowness is assigned to the
traces of the stack by hand, the property holds (`C170_commutes_partial`), for all phases and models without NaN in the
tables.
-/

set_option linter.unusedSimpArgs false
set_option linter.unusedSectionVars false

namespace Verif.Props
open Verif.Py Verif.Model Verif.Model.Simple Verif.Spec

section general
variable {K : Type} [Field K] [LinearOrder K] [IsStrictOrderedRing K] [FloorRing K]

/-- A stacked trace has no other entries than those copied and the onset. -/
theorem stackOne_only (h : Heap K) (s : List ℕ) (tr t : Trace K) (ident : Str) (hok : stackOne h s tr ident = .ok t)
    (k : String) (hk : k ∉ stackEntries) (hk2 : k ≠ "onset") : t.ext.get k = none := by
  have hext : ∀ l : List String, k ∉ l → Dict.get (l.filterMap fun k =>
      (tr.ext.get k).map fun v => (k, v)) k = none := by
    intro l hl
    induction l with
    | nil => rfl
    | cons a l ih =>
      rw [List.mem_cons, not_or] at hl
      rw [List.filterMap_cons]
      cases ha : tr.ext.get a with
      | none => simpa using ih hl.2
      | some v =>
        simp only [Option.map_some, Dict.get, ih hl.2]
        rw [if_neg (Ne.symm hl.1)]
  unfold stackOne at hok
  split at hok
  · split at hok
    · simp at hok
    · simp only [] at hok
      cases ho : tr.ext.get "onset" with
      | none =>
        rw [ho] at hok
        injection hok with hok
        subst hok
        exact hext _ hk
      | some v =>
        rw [ho] at hok
        cases v with
        | time o =>
          injection hok with hok
          subst hok
          rw [stackOne_ok.put_get_lite, if_neg hk2]
          exact hext _ hk
        | _ => simp at hok
  · simp at hok

theorem stack_no_slowness (order : List Str → List Str) (h : Heap K) (s : List ℕ) (out : List (Trace K))
    (hok : stack order h s = .ok out) (t : Trace K) (ht : t ∈ out) : t.ext.get "slowness" = none := by
  obtain ⟨r0, s', hs, hall⟩ := stack_ok order h s out hok
  obtain ⟨i, hi, hone⟩ := forall2_mem hall ht
  exact stackOne_only h s (h r0) t i hone "slowness" (by decide) (by decide)

variable (sqrt : K → K) (find : List K → K → ℕ) (nanCase : Trace K → Res (List K))

/-- **C170, first part.** The move out correction of a non-empty part of a stack never returns, whatever the stream, the
model, the phase and the reference slowness are. -/
theorem C170_never (order : List Str → List Str) (h : Heap K) (s : List ℕ) (out : List (Trace K))
    (hstack : stack order h s = .ok out) (h2 : Heap K) (s2 : List ℕ) (hn : s2.Nodup) (hne : s2 ≠ [])
    (hs2 : ∀ r ∈ s2, h2 r ∈ out) (info : Str) (phase : Option Str) (ref : K) (m : SimpleModel K) :
    (streamMoveout sqrt find nanCase info phase ref m (h2, s2)).2.2 ≠ none := by
  intro hcon
  rcases hr : streamMoveout sqrt find nanCase info phase ref m (h2, s2) with ⟨m', st', e⟩
  rw [hr] at hcon
  simp only at hcon
  subst hcon
  obtain ⟨-, p, -, hb⟩ := C40_bookkeeping sqrt find nanCase info phase ref m m' (h2, s2) st' hn hr
  cases s2 with
  | nil => exact hne rfl
  | cons r s2 =>
    obtain ⟨-, -, -, ⟨x, hx⟩, -⟩ := hb r (by simp)
    have := stack_no_slowness order h s out hstack (h2 r) (hs2 r (by simp))
    rw [this] at hx
    simp at hx

/-- **C170, the exception.** If the onset of the first trace is inside of the trace, the exception is an
`AttributeError` and the stack is unchanged. -/
theorem C170_error (order : List Str → List Str) (h : Heap K) (s : List ℕ) (out : List (Trace K))
    (hstack : stack order h s = .ok out) (h2 : Heap K) (r : ℕ) (s2 : List ℕ)
    (hs2 : h2 r ∈ out) (o : K) (ho : (h2 r).getTime "onset" = some o) (h0 : (h2 r).start ≤ o)
    (h1 : o ≤ (h2 r).endtime) (info p : Str) (ref : K) (m : SimpleModel K) :
    streamMoveout sqrt find nanCase info (some p) ref m (h2, r :: s2)
      = (m, (h2, r :: s2), some .attributeError) := by
  have hno := stack_no_slowness order h s out hstack (h2 r) hs2
  have hnum : (h2 r).getNum "slowness" = none := by simp [Trace.getNum, hno]
  unfold streamMoveout
  simp only [moveoutPhase, moveout, moveoutStep, ho, h0, h1, hnum, not_true_eq_false, and_self, if_false]

end general

section commute
variable {K : Type} [Field K] [LinearOrder K] [IsStrictOrderedRing K] [FloorRing K]

/-- The correction depends only on the samples, the sampling rate and the time between start and onset. -/
theorem moveoutData_shift (find : List K → K → ℕ) (t t' : Trace K) (o o' : K) (phase : Str) (t0 t1 : List K)
    (hd : t.data = t'.data) (hsr : t.sr = t'.sr) (ho : o - t.start = o' - t'.start) :
    moveoutData find t o phase t0 t1 = moveoutData find t' o' phase t0 t1 := by
  have hi : index0 t o = index0 t' o' := by unfold index0; rw [ho, hsr]
  have hs : t.start - o = t'.start - o' := by linear_combination -ho
  have hde : t.delta = t'.delta := by unfold Trace.delta; rw [hsr]
  have hnp : t.npts = t'.npts := by unfold Trace.npts; rw [hd]
  unfold moveoutData moveoutS moveoutP
  rw [hi, hs, hde, hnp, hd]

theorem allSome_of (l : List (Option K)) (h : none ∉ l) : ∃ l', allSome l = some l' := by
  induction l with
  | nil => exact ⟨[], rfl⟩
  | cons a l ih =>
    rw [List.mem_cons, not_or] at h
    obtain ⟨l', hl⟩ := ih h.2
    cases a with
    | none => exact absurd rfl h.1
    | some a => exact ⟨a :: l', by simp [allSome, hl]⟩

variable (sqrt : K → K) (find : List K → K → ℕ) (nanCase : Trace K → Res (List K))

/-- One step with given tables. -/
theorem step_given (m : SimpleModel K) (p : Str) (ref x : K) (t0 t1 : List (Option K)) (a b : List K)
    (hst : (stretch sqrt m x p ref).2 = .ok (t0, t1)) (ha : allSome t0 = some a) (hb : allSome t1 = some b)
    (tr t : Trace K) (o : K) (ho : tr.getTime "onset" = some o) (hx : tr.getNum "slowness" = some x)
    (hok : (moveoutStep sqrt find nanCase p ref m tr).2 = .ok t) :
    moveoutData find tr o p a b = .ok t.data := by
  unfold moveoutStep at hok
  simp only [ho, hx] at hok
  split at hok
  · simp at hok
  · rcases hr : stretch sqrt m x p ref with ⟨m', r⟩
    rw [hr] at hok hst
    simp only at hst
    subst hst
    simp only [ha, hb] at hok
    cases hd : moveoutData find tr o p a b with
    | error e => simp [hd] at hok
    | ok d =>
      simp only [hd, Except.ok.injEq] at hok
      subst hok
      rfl

theorem step_stretch (m : SimpleModel K) (p : Str) (ref x : K) (tr t : Trace K)
    (hx : tr.getNum "slowness" = some x)
    (hok : (moveoutStep sqrt find nanCase p ref m tr).2 = .ok t) :
    ∃ t0 t1, (stretch sqrt m x p ref).2 = .ok (t0, t1) := by
  unfold moveoutStep at hok
  cases ho : tr.getTime "onset" with
  | none => simp [ho] at hok
  | some o =>
    simp only [ho, hx] at hok
    split at hok
    · simp at hok
    · rcases hr : stretch sqrt m x p ref with ⟨m', r⟩
      rw [hr] at hok
      cases r with
      | error e => simp at hok
      | ok q => exact ⟨q.1, q.2, rfl⟩

theorem getTime_of_get (t : Trace K) (o : K) (h : t.getTime "onset" = some o) :
    t.ext.get "onset" = some (.time o) := by
  unfold Trace.getTime at h
  split at h
  · rename_i y hy
    rw [hy]
    simpa using h
  · simp at h

/-- **C170 (partial).** Traces of the same slowness `x`, the same sampling rate and the same time between start and
onset.  `out` is the stack and `s2` a stream of stacked traces to which the slowness is assigned.  If `s` and `s2` are
both corrected, the corrected stack has the data of the stack of the corrected traces. -/
theorem C170_commutes_partial (m m1 m2 : SimpleModel K) (hfresh : m.tRef = []) (ref x d : K)
    (heasy : EasierThan sqrt m ref x)
    (hfirst : ∀ v, v ∈ m.vp.head? ∨ v ∈ m.vs.head? → vslow sqrt v x ≠ none)
    (info info2 : Str) (phase : Option Str) (h : Heap K) (s : List ℕ) (st1 : SState K) (hn : s.Nodup) (sr : K)
    (hsame : ∀ r ∈ s, (h r).getNum "slowness" = some x ∧ (h r).sr = sr ∧
      ∃ o, (h r).getTime "onset" = some o ∧ o - (h r).start = d)
    (hmove : streamMoveout sqrt find nanCase info phase ref m (h, s) = (m1, st1, none))
    (order order2 : List Str → List Str) (out out1 : List (Trace K))
    (hstack : stack order h s = .ok out) (hstack1 : stack order2 st1.1 st1.2 = .ok out1)
    (h2 : Heap K) (s2 : List ℕ) (st2 : SState K) (hn2 : s2.Nodup)
    (hs2 : ∀ r ∈ s2, ∃ t ∈ out, h2 r = t.put "slowness" (.num x))
    (hmove2 : streamMoveout sqrt find nanCase info2 phase ref m (h2, s2) = (m2, st2, none))
    (r2 : ℕ) (hr2 : r2 ∈ s2) (t1 : Trace K) (ht1 : t1 ∈ out1) (hid : t1.id = (h2 r2).id) :
    (st2.1 r2).data = t1.data ∧ t1.sr = (st2.1 r2).sr ∧ t1.start = (st2.1 r2).start ∧
      t1.getTime "onset" = (st2.1 r2).getTime "onset" := by
  obtain ⟨r0, s', hs, hall⟩ := stack_ok order h s out hstack
  have hr0 : r0 ∈ s := by rw [hs]; simp
  obtain ⟨p, hp, heach⟩ := C118_each_trace sqrt find nanCase info phase ref m m1 hfresh (h, s) st1 hn hmove
  obtain ⟨p2, hp2, heach2⟩ := C118_each_trace sqrt find nanCase info2 phase ref m m2 hfresh (h2, s2) st2 hn2 hmove2
  simp only at hp hp2 heach heach2
  obtain ⟨hrefs, _, -, hb⟩ := C40_bookkeeping sqrt find nanCase info phase ref m m1 (h, s) st1 hn hmove
  obtain ⟨-, _, -, hb2⟩ := C40_bookkeeping sqrt find nanCase info2 phase ref m m2 (h2, s2) st2 hn2 hmove2
  have hids := stream_id sqrt find nanCase info phase ref m m1 hfresh (h, s) st1 hn hmove
  have htimes := stream_times sqrt find nanCase info phase ref m m1 hfresh (h, s) st1 hn hmove
  have htimes2 := stream_times sqrt find nanCase info2 phase ref m m2 hfresh (h2, s2) st2 hn2 hmove2
  simp only at hrefs hids htimes htimes2 hb hb2
  -- the phase is the same
  have hpp : p2 = p := by
    cases phase with
    | some q =>
      simp only [moveoutPhase, Except.ok.injEq] at hp hp2
      rw [← hp, ← hp2]
    | none =>
      have key : ∀ (h : Heap K) (s : List ℕ) (p : Str), moveoutPhase h s none = .ok p →
          ∃ v, uniqueHeader h s "phase" = some v := by
        intro h s p hp
        cases hu : uniqueHeader h s "phase" with
        | none => simp [moveoutPhase, streamMethod, hu] at hp
        | some v => exact ⟨v, rfl⟩
      obtain ⟨v, hv⟩ := key h s p hp
      obtain ⟨v2, hv2⟩ := key h2 s2 p2 hp2
      have hvv : v2 = v := by
        obtain ⟨-, a2⟩ := (uniqueHeader_eq_some h s "phase" v).1 hv
        obtain ⟨⟨q, hq, hq2⟩, -⟩ := (uniqueHeader_eq_some h2 s2 "phase" v2).1 hv2
        obtain ⟨t, ht, he⟩ := hs2 q hq
        obtain ⟨i, hi, hone⟩ := forall2_mem hall ht
        obtain ⟨-, -, -, -, o5, -⟩ := stackOne_ok h s (h r0) t i hone
        rw [he, stackOne_ok.put_get_lite, if_neg (by decide), o5 "phase" (by decide)] at hq2
        exact a2 r0 hr0 v2 hq2
      subst hvv
      have : moveoutPhase h2 s2 none = moveoutPhase h s none := by
        simp only [moveoutPhase, streamMethod, hv, hv2]
      rw [this, hp, Except.ok.injEq] at hp2
      exact hp2.symm
  subst hpp
  -- the tables
  obtain ⟨T, hT, -⟩ := heach r0 hr0
  obtain ⟨T0, T1, hst⟩ := step_stretch sqrt find nanCase m p2 ref x (h r0) T (hsame r0 hr0).1 hT
  obtain ⟨n0, n1⟩ := C31_no_nan_partial sqrt m hfresh x ref p2 heasy hfirst T0 T1 hst
  obtain ⟨a, ha⟩ := allSome_of T0 n0
  obtain ⟨b, hb'⟩ := allSome_of T1 n1
  -- the stacked trace
  obtain ⟨t, ht, he⟩ := hs2 r2 hr2
  obtain ⟨i, hi, hone⟩ := forall2_mem hall ht
  obtain ⟨o1, o2, o3, o4, -, o6, -⟩ := stackOne_ok h s (h r0) t i hone
  subst o1
  obtain ⟨-, hsr0, o, hon0, hd0⟩ := hsame r0 hr0
  have honT := o6 o (getTime_of_get _ _ hon0)
  have hgetO : (h2 r2).getTime "onset" = some (t.start + (o - (h r0).start)) := by
    unfold Trace.getTime
    rw [he, stackOne_ok.put_get_lite, if_neg (by decide), honT]
  have hgetS : (h2 r2).getNum "slowness" = some x := by
    unfold Trace.getNum
    rw [he, stackOne_ok.put_get_lite, if_pos rfl]
  obtain ⟨W, hW, hWd⟩ := heach2 r2 hr2
  have hres := step_given sqrt find nanCase m p2 ref x T0 T1 a b hst ha hb' (h2 r2) W _ hgetO hgetS hW
  rw [← hWd] at hres
  have hdata2 : (h2 r2).data = t.data := by rw [he]; rfl
  have hsr2 : (h2 r2).sr = sr := by rw [he]; exact o3.trans hsr0
  have hstart2 : (h2 r2).start = t.start := by rw [he]; rfl
  have hid2 : (h2 r2).id = t.id := by rw [he]; rfl
  rw [moveoutData_shift find (h2 r2) { h r0 with data := t.data } _ o p2 a b hdata2 (hsr2.trans hsr0.symm)
    (by simp only [hstart2]; ring)] at hres
  obtain ⟨rows', hrows, hmean⟩ := C139_mean find (h r0) o p2 a b _ t.data o4 _ hres
  -- the stack of the corrected traces
  obtain ⟨q0, s1', hs1, hall1⟩ := stack_ok order2 st1.1 st1.2 out1 hstack1
  obtain ⟨i1, hi1, hone1⟩ := forall2_mem hall1 ht1
  obtain ⟨u1, u2, u3, u4, -, u6, -⟩ := stackOne_ok st1.1 st1.2 (st1.1 q0) t1 i1 hone1
  subst u1
  have hq0 : q0 = r0 := by
    rw [hrefs, hs] at hs1
    simpa using (List.cons.inj hs1).1.symm
  subst hq0
  have hfil : st1.2.filter (fun r => decide ((st1.1 r).id = t1.id))
      = s.filter (fun r => decide ((h r).id = t.id)) := by
    rw [hrefs, hid, hid2]
    exact List.filter_congr fun r hr => by rw [hids r hr]
  rw [hfil] at u4
  have hrows' : (s.filter (fun r => decide ((h r).id = t.id))).map (fun r => (st1.1 r).data) = rows' := by
    have : ∀ l : List ℕ, (∀ r ∈ l, r ∈ s) → ∀ rows : List (List K),
        (l.map fun r => (h r).data).map (fun z => moveoutData find { h q0 with data := z } o p2 a b)
          = rows.map .ok → l.map (fun r => (st1.1 r).data) = rows := by
      intro l
      induction l with
      | nil =>
        intro _ rows hr
        cases rows with
        | nil => rfl
        | cons _ _ => simp at hr
      | cons r l ih =>
        intro hl rows hr
        cases rows with
        | nil => simp at hr
        | cons w rows =>
          simp only [List.map_cons, List.cons.injEq] at hr
          rw [List.map_cons, ih (fun q hq => hl q (by simp [hq])) rows hr.2]
          congr 1
          have hrs := hl r (by simp)
          obtain ⟨k1, k2, o', k3, k4⟩ := hsame r hrs
          obtain ⟨V, hV, hVd⟩ := heach r hrs
          have hv := step_given sqrt find nanCase m p2 ref x T0 T1 a b hst ha hb' (h r) V o' k3 k1 hV
          rw [moveoutData_shift find (h r) { h q0 with data := (h r).data } o' o p2 a b rfl
            (k2.trans hsr0.symm) (by simp only; rw [k4, hd0])] at hv
          rw [hv, Except.ok.injEq] at hr
          rw [hVd]
          exact hr.1
    exact this _ (fun r hr => (List.mem_filter.1 hr).1) _ hrows
  rw [hrows', hmean, Except.ok.injEq] at u4
  obtain ⟨-, v1, v2⟩ := htimes q0 hr0
  obtain ⟨-, w1, w2⟩ := htimes2 r2 hr2
  refine ⟨u4, ?_, ?_, ?_⟩
  · rw [u3, v2, w2, hsr2, hsr0]
  · rw [u2, w1, hstart2, o2]
  · have e1 : (st1.1 q0).ext.get "onset" = some (.time o) := by
      rw [(hb q0 hr0).2.2.2.2 "onset" (by decide)]
      exact getTime_of_get _ _ hon0
    have e2 := u6 o e1
    have e3 := (hb2 r2 hr2).2.2.2.2 "onset" (by decide)
    have e4 : (h2 r2).ext.get "onset" = some (.time (t.start + (o - (h q0).start))) := getTime_of_get _ _ hgetO
    unfold Trace.getTime
    rw [e2, e3, e4, u2, o2, v1]

/-- A stacked trace with the slowness of the traces can be corrected if the traces can be corrected and have the same
length. -/
theorem stack_correctable (layers : List (Layer K)) (x d sr : K) (h : Heap K) (s : List ℕ)
    (hcor : ∀ r ∈ s, Correctable layers (h r))
    (hsame : ∀ r ∈ s, (h r).getNum "slowness" = some x ∧ (h r).sr = sr ∧
      ∃ o, (h r).getTime "onset" = some o ∧ o - (h r).start = d)
    (order : List Str → List Str) (out : List (Trace K)) (hstack : stack order h s = .ok out) (t : Trace K)
    (ht : t ∈ out) : Correctable layers (t.put "slowness" (.num x)) := by
  obtain ⟨⟨r, hr, hid⟩, hlen, -, -⟩ := C47_mean order h s out hstack t ht
  obtain ⟨r0, s', hs, hall⟩ := stack_ok order h s out hstack
  obtain ⟨i, hi, hone⟩ := forall2_mem hall ht
  obtain ⟨o1, o2, o3, o4, -, o6, -⟩ := stackOne_ok h s (h r0) t i hone
  have hr0 : r0 ∈ s := by rw [hs]; simp
  obtain ⟨-, hsr0, o, hon0, hd0⟩ := hsame r0 hr0
  obtain ⟨k1, hsr, o', k3, k4⟩ := hsame r hr
  obtain ⟨c0, o'', x', c1, c2, c3, c4, c5, c6⟩ := hcor r hr
  rw [k3, Option.some.injEq] at c1
  subst c1
  rw [k1, Option.some.injEq] at c5
  subst c5
  have honT := o6 o (getTime_of_get _ _ hon0)
  have hl := hlen r hr hid
  have hsrT : t.sr = (h r).sr := o3.trans (hsr0.trans hsr.symm)
  refine ⟨?_, t.start + (o - (h r0).start), x, ?_, ?_, ?_, ?_, ?_, c6⟩
  · show 0 < t.sr
    rw [hsrT]
    exact c0
  · unfold Trace.getTime
    rw [stackOne_ok.put_get_lite, if_neg (by decide), honT]
  · show t.start ≤ _
    rw [hd0, ← k4]
    linarith
  · have : t.endtime = t.start + ((h r).endtime - (h r).start) := by
      unfold Trace.endtime Trace.delta
      rw [hl, hsrT]
      split <;> ring
    show _ ≤ t.endtime
    rw [this, hd0, ← k4]
    linarith
  · have : index0 (t.put "slowness" (.num x)) (t.start + (o - (h r0).start)) = index0 (h r) o' := by
      unfold index0
      show ⌊(t.start + (o - (h r0).start) - t.start) * t.sr⌋ = _
      rw [hsrT, hd0, ← k4]
      congr 1
      ring
    rw [this]
    show _ ≤ ((t.npts : ℕ) : ℤ)
    have hnp : t.npts = (h r).npts := hl.symm
    rw [hnp]
    exact c4
  · unfold Trace.getNum
    rw [stackOne_ok.put_get_lite, if_pos rfl]

end commute

/-! ## Examples -/

/-- Two traces with the same slowness. -/
noncomputable def twinState : SState ℝ :=
  (fun r => if r = 0 then betweenTrace pySlow [0, 0, 0, 3, 5, 0, 0, 0] else betweenTrace pySlow [0, 0, 4, 5, 0, 0, 0, 0],
    [0, 1])

theorem twinState_codes : ∀ r, (twinState.1 r).net = [] ∧ (twinState.1 r).sta = "STA".toList ∧
    (twinState.1 r).loc = [] ∧ (twinState.1 r).cha = ['Q'] ∧ (twinState.1 r).data.length = 8 ∧
    (twinState.1 r).start = 0 ∧ (twinState.1 r).sr = 2 / 7 ∧ (twinState.1 r).getTime "onset" = some 0 ∧
    (twinState.1 r).getNum "slowness" = some pySlow := by
  intro r
  unfold twinState
  simp only []
  split <;> exact ⟨rfl, rfl, rfl, rfl, rfl, rfl, rfl, rfl, rfl⟩

theorem twinState_correctable : ∀ r ∈ twinState.2, Correctable pyLayers (twinState.1 r) := by
  intro r _
  obtain ⟨-, -, -, -, h5, h6, h7, h8, h9⟩ := twinState_codes r
  refine ⟨by rw [h7]; norm_num, 0, pySlow, h8, h6.le, ?_, ?_, h9, pyLayers_prop.1⟩
  · unfold Trace.endtime Trace.delta
    rw [h5, h6, h7]
    norm_num
  · unfold index0 Trace.npts
    rw [h5, h6]
    simp

theorem twinState_runs : ∃ m1 st1 out out1,
    streamMoveout Real.sqrt npFind (fun _ => .error .other) [] (some "Ps".toList) 0 pyModel twinState
      = (m1, st1, none) ∧ stack dedupOrder twinState.1 twinState.2 = .ok out ∧
      stack dedupOrder st1.1 st1.2 = .ok out1 := by
  have hn : twinState.2.Nodup := by simp [twinState]
  have hdot : ∀ r ∈ twinState.2, '.' ∉ (twinState.1 r).net ∧ '.' ∉ (twinState.1 r).sta ∧ '.' ∉ (twinState.1 r).loc ∧
      '.' ∉ (twinState.1 r).cha := fun r _ => by
    obtain ⟨h1, h2, h3, h4, -⟩ := twinState_codes r
    rw [h1, h2, h3, h4]
    decide
  have hl : ∀ r ∈ twinState.2, ∀ q ∈ twinState.2, (twinState.1 r).id = (twinState.1 q).id →
      (twinState.1 r).data.length = (twinState.1 q).data.length := fun r _ q _ _ => by
    rw [(twinState_codes r).2.2.2.2.1, (twinState_codes q).2.2.2.2.1]
  obtain ⟨m', st', out1, hok, hout⟩ := C158_succeeds Real.sqrt npFind (fun _ => .error .other) pyModel pyLayers rfl rfl
    rfl rfl 0 [] (some "Ps".toList) "Ps".toList (by decide) (by decide) (by decide) pyLayers_prop.2
    (by simp [pyLayers]) twinState hn (by simp [twinState]) rfl twinState_correctable hdot hl dedupOrder dedup_setOrder
  obtain ⟨out, ho⟩ := C47_succeeds dedupOrder dedup_setOrder twinState.1 twinState.2 (by simp [twinState]) hdot hl
    (fun r _ => .inr ⟨0, getTime_of_get _ _ (twinState_codes r).2.2.2.2.2.2.2.1⟩)
  exact ⟨m', st', out, out1, hok, ho, hout⟩

/-- **C170 is false of the code.** Two traces of the same slowness can be corrected and stacked; but the correction of
their stack raises an `AttributeError` and leaves the stack as it is. -/
theorem C170_counterexample : ∃ (m m1 : SimpleModel ℝ) (st st1 : SState ℝ) (out out1 : List (Trace ℝ)),
    (∀ r ∈ st.2, (st.1 r).getNum "slowness" = some pySlow) ∧
    streamMoveout Real.sqrt npFind (fun _ => .error .other) [] (some "Ps".toList) 0 m st = (m1, st1, none) ∧
    stack dedupOrder st1.1 st1.2 = .ok out1 ∧ stack dedupOrder st.1 st.2 = .ok out ∧ out ≠ [] ∧
    ∀ (h2 : Heap ℝ) (r : ℕ) (s2 : List ℕ), h2 r ∈ out →
      streamMoveout Real.sqrt npFind (fun _ => .error .other) [] (some "Ps".toList) 0 m (h2, r :: s2)
        = (m, (h2, r :: s2), some .attributeError) := by
  obtain ⟨m1, st1, out, out1, h1, h2, h3⟩ := twinState_runs
  refine ⟨pyModel, m1, twinState, st1, out, out1, fun r _ => (twinState_codes r).2.2.2.2.2.2.2.2, h1, h3, h2, ?_, ?_⟩
  · obtain ⟨-, hi⟩ := C47_one_per_id dedupOrder dedup_setOrder _ _ out h2
    intro hcon
    rw [hcon] at hi
    have := (hi (twinState.1 0).id).2 ⟨0, by simp [twinState], rfl⟩
    simp at this
  · intro g r s2 hr
    obtain ⟨-, o, x, c1, c2, c3, -⟩ := stack_correctable pyLayers pySlow 0 (2 / 7) twinState.1 twinState.2
      twinState_correctable (fun r _ => by
        obtain ⟨-, -, -, -, -, h6, h7, h8, h9⟩ := twinState_codes r
        exact ⟨h9, h7, 0, h8, by rw [h6]; norm_num⟩) dedupOrder out h2 (g r) hr
    refine C170_error Real.sqrt npFind _ dedupOrder _ _ out h2 g r s2 hr o ?_ c2 c3 [] _ 0 pyModel
    unfold Trace.getTime at c1 ⊢
    rw [stackOne_ok.put_get_lite, if_neg (by decide)] at c1
    exact c1

/-- The hypotheses of `C170_commutes_partial` are met by the two traces and their stack with the slowness assigned. -/
example : ∃ m1 m2 st1 st2 out out1,
    streamMoveout Real.sqrt npFind (fun _ => .error .other) [] (some "Ps".toList) 0 pyModel twinState
      = (m1, st1, none) ∧ stack dedupOrder twinState.1 twinState.2 = .ok out ∧
    stack dedupOrder st1.1 st1.2 = .ok out1 ∧
    streamMoveout Real.sqrt npFind (fun _ => .error .other) [] (some "Ps".toList) 0 pyModel
      (fun _ => (out.headD (twinState.1 0)).put "slowness" (.num pySlow), [0]) = (m2, st2, none) ∧
    ∀ t1 ∈ out1, (st2.1 0).data = t1.data := by
  obtain ⟨m1, st1, out, out1, h1, h2, h3⟩ := twinState_runs
  have hsame : ∀ r ∈ twinState.2, (twinState.1 r).getNum "slowness" = some pySlow ∧ (twinState.1 r).sr = 2 / 7 ∧
      ∃ o, (twinState.1 r).getTime "onset" = some o ∧ o - (twinState.1 r).start = 0 := fun r _ => by
    obtain ⟨-, -, -, -, -, h6, h7, h8, h9⟩ := twinState_codes r
    exact ⟨h9, h7, 0, h8, by rw [h6]; norm_num⟩
  have hidT : ∀ r, (twinState.1 r).id = ".STA..Q".toList := by
    intro r
    unfold twinState
    simp only []
    split <;> rfl
  obtain ⟨-, hi⟩ := C47_one_per_id dedupOrder dedup_setOrder _ _ out h2
  have hmem : ∃ t l, out = t :: l := by
    cases out with
    | nil =>
      have := (hi (twinState.1 0).id).2 ⟨0, by simp [twinState], rfl⟩
      simp at this
    | cons t l => exact ⟨t, l, rfl⟩
  obtain ⟨t, l, rfl⟩ := hmem
  have hcorr := stack_correctable pyLayers pySlow 0 (2 / 7) twinState.1 twinState.2 twinState_correctable hsame
    dedupOrder _ h2 t (by simp)
  obtain ⟨m2, st2, h4⟩ := C118_succeeds Real.sqrt npFind (fun _ => .error .other) [] (some "Ps".toList) "Ps".toList 0
    pyModel pyModel pyLayers rfl rfl rfl rfl ⟨rfl, fun t ht => by simp [pyModel, lookupRef] at ht⟩
    (fun _ => ((t :: l).headD (twinState.1 0)).put "slowness" (.num pySlow), [0]) (by simp) rfl (by decide) (by decide)
    (by decide) pyLayers_prop.2 (by simp [pyLayers]) (fun r _ => hcorr)
  refine ⟨m1, m2, st1, st2, t :: l, out1, h1, h2, h3, h4, fun t1 ht1 => ?_⟩
  refine (C170_commutes_partial Real.sqrt npFind (fun _ => .error .other) pyModel m1 m2 rfl 0 pySlow 0
    (easier_of_sq_le Real.sqrt pyModel 0 pySlow (by nlinarith [sq_nonneg pySlow])) ?_ [] [] (some "Ps".toList) twinState.1 twinState.2 st1
    (by simp [twinState]) (2 / 7) hsame h1 dedupOrder dedupOrder (t :: l) out1 h2 h3 _ [0] st2 (by simp)
    (fun r _ => ⟨t, by simp, rfl⟩) h4 0 (by simp) t1 ht1 ?_).1
  · have hp := pyLayers_prop.1
    intro v hv hcon
    have hv' : ∃ l ∈ pyLayers, v = l.vp ∨ v = l.vs := by
      rcases hv with hv | hv
      · have : v ∈ pyModel.vp := List.mem_of_mem_head? hv
        obtain ⟨l, hl, rfl⟩ := List.mem_map.1 (show v ∈ pyLayers.map Layer.vp from this)
        exact ⟨l, hl, .inl rfl⟩
      · have : v ∈ pyModel.vs := List.mem_of_mem_head? hv
        obtain ⟨l, hl, rfl⟩ := List.mem_map.1 (show v ∈ pyLayers.map Layer.vs from this)
        exact ⟨l, hl, .inr rfl⟩
    obtain ⟨l, hl, hv⟩ := hv'
    obtain ⟨a1, a2⟩ := hp l hl
    unfold vslow at hcon
    by_cases hneg : v⁻¹ ^ 2 - (pySlow / deg2km) ^ 2 < 0
    · unfold deg2km at hneg
      rcases hv with rfl | rfl
      · rw [inv_pow, ← one_div] at hneg; linarith
      · rw [inv_pow, ← one_div] at hneg; linarith
    · rw [if_neg hneg] at hcon
      simp at hcon
  · obtain ⟨-, hi1⟩ := C47_one_per_id dedupOrder dedup_setOrder _ _ out1 h3
    obtain ⟨r, hr, e⟩ := (hi1 t1.id).1 (List.mem_map.2 ⟨t1, ht1, rfl⟩)
    have hrefs := (C40_bookkeeping Real.sqrt npFind _ [] _ 0 pyModel m1 twinState st1 (by simp [twinState]) h1).1
    rw [hrefs] at hr
    rw [← e, stream_id Real.sqrt npFind _ [] _ 0 pyModel m1 rfl twinState st1 (by simp [twinState]) h1 r hr, hidT]
    obtain ⟨q, hq, e2⟩ := (hi t.id).1 (by simp)
    show _ = t.id
    rw [← e2, hidT]

end Verif.Props
