import Verif.Props.BatchChain
import Verif.Props.Pipeline
import Verif.Props.FailRf

/-!
# C196: receiver functions and move out correction keep the event, station and ray of a trace
-/

set_option linter.unusedSimpArgs false
set_option linter.unusedSectionVars false

namespace Verif.Spec
open Verif.Py Verif.Model

/-- The trace is of the same station, location and network and has the same header entries, with the exception of those
with keys in `ks`. -/
structure SameSource {K : Type} (ks : List String) (t t' : Trace K) : Prop where
  net : t'.net = t.net
  sta : t'.sta = t.sta
  loc : t'.loc = t.loc
  ext : ∀ k, k ∉ ks → t'.ext.get k = t.ext.get k

end Verif.Spec

namespace Verif.Props
open Verif.Py Verif.Spec Verif.Model Verif.Model.Batch

section inv
variable {K α : Type} [Field K] [LinearOrder K] [IsStrictOrderedRing K] [FloorRing K]

/-- The step keeps an attribute of all traces, also if it fails. -/
def InvStep (f : Trace K → α) (F : SState K → SRes K) : Prop := ∀ st r, f ((F st).1.1 r) = f (st.1 r)

/-- ObsPy's functions keep an attribute of the traces. -/
structure KeepsAttr (f : Trace K → α) (env : RfEnv K) : Prop where
  filter : ∀ t t', env.filter t = .ok t' → f t' = f t
  trim : ∀ t a b t', env.trim t a b = .ok t' → f t' = f t
  decimate : ∀ n t t', env.decimate n t = .ok t' → f t' = f t
  rotate : ∀ m h g r, f ((env.rotate m h g).1 r) = f (h r)
  trimPad : ∀ t x y, f (env.dec.trimPad t x y) = f t
  taper : ∀ t x, f (env.dec.taper t x) = f t

theorem invStep_andThen (f : Trace K → α) (F G : SState K → SRes K) (hF : InvStep f F) (hG : InvStep f G) :
    InvStep f (fun st => (F st).andThen G) := by
  intro st r
  have h1 := hF st r
  show f (((F st).andThen G).1.1 r) = _
  generalize F st = x at h1
  obtain ⟨st1, e⟩ := x
  cases e with
  | some e => exact h1
  | none => exact (hG st1 r).trans h1

theorem invStep_id (f : Trace K → α) : InvStep f fun st => (st, none) := fun _ _ => rfl

theorem addInfo_attr (f : Trace K → α) (hp : ∀ x t, f (t.put "processing" x) = f t) (info : Str) (t t' : Trace K)
    (h : addInfo info t = .ok t') : f t' = f t := by
  unfold addInfo at h
  split at h
  · cases h; exact hp _ _
  · cases h
    split
    · exact hp _ _
    · rfl
  · cases h

theorem forEach_attr (f : Trace K → α) (g : Trace K → Trace K) (hg : ∀ t, f (g t) = f t) (h : Heap K) (s : List Nat) (r : Nat) :
    f (Heap.forEach g h s r) = f (h r) := by
  induction s generalizing h with
  | nil => rfl
  | cons a s ih =>
    unfold Heap.forEach
    refine (ih _).trans ?_
    simp only
    by_cases hr : r = a
    · subst hr; rw [Heap.set_self]; exact hg _
    · rw [Heap.set_ne _ _ hr]

theorem mirrorLoop_attr (f : Trace K → α) (f1 : ∀ (d : List K) t, f { t with data := d } = f t)
    (f2 : ∀ x t, f (t.put "onset" x) = f t) (h : Heap K) (s : List Nat) (r : Nat) :
    f ((mirrorLoop h s).1 r) = f (h r) := by
  induction s generalizing h with
  | nil => rfl
  | cons a s ih =>
    unfold mirrorLoop
    cases (h a).getTime "onset" with
    | none =>
      simp only
      by_cases hr : r = a
      · subst hr; rw [Heap.set_self]; exact f1 _ _
      · rw [Heap.set_ne _ _ hr]
    | some o =>
      simp only
      rw [ih]
      by_cases hr : r = a
      · subst hr
        rw [Heap.set_self]
        unfold mirrorTrace
        rw [f2, f1]
      · rw [Heap.set_ne _ _ hr]

/-- What `rf` does before the labels are set keeps every attribute of all traces which is none of the samples, onset, processing
steps and number of iterations, and which ObsPy's functions keep; also if it fails. -/
theorem rfBefore_attr (f : Trace K → α) (f1 : ∀ (d : List K) t, f { t with data := d } = f t)
    (f2 : ∀ k ∈ ["onset", "iterations", "processing"], ∀ x t, f (t.put k x) = f t)
    (env : RfEnv K) (hk : KeepsAttr f env) (a : RfArgs K) (hfunc : a.deconvolve ≠ some "func".toList) (m : Str) :
    InvStep f fun st => (rfBefore env a m st).andThen (mirrorStage m) := by
  have hinfo : ∀ info (h : Heap K) s r, f (addInfoAll info h s r) = f (h r) := fun info h s r =>
    forEachE_inv f _ (fun t t' => addInfo_attr f (f2 _ (by decide)) info t t') h s r
  have htr : ∀ g : Trace K → Res (Trace K), (∀ t t', g t = .ok t' → f t' = f t) → InvStep f (forTraces g) :=
    fun g hg st r => forEachE_inv f g hg st.1 st.2 r
  have hgr : ∀ g : Heap K → List Nat → Heap K × Option PyErr, (∀ h gr r, f ((g h gr).1 r) = f (h r)) →
      InvStep f (forGroups env.timeStr g) := by
    intro g hg st r
    unfold forGroups
    cases iter3c env.timeStr st.1 st.2 with
    | error e => rfl
    | ok gs => exact groupBody_inv f g hg st.1 gs r
  have s1 : InvStep f (filterStage env a) := by
    intro st r
    unfold filterStage
    split
    · exact htr _ hk.filter st r
    · rfl
  have s2 : InvStep f (trimStage env a) := by
    intro st r
    unfold trimStage
    split
    · rename_i x y _
      have := forEachE_inv f (cutTrace env.trim x y (.key "onset")) (fun t t' h => by
        unfold cutTrace at h
        split at h
        · cases h
        · split at h
          · cases h
          · exact hk.trim _ _ _ _ h) st.1 st.2 r
      unfold trim2
      generalize Heap.forEachE (cutTrace env.trim x y (.key "onset")) st.1 st.2 = w at this
      obtain ⟨w, e⟩ := w
      cases e <;> exact this
    · rfl
  have s3 : InvStep f (decimateStage env a) := by
    intro st r
    unfold decimateStage
    split
    · refine htr _ (fun t t' h => ?_) st r
      unfold decimateTrace at h
      split at h
      · exact hk.decimate _ _ _ h
      · cases h; rfl
    · rfl
  have s4 : InvStep f (rotateStage env a) := by
    intro st r
    unfold rotateStage
    split
    · exact hgr _ (hk.rotate _) st r
    · rfl
  have s5 : InvStep f (qStage (K := K)) := by
    intro st r
    refine forEach_attr f negQ (fun t => ?_) st.1 st.2 r
    unfold negQ
    split
    · exact f1 _ _
    · rfl
  have s6 : ∀ m, InvStep f (deconvolveStage env a m) := by
    intro m st r
    unfold deconvolveStage
    split
    · rename_i d hd
      refine hgr _ (fun h g r => ?_) st r
      have hm : (rfDeconvArgs a m d).method ≠ "func".toList := fun h' => hfunc (by rw [hd]; exact congrArg some h')
      have := deconvolve_inv f f1 (f2 _ (by decide)) (f2 _ (by decide)) env.dec hk.trimPad hk.taper
        (rfDeconvArgs a m d) hm h g r
      unfold deconvolveCall
      generalize deconvolve env.dec h g (rfDeconvArgs a m d) = w at this
      obtain ⟨w, e⟩ := w
      cases e with
      | error e => exact this
      | ok rsp => exact (hinfo _ _ _ _).trans this
    · rfl
  have s7 : ∀ m, InvStep f (mirrorStage (K := K) m) := by
    intro m st r
    unfold mirrorStage
    split
    · exact mirrorLoop_attr f f1 (f2 _ (by decide)) st.1 st.2 r
    · rfl
  have sp : InvStep f (rfPrep env a) :=
    invStep_andThen f _ _ (invStep_andThen f _ _ (invStep_andThen f _ _ s1 s2) s3) s4
  exact invStep_andThen f _ _
    (invStep_andThen f (fun st => (rfPrep env a st).andThen qStage) _ (invStep_andThen f _ _ sp s5) (s6 m)) (s7 m)

/-- `rf` keeps every attribute of all traces which is none of the samples, onset, type, phase, processing steps and
number of iterations, and which ObsPy's functions keep; also if it fails. -/
theorem rf_attr (f : Trace K → α) (f1 : ∀ (d : List K) t, f { t with data := d } = f t)
    (f2 : ∀ k ∈ ["onset", "iterations", "type", "phase", "processing"], ∀ x t, f (t.put k x) = f t)
    (env : RfEnv K) (hk : KeepsAttr f env) (a : RfArgs K) (hfunc : a.deconvolve ≠ some "func".toList) :
    InvStep f (rf env a) := by
  have hinfo : ∀ info (h : Heap K) s r, f (addInfoAll info h s r) = f (h r) := fun info h s r =>
    forEachE_inv f _ (fun t t' => addInfo_attr f (f2 _ (by decide)) info t t') h s r
  have s8 : ∀ m, InvStep f (labelStage (K := K) m) := by
    intro m st r
    have ht : ∀ r, f (setType "rf".toList st.1 st.2 r) = f (st.1 r) := fun r =>
      forEach_attr f _ (fun t => f2 _ (by decide) _ t) st.1 st.2 r
    unfold labelStage
    simp only
    cases streamMethod (setType "rf".toList st.1 st.2) st.2 with
    | error e => exact ht r
    | ok m' =>
      simp only
      split
      · exact (forEach_attr f _ (fun t => f2 _ (by decide) _ t) _ st.2 r).trans (ht r)
      · exact ht r
  have sb : InvStep f (rfBody env a) := by
    intro st r
    unfold rfBody
    cases rfMethod st.1 st.2 a.method with
    | error e => rfl
    | ok m =>
      exact invStep_andThen f (fun st => (rfBefore env a m st).andThen (mirrorStage m)) _ (rfBefore_attr f f1
        (fun k hk => f2 k (by simp only [List.mem_cons, List.not_mem_nil, or_false] at hk ⊢; tauto)) env hk a hfunc m) (s8 m) st r
  exact invStep_andThen f _ (fun st' => ((addInfoAll env.infoRf st'.1 st'.2, st'.2), none)) sb
    (fun st r => hinfo _ _ _ _)

/-- `moveout` keeps every attribute of all traces which is none of the samples, move out phase, slownesses and processing
steps; also if it fails. -/
theorem streamMoveout_attr (f : Trace K → α) (f1 : ∀ (d : List K) t, f { t with data := d } = f t)
    (f2 : ∀ k ∈ ["moveout", "slowness", "slowness_before_moveout", "processing"], ∀ x t, f (t.put k x) = f t)
    (sqrt : K → K) (find : List K → K → Nat) (nanCase : Trace K → Res (List K)) (info : Str) (phase : Option Str) (ref : K)
    (m : Simple.SimpleModel K) : InvStep f fun st => (streamMoveout sqrt find nanCase info phase ref m st).2 := by
  have hstep : ∀ p (m m' : Simple.SimpleModel K) (t t' : Trace K),
      Simple.moveoutStep sqrt find nanCase p ref m t = (m', .ok t') → f t' = f t := by
    intro p m m' t t' h
    unfold Simple.moveoutStep at h
    split at h
    · simp at h
    · split at h
      · simp at h
      · split at h
        · simp at h
        · split at h
          · simp at h
          · simp only at h
            split at h
            · simp at h
            · simp only [Prod.mk.injEq, Except.ok.injEq] at h
              rw [← h.2]
              exact f1 _ _
  have hmo : ∀ p (s : List Nat) (m : Simple.SimpleModel K) (h : Heap K) r,
      f ((Simple.moveout sqrt find nanCase p ref m h s).2.1 r) = f (h r) := by
    intro p s
    induction s with
    | nil => intro m h r; rfl
    | cons q s ih =>
      intro m h r
      unfold Simple.moveout
      cases hq : Simple.moveoutStep sqrt find nanCase p ref m (h q) with
      | mk m' x =>
        cases x with
        | error e => rfl
        | ok t =>
          simp only
          rw [ih]
          by_cases hr : r = q
          · subst hr; rw [Heap.set_self]; exact hstep p m m' _ _ hq
          · rw [Heap.set_ne _ _ hr]
  have hlab : ∀ p (t t' : Trace K), moveoutLabel p ref t = .ok t' → f t' = f t := by
    intro p t t' h
    unfold moveoutLabel at h
    split at h
    · cases h
    · cases h
      rw [f2 _ (by decide), f2 _ (by decide), f2 _ (by decide)]
  intro st r
  simp only
  unfold streamMoveout
  cases moveoutPhase st.1 st.2 phase with
  | error e => rfl
  | ok p =>
    simp only
    have h1 := hmo p st.2 m st.1 r
    generalize Simple.moveout sqrt find nanCase p ref m st.1 st.2 = w at h1
    obtain ⟨m', h, e⟩ := w
    cases e with
    | some e => exact h1
    | none =>
      simp only
      have h2 := forEachE_inv f _ (hlab p) h st.2 r
      generalize Heap.forEachE (moveoutLabel p ref) h st.2 = w at h2
      obtain ⟨h', e⟩ := w
      cases e with
      | some e => exact h2.trans h1
      | none =>
        simp only
        exact (forEachE_inv f _ (fun t t' => addInfo_attr f (f2 _ (by decide)) info t t') h' st.2 r).trans (h2.trans h1)

end inv

section codes
variable {K : Type} [Field K] [LinearOrder K] [IsStrictOrderedRing K] [FloorRing K]

/-- Codes of the station and one header entry. -/
def sourceAttr (k : String) (t : Trace K) : Str × Str × Str × Option (Val K) := (t.net, t.sta, t.loc, t.ext.get k)

theorem sourceAttr_put (k k' : String) (hk : k ≠ k') (x : Val K) (t : Trace K) :
    sourceAttr k (t.put k' x) = sourceAttr k t := by
  unfold sourceAttr
  rw [put_get, if_neg hk]
  rfl

/-- ObsPy's filter, trim, decimate, rotate and taper keep the codes of the station and all header entries with the
exception of the list of processing steps. -/
def KeepsSource (env : RfEnv K) : Prop := ∀ k, k ≠ "processing" → KeepsAttr (sourceAttr k) env

theorem sameSource_of {ks : List String} {t t' : Trace K} (k0 : String) (h0 : k0 ∉ ks)
    (h : ∀ k, k ∉ ks → sourceAttr k t' = sourceAttr k t) : SameSource ks t t' := by
  have := h k0 h0
  unfold sourceAttr at this
  simp only [Prod.mk.injEq] at this
  refine ⟨this.1, this.2.1, this.2.2.1, fun k hk => ?_⟩
  have := h k hk
  unfold sourceAttr at this
  simp only [Prod.mk.injEq] at this
  exact this.2.2.2

/-- **C196** `rf` with a deconvolution method of the package (or none) leaves the codes of the station and all header
entries of event, station and ray as they are, for all traces and also if it fails. -/
theorem C196_rf (env : RfEnv K) (hk : KeepsSource env) (a : RfArgs K) (hfunc : a.deconvolve ≠ some "func".toList)
    (st : SState K) (r : Nat) :
    SameSource ["onset", "iterations", "type", "phase", "processing"] (st.1 r) ((rf env a st).1.1 r) ∧
    (rf env a st).1.2.Sublist st.2 := by
  constructor
  · refine sameSource_of "event_time" (by decide) fun k hks => ?_
    refine rf_attr (sourceAttr k) (fun _ _ => rfl) (fun k' hk' x t => sourceAttr_put k k' ?_ x t) env (hk k ?_) a hfunc st r
    · rintro rfl; exact hks hk'
    · rintro rfl; exact hks (by decide)
  · unfold rf
    rw [andThen_traces _ _ (fun st => rfl)]
    unfold rfBody
    cases rfMethod st.1 st.2 a.method with
    | error e => exact List.Sublist.refl _
    | ok m =>
      simp only
      rw [andThen_traces _ _ (labelStage_traces m), andThen_traces _ _ (mirrorStage_traces m)]
      exact rfBefore_sublist env a m st

/-- **C196** Without trimming all traces remain in the stream. -/
theorem C196_untrimmed (env : RfEnv K) (a : RfArgs K) (ht : a.trim = none) (st : SState K) :
    (rf env a st).1.2 = st.2 := by
  unfold rf
  rw [andThen_traces _ _ (fun st => rfl)]
  unfold rfBody
  cases rfMethod st.1 st.2 a.method with
  | error e => rfl
  | ok m =>
    simp only
    rw [andThen_traces _ _ (labelStage_traces m), andThen_traces _ _ (mirrorStage_traces m)]
    unfold rfBefore rfPrep
    rw [andThen_traces _ _ (deconvolveStage_traces env a m), andThen_traces _ qStage (fun st => rfl),
      andThen_traces _ _ (rotateStage_traces env a), andThen_traces _ _ (decimateStage_traces env a),
      andThen_traces _ (trimStage env a) (fun st => by unfold trimStage; rw [ht]), filterStage_traces]

/-- **C196** `moveout` leaves the codes, times and all header entries of event and station as they are, for all traces
and also if it fails. -/
theorem C196_moveout (sqrt : K → K) (find : List K → K → Nat) (nanCase : Trace K → Res (List K)) (info : Str)
    (phase : Option Str) (ref : K) (m : Simple.SimpleModel K) (st : SState K) (r : Nat) :
    SameSource ["moveout", "slowness", "slowness_before_moveout", "processing"] (st.1 r)
      ((streamMoveout sqrt find nanCase info phase ref m st).2.1.1 r) ∧
    ((streamMoveout sqrt find nanCase info phase ref m st).2.1.1 r).cha = (st.1 r).cha ∧
    ((streamMoveout sqrt find nanCase info phase ref m st).2.1.1 r).start = (st.1 r).start ∧
    ((streamMoveout sqrt find nanCase info phase ref m st).2.1.1 r).sr = (st.1 r).sr ∧
    (streamMoveout sqrt find nanCase info phase ref m st).2.1.2 = st.2 := by
  refine ⟨sameSource_of "event_time" (by decide) fun k hks => ?_, ?_, ?_, ?_, ?_⟩
  · exact streamMoveout_attr (sourceAttr k) (fun _ _ => rfl) (fun k' hk' x t => sourceAttr_put k k' (by
      rintro rfl; exact hks hk') x t) sqrt find nanCase info phase ref m st r
  · exact streamMoveout_attr (fun t => t.cha) (fun _ _ => rfl) (fun _ _ _ _ => rfl) sqrt find nanCase info phase ref m st r
  · exact streamMoveout_attr (fun t => t.start) (fun _ _ => rfl) (fun _ _ _ _ => rfl) sqrt find nanCase info phase ref m st r
  · exact streamMoveout_attr (fun t => t.sr) (fun _ _ => rfl) (fun _ _ _ _ => rfl) sqrt find nanCase info phase ref m st r
  · unfold streamMoveout
    split
    · rfl
    · split
      · rfl
      · split <;> rfl

/-- All traces of the stream are of the event and station. -/
def AllBelong (cal : K → DateTime) (m : EventIter.Meta K) (st : Heap K × List Nat) : Prop :=
  ∀ r ∈ st.2, (st.1 r).net = m.network ∧ (st.1 r).sta = m.station ∧ (st.1 r).loc = m.location ∧
    ∃ u t, (st.1 r).getTime "event_time" = some u ∧ m.eventTime = some t ∧ cal u = cal t

/-- A step which keeps the codes and the event time of the traces and adds no traces. -/
def KeepsPair (F : Heap K × List Nat → (Heap K × List Nat) × Option PyErr) : Prop :=
  ∀ st, (∀ r, sourceAttr "event_time" ((F st).1.1 r) = sourceAttr "event_time" (st.1 r)) ∧ ∀ r ∈ (F st).1.2, r ∈ st.2

theorem C196_pair (env : RfEnv K) (hk : KeepsSource env) (a : RfArgs K) (hfunc : a.deconvolve ≠ some "func".toList)
    (sqrt : K → K) (find : List K → K → Nat) (nanCase : Trace K → Res (List K)) (info : Str)
    (phase : Option Str) (ref : K) (m : Simple.SimpleModel K) :
    KeepsPair (rf env a) ∧ KeepsPair fun st => (streamMoveout sqrt find nanCase info phase ref m st).2 := by
  have aux : ∀ {ks : List String} {t t' : Trace K}, SameSource ks t t' → "event_time" ∉ ks →
      sourceAttr "event_time" t' = sourceAttr "event_time" t := by
    intro ks t t' h hks
    unfold sourceAttr
    rw [h.net, h.sta, h.loc, h.ext _ hks]
  refine ⟨fun st => ⟨fun r => aux (C196_rf env hk a hfunc st r).1 (by decide), fun r hr =>
    (C196_rf env hk a hfunc st r).2.subset hr⟩, fun st => ⟨fun r => aux
      (C196_moveout sqrt find nanCase info phase ref m st r).1 (by decide), fun r hr => ?_⟩⟩
  have := (C196_moveout sqrt find nanCase info phase ref m st r).2.2.2.2
  rw [this] at hr
  exact hr

theorem keepsPair_belong (cal : K → DateTime) (m : EventIter.Meta K) (F : Heap K × List Nat → (Heap K × List Nat) × Option PyErr)
    (hF : KeepsPair F) (st x : Heap K × List Nat) (h : AllBelong cal m st) (hx : asOp F st = .ok x) : AllBelong cal m x := by
  obtain ⟨h1, h2⟩ := hF st
  have hx' : (F st).1 = x := by
    unfold asOp at hx
    split at hx
    · rename_i st' e
      cases hx; rw [e]
    · cases hx
  rw [hx'] at h1 h2
  intro r hr
  obtain ⟨b1, b2, b3, u, t, b4, b5⟩ := h r (h2 r hr)
  have := h1 r
  unfold sourceAttr at this
  simp only [Prod.mk.injEq] at this
  refine ⟨this.1.trans b1, this.2.1.trans b2, this.2.2.1.trans b3, u, t, ?_, b5⟩
  rw [← b4]
  exact getTime_congr this.2.2.2

/-- **C196** The commands of the program keep the pair of event and station of a stream. -/
theorem C196_commands {W : Type} (rfOf moveoutOf : Dict (Leaf K) → Heap K × List Nat → (Heap K × List Nat) × Option PyErr)
    (out : Heap K × List Nat → W → W × Option PyErr) (hrf : ∀ d, KeepsPair (rfOf d)) (hmo : ∀ d, KeepsPair (moveoutOf d))
    (kw : Dict (Value K)) (cal : K → DateTime) (m : EventIter.Meta K) (commands : List Str) :
    ∀ st x : Heap K × List Nat, AllBelong cal m st → applyCommands (rfOps rfOf moveoutOf out) kw commands st = .ok x →
      AllBelong cal m x := by
  induction commands with
  | nil =>
    intro st x h hx
    cases hx; exact h
  | cons c cs ih =>
    intro st x h hx
    unfold applyCommands at hx
    rw [List.foldlM_cons] at hx
    cases hc : applyCommand (rfOps rfOf moveoutOf out) kw st c with
    | error e => rw [hc] at hx; cases hx
    | ok y =>
      rw [hc] at hx
      refine ih y x ?_ hx
      unfold applyCommand at hc
      split at hc
      · cases hc; exact h
      · split at hc
        · split at hc
          · cases hc
          · exact keepsPair_belong cal m _ (hrf _) st y h hc
        · split at hc
          · split at hc
            · cases hc
            · exact keepsPair_belong cal m _ (hmo _) st y h hc
          · cases hc

/-- **C195** Commands in one call and in separate calls, for commands which keep the event and station of the traces: the
records have to be of their event and station, and the commands must not leave an empty stream. -/
theorem C195_records {W : Type} (rfOf moveoutOf : Dict (Leaf K) → Heap K × List Nat → (Heap K × List Nat) × Option PyErr)
    (out : Heap K × List Nat → W → W × Option PyErr) (hrf : ∀ d, KeptStep (· ∈ Headers.headers) (rfOf d))
    (hmo : ∀ d, KeptStep (· ∈ Headers.headers) (moveoutOf d)) (krf : ∀ d, KeepsPair (rfOf d))
    (kmo : ∀ d, KeepsPair (moveoutOf d)) (kw : Dict (Value K)) (c1 c2 : List Str) (cal : K → DateTime)
    (p1 p2 : Str) (data : EventIter.Meta K → Option (Heap K × List Nat)) (w : Files (Heap K × List Nat)) (ms : List (EventIter.Meta K))
    (hreg : ∀ m ∈ ms, Regular cal m)
    (hdist : ms.Pairwise fun m m' => ¬ (m.network = m'.network ∧ m.station = m'.station ∧ m.location = m'.location ∧
      m.eventTime.map cal = m'.eventTime.map cal))
    (hdata : ∀ m ∈ ms, ∀ s, data m = some s → AllBelong cal m s)
    (hne : ∀ m ∈ ms, ∀ s x c, data m = some s → (c = c1 ∨ c = c1 ++ c2) →
      applyCommands (rfOps rfOf moveoutOf out) kw c s = .ok x → x.2 ≠ [])
    (hclean : ∀ m ∈ ms, data m = none → w (pairFile cal p1 m) = none) :
    ((runData (rfOps rfOf moveoutOf out) kw data (qFiles cal p2) (c1 ++ c2) w ms).2 = none ↔
      (runData (rfOps rfOf moveoutOf out) kw data (qFiles cal p1) c1 w ms).2 = none ∧
      (runFiles (rfOps rfOf moveoutOf out) kw (pairFile cal p1) (qFiles cal p2) c2
        (runData (rfOps rfOf moveoutOf out) kw data (qFiles cal p1) c1 w ms).1 ms).2 = none) ∧
    ((runData (rfOps rfOf moveoutOf out) kw data (qFiles cal p2) (c1 ++ c2) w ms).2 = none →
      ∀ n, p1 = p2 ∨ (∀ m ∈ ms, n ≠ pairFile cal p1 m) →
        (runFiles (rfOps rfOf moveoutOf out) kw (pairFile cal p1) (qFiles cal p2) c2
          (runData (rfOps rfOf moveoutOf out) kw data (qFiles cal p1) c1 w ms).1 ms).1 n
          = (runData (rfOps rfOf moveoutOf out) kw data (qFiles cal p2) (c1 ++ c2) w ms).1 n) := by
  have key : ∀ m ∈ ms, ∀ s x c, data m = some s → (c = c1 ∨ c = c1 ++ c2) →
      applyCommands (rfOps rfOf moveoutOf out) kw c s = .ok x → Belongs cal m x := by
    intro m hm s x c hs hc hx
    have hb := C196_commands rfOf moveoutOf out krf kmo kw cal m c s x (hdata m hm s hs) hx
    have hn := hne m hm s x c hs hc hx
    obtain ⟨h, l⟩ := x
    cases l with
    | nil => exact absurd rfl hn
    | cons r l =>
      obtain ⟨b1, b2, b3, u, t, b4, b5, b6⟩ := hb r List.mem_cons_self
      exact ⟨r, l, u, t, rfl, b1, b2, b3, b4, b5, b6⟩
  exact C195_files rfOf moveoutOf out hrf hmo kw c1 c2 cal p1 p2 data w ms hreg hdist
    (fun m hm s x hs hx => key m hm s x c1 hs (.inl rfl) hx)
    (fun m hm s x hs hx => key m hm s x (c1 ++ c2) hs (.inr rfl) hx) hclean

end codes

section examples

/-- The functions of the examples keep codes and header entries. -/
theorem iEnv_source : KeepsSource iEnv := by
  intro k hk
  constructor
  · intro t t' h; cases h; rfl
  · intro t a b t' h; cases h; rfl
  · intro n t t' h; cases h; rfl
  · intro m h g r; rfl
  · intro t x y; rfl
  · intro t x; rfl

/-- The record of the example of C195 keeps its station and event time; onset, type and samples are new. -/
example : ∀ h s, exData ⟨"N".toList, "A".toList, [], "BH?".toList, some 1⟩ = some (h, s) →
    SameSource ["onset", "iterations", "type", "phase", "processing"] (h 1)
      ((rf iEnv { method := some "S".toList, srcComps := some "LZ".toList } (h, s)).1.1 1) :=
  fun h s _ => (C196_rf iEnv iEnv_source _ (by decide) (h, s) 1).1

example : ((exData ⟨"N".toList, "A".toList, [], "BH?".toList, some 1⟩).map fun st =>
      let x := rf iEnv { method := some "S".toList, srcComps := some "LZ".toList } st
      ((x.1.1 1).sta, (x.1.1 1).getTime "event_time", (x.1.1 1).ext.get "type", decide ((x.1.1 1).data = (st.1 1).data)))
    = some ("A".toList, some 1, some (.str "rf".toList), false) := by
  decide +kernel

end examples

end Verif.Props
