import Verif.Model.Keywords
import Verif.Props.StreamDec

/-!
# C183: keywords which the deconvolution does not know
-/

set_option linter.unusedSimpArgs false
set_option linter.unusedSectionVars false

namespace Verif.Props
open Verif.Py Verif.Model Verif.Model.Keywords

section
variable {K : Type} [Field K] [LinearOrder K] [FloorRing K]

theorem runKernel_accepted (kw : List String) (env : DeconvEnv K) (m : DMethod) (hk : accepts m kw = true) (h : Heap K)
    (s rsp : List Nat) (rspComps : Option Str) (srcT : Trace K) (sr tshift : K) (nrm : Option Norm) :
    runKernel (withKeywords kw env) m h s rsp rspComps srcT sr tshift nrm =
      runKernel env m h s rsp rspComps srcT sr tshift nrm := by
  cases m <;> simp [runKernel, withKeywords, hk]

theorem runKernel_refused (kw : List String) (env : DeconvEnv K) (m : DMethod) (hk : accepts m kw = false) (h : Heap K)
    (s rsp : List Nat) (rspComps : Option Str) (srcT : Trace K) (sr tshift : K) (nrm : Option Norm) :
    ∃ e, runKernel (withKeywords kw env) m h s rsp rspComps srcT sr tshift nrm = (h, .error e) ∧
      (e = .typeError ∨ (m = .multitaper ∧ env.noise h s rsp rspComps = .error e)) := by
  cases m with
  | func => exact absurd hk (by simp [accepts, kernelKeywords])
  | time => exact ⟨.typeError, by simp [runKernel, withKeywords, hk, finish, Except.map], .inl rfl⟩
  | waterlevel => exact ⟨.typeError, by simp [runKernel, withKeywords, hk, finish, Except.map], .inl rfl⟩
  | iterative => exact ⟨.typeError, by simp [runKernel, withKeywords, hk, finish, Except.map], .inl rfl⟩
  | multitaper =>
    cases hn : env.noise h s rsp rspComps with
    | error e => exact ⟨e, by simp [runKernel, withKeywords, hk, finish, Except.map, Except.bind, hn], .inr ⟨rfl, rfl⟩⟩
    | ok nse =>
      exact ⟨.typeError, by simp [runKernel, withKeywords, hk, finish, Except.map, Except.bind, hn], .inl rfl⟩

theorem deconvSelect_name (h : Heap K) (s : List Nat) (a : DeconvArgs K) (m : DMethod) (src : Nat) (rsp : List Nat)
    (nrm : Option Norm) (hs : deconvSelect h s a = .ok (m, src, rsp, nrm)) : deconvMethod a.method = some m := by
  unfold deconvSelect at hs
  split at hs
  · cases hs
  · rename_i m' hm'
    split at hs
    · cases hs
    · split at hs
      · cases hs
      · split at hs
        · cases hs; exact hm'
        · cases hs
    · cases hs

/-- C183: keywords of the function of the method are passed to it. -/
theorem C183_accepted (kw : List String) (env : DeconvEnv K) (h : Heap K) (s : List Nat) (a : DeconvArgs K)
    (hk : ∀ m, deconvMethod a.method = some m → accepts m kw = true) :
    deconvolve (withKeywords kw env) h s a = deconvolve env h s a := by
  unfold deconvolve
  cases hs : deconvSelect h s a with
  | error e => rfl
  | ok p =>
    obtain ⟨m, src, rsp, nrm⟩ := p
    have hm := deconvSelect_name h s a m src rsp nrm hs
    simp only [runKernel_accepted kw env m (hk m hm)]
    rfl

theorem forEach_data (f : Trace K → Trace K) (hf : ∀ t, (f t).data = t.data) (h : Heap K) (s : List Nat) (r : Nat) :
    (Heap.forEach f h s r).data = (h r).data := by
  induction s generalizing h with
  | nil => rfl
  | cons a s ih =>
    show (Heap.forEach f (h.set a (f (h a))) s r).data = (h r).data
    rw [ih]
    by_cases hr : r = a
    · subst hr; rw [Heap.set_self, hf]
    · rw [Heap.set_ne _ _ hr]

theorem selectComps_sub (h : Heap K) (c : Str) (s l : List Nat) (hs : selectComps h c s = .ok l) : ∀ r ∈ l, r ∈ s := by
  induction s generalizing l with
  | nil => simp only [selectComps] at hs; cases hs; simp
  | cons a s ih =>
    simp only [selectComps] at hs
    split at hs
    · cases hs
    · split at hs
      · cases hs
      · rename_i l' hl'
        cases hs
        intro r hr
        split at hr
        · rcases List.mem_cons.1 hr with rfl | hr
          · exact List.mem_cons_self
          · exact List.mem_cons_of_mem _ (ih _ hl' r hr)
        · exact List.mem_cons_of_mem _ (ih _ hl' r hr)

theorem deconvSelect_src (h : Heap K) (s : List Nat) (a : DeconvArgs K) (m : DMethod) (src : Nat) (rsp : List Nat)
    (nrm : Option Norm) (hs : deconvSelect h s a = .ok (m, src, rsp, nrm)) (hr : a.rspComps = none) : src ∈ rsp := by
  unfold deconvSelect at hs
  split at hs
  · cases hs
  · split at hs
    · cases hs
    · rename_i src' h1
      split at hs
      · cases hs
      · rename_i rsp' h2
        split at hs
        · cases hs
          rw [hr] at h2
          simp only [selectRsp, Except.ok.injEq] at h2
          subst h2
          exact selectComps_sub h a.srcComps s [src] h1 src List.mem_cons_self
        · cases hs
    · cases hs

/-- C183: a keyword that the function of the method does not have makes `deconvolve` fail; the samples of the
responses are those from before, and with all components as responses those of all traces.  The exception is `TypeError`
(with the multitaper method: unless cutting out the noise fails). -/
theorem C183_refused (kw : List String) (env : DeconvEnv K) (h : Heap K) (s : List Nat) (a : DeconvArgs K) (m : DMethod)
    (hm : deconvMethod a.method = some m) (hk : accepts m kw = false) :
    ∃ e, (deconvolve (withKeywords kw env) h s a).2 = .error e ∧
      (a.rspComps = none → ∀ r, ((deconvolve (withKeywords kw env) h s a).1 r).data = (h r).data) ∧
      ∀ src rsp nrm, deconvSelect h s a = .ok (m, src, rsp, nrm) →
        (∀ r, r ≠ src → ((deconvolve (withKeywords kw env) h s a).1 r).data = (h r).data) ∧
        ∀ o, (h src).getTime "onset" = some o →
          ∀ idx, findNearest (times (h src)) (o - (h src).start) = .ok idx →
          (∀ l, a.winsrc = .letter l → l = "P".toList ∨ l = "S".toList) →
          e = .typeError ∨ (m = .multitaper ∧ ∃ h', env.noise h' s rsp a.rspComps = .error e) := by
  have hput : ∀ (x : K) (h : Heap K) (src : Nat) (rsp : List Nat) (r : Nat),
      (Heap.forEach (fun (t : Trace K) => t.put "onset" (.time x)) (h.set src ((h src).put "onset" (.time x))) rsp r).data =
        (h r).data := by
    intro x h src rsp r
    rw [forEach_data (fun (t : Trace K) => t.put "onset" (.time x)) (fun _ => rfl)]
    by_cases hr : r = src
    · subst hr; rw [Heap.set_self]; rfl
    · rw [Heap.set_ne _ _ hr]
  unfold deconvolve
  cases hs : deconvSelect h s a with
  | error e => exact ⟨e, rfl, fun _ _ => rfl, fun _ _ _ h => by cases h⟩
  | ok p =>
    obtain ⟨m', src, rsp, nrm⟩ := p
    have hm' := deconvSelect_name h s a m' src rsp nrm hs
    rw [hm] at hm'
    cases hm'
    simp only
    cases ho : (h src).getTime "onset" with
    | none =>
      refine ⟨.attributeError, rfl, fun _ _ => rfl, fun src' rsp' nrm' h1 => ⟨fun _ _ => rfl, fun o ho' => ?_⟩⟩
      cases h1; rw [ho] at ho'; cases ho'
    | some o =>
      simp only
      cases hf : findNearest (times (h src)) (o - (h src).start) with
      | error e =>
        refine ⟨e, rfl, fun _ _ => rfl, fun src' rsp' nrm' h1 => ⟨fun _ _ => rfl, fun o' ho' idx hi => ?_⟩⟩
        cases h1; rw [ho] at ho'; cases ho'; rw [hf] at hi; cases hi
      | ok idx =>
        simp only
        cases hw : sourceWindow m a.winsrc ((h src).endtime - (h src).start)
            ((h src).start + (idx : K) * (h src).delta - (h src).start) with
        | error e =>
          refine ⟨e, rfl, fun _ r => hput _ _ _ _ r, fun src' rsp' nrm' h1 => ⟨fun r _ => hput _ _ _ _ r,
            fun o' ho' idx' hi hl => ?_⟩⟩
          exfalso
          unfold sourceWindow at hw
          split at hw
          · cases hw
          · rename_i l hl'
            rcases hl l hl' with rfl | rfl
            · cases m <;> simp at hw
            · cases m <;> simp at hw
        | ok w =>
          obtain ⟨w0, w1, w2⟩ := w
          simp only
          generalize hH : Heap.forEach (fun (t : Trace K) => t.put "onset" (.time ((h src).start + (idx : K) * (h src).delta)))
            (h.set src ((h src).put "onset" (.time ((h src).start + (idx : K) * (h src).delta)))) rsp = H
          have hHd : ∀ r, (H r).data = (h r).data := fun r => by rw [← hH]; exact hput _ _ _ _ r
          generalize (withKeywords kw env).taper _ _ = srcT
          obtain ⟨e, he, he'⟩ := runKernel_refused kw env m hk (if (indexOf? H src rsp).isSome then H else H.set src srcT)
            s rsp a.rspComps srcT (h src).sr (-w0) nrm
          rw [he]
          refine ⟨e, rfl, fun hr r => ?_, fun src' rsp' nrm' h1 => ⟨fun r hr => ?_, fun _ _ _ _ _ => ?_⟩⟩
          · have hsrc := deconvSelect_src h s a m src rsp nrm hs hr
            have hi : (indexOf? H src rsp).isSome = true := by
              simp only [indexOf?, List.findIdx?_isSome, List.any_eq_true]
              exact ⟨src, hsrc, by simp⟩
            rw [if_pos hi]
            exact hHd r
          · cases h1
            split
            · exact hHd r
            · simp only []; rw [Heap.set_ne _ _ hr]; exact hHd r
          · cases h1
            exact he'.imp_right fun ⟨x, y⟩ => ⟨x, _, y⟩

/-- `rf` with keywords which the deconvolution accepts. -/
theorem C183_rf_accepted (kw : List String) (env : RfEnv K) (a : RfArgs K) (st : SState K)
    (hk : ∀ d m, a.deconvolve = some d → deconvMethod d = some m → accepts m kw = true) :
    rfWith kw env a st = rf env a st := by
  have hcall : ∀ m d, a.deconvolve = some d → deconvolveCall { env with dec := withKeywords kw env.dec } (rfDeconvArgs a m d) =
      deconvolveCall env (rfDeconvArgs a m d) := by
    intro m d hd
    funext h g
    have := C183_accepted kw env.dec h g (rfDeconvArgs a m d) fun m' hm' => hk d m' hd hm'
    simp only [deconvolveCall]
    rw [this]
  have hstage : ∀ m, deconvolveStage { env with dec := withKeywords kw env.dec } a m = deconvolveStage env a m := by
    intro m
    funext st
    simp only [deconvolveStage]
    cases hd : a.deconvolve with
    | none => rfl
    | some d => simp only [hcall m d hd]
  simp only [rfWith, rf, rfBody, rfBefore, hstage]
  rfl

/-- The stream when the deconvolution starts. -/
def beforeDeconv (env : RfEnv K) (a : RfArgs K) (st : SState K) : SRes K := (rfPrep env a st).andThen qStage

theorem groupBody_refused (kw : List String) (env : RfEnv K) (da : DeconvArgs K) (m : DMethod)
    (hm : deconvMethod da.method = some m) (hk : accepts m kw = false) (h : Heap K) (g : List Nat) (gs : List (List Nat)) :
    ∃ e, (groupBody (deconvolveCall { env with dec := withKeywords kw env.dec } da) h (g :: gs)).2 = some e ∧
      (da.rspComps = none →
        ∀ r, ((groupBody (deconvolveCall { env with dec := withKeywords kw env.dec } da) h (g :: gs)).1 r).data = (h r).data) := by
  obtain ⟨e, h1, h2, -⟩ := C183_refused kw env.dec h g da m hm hk
  have h3 : deconvolveCall { env with dec := withKeywords kw env.dec } da h g =
      ((deconvolve (withKeywords kw env.dec) h g da).1, some e) := by
    simp only [deconvolveCall]
    revert h1
    generalize deconvolve (withKeywords kw env.dec) h g da = x
    intro h1
    obtain ⟨x1, x2⟩ := x
    simp only at h1
    subst h1
    rfl
  exact ⟨e, by simp only [groupBody, h3], fun hr r => by simp only [groupBody, h3]; exact h2 hr r⟩

/-- C183, partial: with a keyword that the function of the method does not have, `rf` fails as soon as there is a
complete record; the stream is then filtered, trimmed and rotated, but nothing is deconvolved. -/
theorem C183_rf_partial (kw : List String) (env : RfEnv K) (a : RfArgs K) (st st1 : SState K) (meth d : Str) (m : DMethod)
    (hmeth : rfMethod st.1 st.2 a.method = .ok meth) (hd : a.deconvolve = some d) (hm : deconvMethod d = some m)
    (hk : accepts m kw = false) (h1 : beforeDeconv env a st = (st1, none)) (g : List Nat) (gs : List (List Nat))
    (hg : iter3c env.timeStr st1.1 st1.2 = .ok (g :: gs)) :
    ∃ e, (rfWith kw env a st).2 = some e ∧ (rfWith kw env a st).1.2 = st1.2 ∧
      (a.rspComps = none → ∀ r, ((rfWith kw env a st).1.1 r).data = (st1.1 r).data) := by
  obtain ⟨e, h2, h3⟩ := groupBody_refused kw env (rfDeconvArgs a meth d) m hm hk st1.1 g gs
  have h4 : (rfPrep { env with dec := withKeywords kw env.dec } a st).andThen qStage = (st1, none) := h1
  have h5 : rfWith kw env a st = (((groupBody (deconvolveCall { env with dec := withKeywords kw env.dec }
      (rfDeconvArgs a meth d)) st1.1 (g :: gs)).1, st1.2), some e) := by
    simp only [rfWith, rf, rfBody, hmeth, rfBefore, h4]
    simp only [SRes.andThen, deconvolveStage, hd, forGroups, hg, h2]
  rw [h5]
  exact ⟨e, rfl, rfl, h3⟩

/-- C183, partial: without complete records nothing is reported: the result is that without the keyword. -/
theorem C183_silent_partial (kw : List String) (env : RfEnv K) (a : RfArgs K) (st : SState K)
    (h : ∀ st1, beforeDeconv env a st = (st1, none) → iter3c env.timeStr st1.1 st1.2 = .ok []) :
    rfWith kw env a st = rf env a st := by
  have hstage : ∀ m, ((rfPrep env a st).andThen qStage).andThen
      (deconvolveStage { env with dec := withKeywords kw env.dec } a m) =
      ((rfPrep env a st).andThen qStage).andThen (deconvolveStage env a m) := by
    intro m
    have h0 : beforeDeconv env a st = (rfPrep env a st).andThen qStage := rfl
    rw [← h0]
    cases hb : beforeDeconv env a st with
    | mk st1 e =>
      cases e with
      | some e => rfl
      | none =>
        simp only [SRes.andThen, deconvolveStage]
        cases a.deconvolve with
        | none => rfl
        | some d => simp only [forGroups, h st1 hb, groupBody]
  simp only [rfWith, rf, rfBody, rfBefore]
  cases rfMethod st.1 st.2 a.method with
  | error e => rfl
  | ok m =>
    have := hstage m
    simp only
    rw [show rfPrep { env with dec := withKeywords kw env.dec } a st = rfPrep env a st from rfl, this]

/-- C183: an option of one method is refused by the others: which method accepts what. -/
theorem C183_options (m : DMethod) (k : String) :
    accepts m [k] = true ↔ ∀ l, kernelKeywords m = some l → k ∈ l := by
  cases m <;> simp [accepts, kernelKeywords]

/-- C183: all keywords have to be options of the function; one that is not is enough for the refusal. -/
theorem C183_all (m : DMethod) (kw : List String) :
    accepts m kw = true ↔ ∀ l, kernelKeywords m = some l → ∀ k ∈ kw, k ∈ l := by
  cases m <;> simp [accepts, kernelKeywords]

end

/-- C183 is false: `rf` of a vertical trace with the misspelled option `spikng` returns normally, and so does `rf` of a
complete record without deconvolution. -/
theorem C183_counterexample : ∃ env : RfEnv ℚ,
    accepts .time ["spikng"] = false ∧
    (rfWith ["spikng"] env { method := some "P".toList } (dHeap, [0])).2 = none ∧
    (rfWith ["spikng"] env { method := some "P".toList, deconvolve := none } (dHeap, [0, 1, 2])).2 = none :=
  ⟨rEnv, by decide +kernel⟩

/-- C182: the option `water` described in the template of the configuration is refused by all methods. -/
theorem C182_water : ∀ m : DMethod, m ≠ .func → accepts m ["water"] = false := by
  intro m hm
  cases m <;> first
    | decide +kernel
    | exact absurd rfl hm

/-- The hypotheses of `C183_rf_partial` are met: a complete record. -/
example : (rfWith ["water"] rEnv { method := some "P".toList } (dHeap, [0, 1, 2])).2 = some .typeError ∧
    beforeDeconv rEnv { method := some "P".toList } (dHeap, [0, 1, 2]) =
      ((beforeDeconv rEnv { method := some "P".toList } (dHeap, [0, 1, 2])).1, none) ∧
    iter3c rEnv.timeStr (beforeDeconv rEnv { method := some "P".toList } (dHeap, [0, 1, 2])).1.1 [0, 1, 2] = .ok [[0, 1, 2]] ∧
    ((rfWith ["water"] rEnv { method := some "P".toList } (dHeap, [0, 1, 2])).1.1 1).data = [-1, -2, -3, -4, -5] := by
  refine ⟨by decide +kernel, rfl, by decide +kernel, by decide +kernel⟩

/-- Keywords that are accepted. -/
example : accepts .time ["spiking", "length"] = true ∧ accepts .iterative ["itmax", "gauss"] = true := by decide +kernel

end Verif.Props
