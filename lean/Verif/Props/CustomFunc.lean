import Verif.Props.IndependentRf
import Verif.Model.StreamDeconvolve

/-!
# C132: deconvolution with a custom function (`deconvolve='func'`)
-/

set_option linter.unusedSimpArgs false
set_option linter.unusedSectionVars false

namespace Verif.Props
open Verif.Py Verif.Model Verif.Spec

section custom
variable {K : Type} [Field K] [LinearOrder K] [IsStrictOrderedRing K] [FloorRing K]

/-- C132 for `stream.deconvolve('func', func=...)`.  After a successful call the stream consists of
exactly the traces returned by the function.  The function has been called once, with the
responses (data not changed, onset moved to a sample), with the tapered source window around that onset
and with `tshift` equal to the length of the window before the onset. -/
theorem C132_stream (env : DeconvEnv K) (info : Str) (a : DeconvArgs K) (ha : a.method = "func".toList)
    (h h1 : Heap K) (s l : List Nat) (hok : streamDeconvolve env info a (h, s) = ((h1, l), none)) :
    ∃ (src : Nat) (onset w0 w1 w2 : K) (hin h' : Heap K) (nrm : Option Norm),
      onComps h s (some a.srcComps) = [src] ∧
      (a.winsrc = .tuple w0 w1 w2 ∨ (w0, w1, w2) = (-10, 30, 5)) ∧
      (∀ r ∈ onComps h s a.rspComps, (hin r).data = (h r).data ∧
        (hin r).getTime "onset" = some onset) ∧
      (∃ t : Trace K, t.data = (h src).data ∧ t.getTime "onset" = some onset ∧
        env.func hin (onComps h s a.rspComps)
          (env.taper (env.trimPad t (onset + w0) (onset + w1)) w2) (-w0) nrm = (h', .ok l)) ∧
      (∀ n, a.normalize = some n → nrm = some n) ∧
      ∀ r, EqBut ["processing"] (h1 r) (h' r) := by
  unfold streamDeconvolve at hok
  cases hd : deconvolve env h s a with
  | mk h' res =>
    simp only [hd] at hok
    cases res with
    | error e => simp at hok
    | ok l' =>
      simp only [Prod.mk.injEq, and_true] at hok
      obtain ⟨rfl, rfl⟩ := hok
      rcases deconvolve_cases env h h' s a _ hd with ⟨_, e, he⟩ | ⟨m, src, rsp, nrm, o, idx, onset, hsel, ho, hf, hon, hc⟩
      · exact absurd he (by simp)
      obtain ⟨s1, s2, s3, s4, s5, s6⟩ := deconvSelect_ok h s a m src rsp nrm hsel
      have hmf : m = .func := by
        rw [ha] at s1
        have : deconvMethod "func".toList = some .func := by decide +kernel
        rw [this] at s1
        exact (Option.some.inj s1).symm
      subst hmf
      have hcha := (selectComps_ok h a.srcComps s [src] s2).1
      have hsel1 := selectComps_eq h a.srcComps s hcha
      have hsel2 := selectRsp_eq h a.rspComps s hcha
      rw [s2] at hsel1
      rw [s3] at hsel2
      simp only [Except.ok.injEq] at hsel1 hsel2
      rcases hc with ⟨_, e, he⟩ | ⟨w0, w1, w2, srcT, h2, hw, hT, h2e, hk⟩
      · exact absurd he (by simp)
      refine ⟨src, onset, w0, w1, w2, h2, h', nrm, hsel1.symm, ?_, ?_,
        ⟨snapped h src rsp onset src, ?_, ?_, ?_⟩, ?_, fun r => addInfoAll_eqBut _ _ _ _⟩
      · unfold sourceWindow at hw
        cases hwin : a.winsrc with
        | tuple x y z =>
          rw [hwin] at hw
          simp only [Except.ok.injEq, Prod.mk.injEq] at hw
          obtain ⟨rfl, rfl, rfl⟩ := hw
          exact Or.inl rfl
        | letter c =>
          rw [hwin] at hw
          right
          simp only at hw
          split at hw
          · exact (Except.ok.inj hw).symm
          · split at hw
            · exact (Except.ok.inj hw).symm
            · split at hw <;> cases hw
      · intro r hr
        rw [← hsel2] at hr
        have hdat : (snapped h src rsp onset r).data = (h r).data :=
          snapped_inv (fun t => t.data) (fun _ _ => rfl) h src rsp onset r
        have hons := snapped_onset h src rsp onset r (Or.inr hr)
        rw [h2e]
        split
        · exact ⟨hdat, hons⟩
        · rename_i hidx
          have hne : r ≠ src := by
            rintro rfl
            apply hidx
            unfold indexOf?
            rw [List.findIdx?_isSome]
            rw [List.any_eq_true]
            exact ⟨r, hr, by simp⟩
          rw [Heap.set_ne _ _ hne]
          exact ⟨hdat, hons⟩
      · exact snapped_inv (fun t => t.data) (fun _ _ => rfl) h src rsp onset src
      · exact snapped_onset h src rsp onset src (Or.inl rfl)
      · rw [← hsel2, ← hT]
        exact hk
      · intro n hn
        unfold deconvSelect at hsel
        rw [s1, s2] at hsel
        simp only [s3] at hsel
        split at hsel
        · simp only [Except.ok.injEq, Prod.mk.injEq] at hsel
          rw [← hsel.2.2.2]
          unfold normKw
          rw [hn]
        · cases hsel

/-- The function works in place: it changes the responses only, gives each of them data with the
property `D` and returns responses. -/
structure FuncInPlace (env : DeconvEnv K) (D : List K → Prop) : Prop where
  frame : FuncFrame env
  gives : ∀ h rsp srcT ts n h' l, env.func h rsp srcT ts n = (h', .ok l) →
    (∀ r ∈ rsp, D (h' r).data) ∧ ∀ r ∈ l, r ∈ rsp

/-- C132 for `rf(deconvolve='func', func=...)`.  If the function writes its results to the response
traces, all records have two or three components and all traces are responses, the stream
holds these results (possibly mirrored) after the call.  The missing part - functions returning new
traces - is false, see `C132_counterexample`. -/
theorem C132_rf_partial (env : RfEnv K) (a : RfArgs K) (m : Str)
    (hm : a.method = some m) (hdec : a.deconvolve = some "func".toList)
    (hrc : a.rspComps = none) (D : List K → Prop) (hD : FuncInPlace env.dec D)
    (hrev : ∀ l, D l → D l.reverse) (st st1 st' : SState K) (hn : st1.2.Nodup)
    (hprep : rfPrep env a st = (st1, none)) (hok : rf env a st = (st', none))
    (hgrp : ∀ r ∈ st1.2, ∃ l : List Nat, l.Nodup ∧
      (∀ q, q ∈ l ↔ q ∈ st1.2 ∧ SameRecord env.timeStr st1.1 q r) ∧ (l.length = 2 ∨ l.length = 3)) :
    st'.2 = st1.2 ∧ ∀ r ∈ st'.2, (st'.1 r).ext.get "type" = some (.str "rf".toList) ∧
      D (st'.1 r).data := by
  have hcov : ∀ (h h' : Heap K) (g l : List Nat),
      deconvolve env.dec h g (rfDeconvArgs a m "func".toList) = (h', .ok l) →
      (∀ r ∈ l, r ∈ g) ∧ ∀ r ∈ g, D (h' r).data := by
    intro h h' g l hd
    rcases deconvolve_cases env.dec h h' g _ _ hd with ⟨_, e, he⟩ | ⟨m', src, rsp, nrm, o, idx, onset, hsel, ho, hf, hon, hc⟩
    · exact absurd he (by simp)
    obtain ⟨s1, s2, s3, s4, s5, s6⟩ := deconvSelect_ok h g _ m' src rsp nrm hsel
    have hmf : m' = .func := by
      have e : deconvMethod (rfDeconvArgs a m "func".toList).method = some .func := by
        show deconvMethod "func".toList = some .func
        decide +kernel
      rw [e] at s1
      exact (Option.some.inj s1).symm
    subst hmf
    have hrsp : rsp = g := by
      have e : (rfDeconvArgs a m "func".toList).rspComps = none := hrc
      rw [e] at s3
      unfold selectRsp at s3
      injection s3 with s3
      exact s3.symm
    subst hrsp
    rcases hc with ⟨_, e, he⟩ | ⟨w0, w1, w2, srcT, h2, hw, hT, h2e, hk⟩
    · exact absurd he (by simp)
    have := hD.gives h2 rsp srcT (-w0) nrm h' l hk
    exact ⟨this.2, this.1⟩
  refine rf_covers env a m "func".toList hm hdec D ?_ ?_ hrev st st1 st' hn hprep hok hgrp
  · intro h g r hr
    have hsub : ∀ c, r ∉ onComps h g c := by
      intro c hc
      apply hr
      unfold onComps at hc
      split at hc
      · exact hc
      · exact (List.mem_filter.1 hc).1
    unfold deconvolveCall
    cases hd : deconvolve env.dec h g (rfDeconvArgs a m "func".toList) with
    | mk h' res =>
      have hfr := C07_frame_partial env.dec h h' g _ res (fun _ => hD.frame) hd r (hsub _) (hsub _)
      cases res with
      | error e => exact hfr
      | ok rsp =>
        simp only
        have hin : r ∉ rsp := fun hin => hr ((hcov h h' g rsp hd).1 r hin)
        unfold addInfoAll
        rw [forEachE_not_mem _ _ _ _ hin]
        exact hfr
  · intro h h' g hf r hr
    unfold deconvolveCall at hf
    cases hd : deconvolve env.dec h g (rfDeconvArgs a m "func".toList) with
    | mk h2 res =>
      rw [hd] at hf
      cases res with
      | error e => simp at hf
      | ok rsp =>
        simp only [Prod.mk.injEq, and_true] at hf
        rw [← hf, (addInfoAll_rest _ _ _ _).1]
        exact (hcov h h2 g rsp hd).2 r hr

/-- C132, history: the traces with which the stream ends are those returned, and every one of them carries the
entry of the call at the end of its history. -/
theorem C132_processing (env : DeconvEnv K) (info : Str) (a : DeconvArgs K) (h h' : Heap K) (s l : List Nat)
    (hd : deconvolve env h s a = (h', .ok l)) (hn : l.Nodup) (hp : ∀ r ∈ l, ShortHistory 100 (h' r)) :
    (streamDeconvolve env info a (h, s)).2 = none ∧ (streamDeconvolve env info a (h, s)).1.2 = l ∧
    ∀ r ∈ l, processingOf ((streamDeconvolve env info a (h, s)).1.1 r) = processingOf (h' r) ++ [info] := by
  unfold streamDeconvolve
  simp only [hd]
  exact ⟨trivial, trivial, fun r hr => addInfoAll_mem info h' l hn hp r hr⟩

end custom

section examples

/-- A custom function that writes zeros to the responses. -/
def zerosInPlace : RfEnv ℚ := { iEnv with
  dec := { dEnv with
    func := fun h rsp _ _ _ => (Heap.forEach (fun t => { t with data := t.data.map fun _ => 0 }) h rsp, .ok rsp) } }

/-- A custom function that returns new traces (objects 10, 11, ...) filled with zeros, as its documented
signature suggests. -/
def zerosNew : RfEnv ℚ := { iEnv with
  dec := { dEnv with
    func := fun h rsp _ _ _ => (rsp.foldl (fun g r => Heap.set g (r + 10)
      { h r with data := (h r).data.map fun _ => 0 }) h, .ok (rsp.map (· + 10))) } }

theorem zerosInPlace_ok : FuncInPlace zerosInPlace.dec (fun l => ∀ x ∈ l, x = 0) where
  frame h rsp _ _ _ r hr := by
    show Heap.forEach (fun t => { t with data := t.data.map fun _ => (0 : ℚ) }) h rsp r = h r
    exact Heap.forEach_not_mem _ h rsp r hr
  gives h rsp srcT ts n h' l he := by
    have he : (Heap.forEach (fun t => { t with data := t.data.map fun _ => (0 : ℚ) }) h rsp,
      Except.ok (ε := PyErr) rsp) = (h', .ok l) := he
    simp only [Prod.mk.injEq, Except.ok.injEq] at he
    obtain ⟨rfl, rfl⟩ := he
    refine ⟨fun r hr => ?_, fun r hr => hr⟩
    refine Heap.forEach_estab (fun t => ∀ x ∈ t.data, x = 0) _ (fun t x hx => ?_) h rsp r hr
    obtain ⟨_, -, rfl⟩ := List.mem_map.1 hx
    rfl

/-- C132 with the in place function: the call succeeds and the data are the zeros of the function. -/
example : (rf zerosInPlace { method := some "P".toList, deconvolve := some "func".toList }
      (dHeap, [0, 1, 2])).2 = none ∧
    ((rf zerosInPlace { method := some "P".toList, deconvolve := some "func".toList }
      (dHeap, [0, 1, 2])).1.1 1).data = [0, 0, 0, 0, 0] ∧
    (streamDeconvolve zerosNew.dec [] { dArgs with method := "func".toList } (dHeap, [0, 1, 2])).2 = none ∧
    (streamDeconvolve zerosNew.dec [] { dArgs with method := "func".toList } (dHeap, [0, 1, 2])).1.2
      = [10, 11, 12] := by
  decide +kernel

/-- C132 is false for functions that return new traces: `stream.deconvolve` takes them, `rf` drops them.
The call of `rf` succeeds, the stream still has the old traces with the data that were never
deconvolved, and they are labelled 'rf'. -/
theorem C132_counterexample : ∃ (env : RfEnv ℚ) (h : Heap ℚ) (s : List Nat),
    (∀ h rsp srcT ts n, ∃ h' l, env.dec.func h rsp srcT ts n = (h', .ok l) ∧ l.length = rsp.length) ∧
    (rf env { method := some "P".toList, deconvolve := some "func".toList } (h, s)).2 = none ∧
    (rf env { method := some "P".toList, deconvolve := some "func".toList } (h, s)).1.2 = s ∧
    ∀ r ∈ s, ((rf env { method := some "P".toList, deconvolve := some "func".toList } (h, s)).1.1 r).data
        = (h r).data ∧
      ((rf env { method := some "P".toList, deconvolve := some "func".toList } (h, s)).1.1 r).getStr "type"
        = some "rf".toList := by
  refine ⟨zerosNew, dHeap, [0, 1, 2], fun h rsp srcT ts n => ⟨_, _, rfl, by simp⟩, ?_, ?_, ?_⟩ <;>
    decide +kernel

end examples

end Verif.Props
