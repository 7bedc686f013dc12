import Verif.Props.StreamDec

/-!
# Locality of `deconvolve`: the call depends only on the traces of its stream
-/

set_option linter.unusedSimpArgs false
set_option linter.unusedSectionVars false

namespace Verif.Props
open Verif.Py Verif.Model Verif.Spec

/-- Two heaps agree on the given references. -/
def AgreeOn {K : Type} (g : List Nat) (h h' : Heap K) : Prop := ∀ r ∈ g, h r = h' r

section base
variable {K : Type}

theorem AgreeOn.set {g : List Nat} {h h' : Heap K} (hA : AgreeOn g h h') (r : Nat) (t : Trace K) :
    AgreeOn g (h.set r t) (h'.set r t) := by
  intro q hq
  by_cases e : q = r
  · subst e; rw [Heap.set_self, Heap.set_self]
  · rw [Heap.set_ne _ _ e, Heap.set_ne _ _ e]; exact hA q hq

theorem AgreeOn.forEach {g : List Nat} {h h' : Heap K} (hA : AgreeOn g h h')
    (f : Trace K → Trace K) (s : List Nat) (hs : ∀ r ∈ s, r ∈ g) :
    AgreeOn g (Heap.forEach f h s) (Heap.forEach f h' s) := by
  induction s generalizing h h' with
  | nil => exact hA
  | cons a s ih =>
    show AgreeOn g (Heap.forEach f (h.set a (f (h a))) s) (Heap.forEach f (h'.set a (f (h' a))) s)
    rw [hA a (hs a List.mem_cons_self)]
    exact ih (hA.set _ _) (fun r hr => hs r (List.mem_cons_of_mem _ hr))

theorem AgreeOn.forEachE {g : List Nat} {h h' : Heap K} (hA : AgreeOn g h h')
    (f : Trace K → Res (Trace K)) (s : List Nat) (hs : ∀ r ∈ s, r ∈ g) :
    (Heap.forEachE f h s).2 = (Heap.forEachE f h' s).2 ∧
      AgreeOn g (Heap.forEachE f h s).1 (Heap.forEachE f h' s).1 := by
  induction s generalizing h h' with
  | nil => exact ⟨rfl, hA⟩
  | cons a s ih =>
    unfold Heap.forEachE
    rw [hA a (hs a List.mem_cons_self)]
    cases f (h' a) with
    | error e => exact ⟨rfl, hA⟩
    | ok t => exact ih (hA.set _ _) (fun r hr => hs r (List.mem_cons_of_mem _ hr))

theorem AgreeOn.writeBack {g : List Nat} {h h' : Heap K} (hA : AgreeOn g h h')
    (rsp : List Nat) (fs : List (Trace K → Trace K)) (hs : ∀ r ∈ rsp, r ∈ g) :
    (writeBack h rsp fs).2 = (writeBack h' rsp fs).2 ∧
      AgreeOn g (writeBack h rsp fs).1 (writeBack h' rsp fs).1 := by
  induction rsp generalizing h h' fs with
  | nil => exact ⟨rfl, hA⟩
  | cons a s ih =>
    cases fs with
    | nil => exact ⟨rfl, hA⟩
    | cons f fs =>
      unfold Model.writeBack
      rw [hA a (hs a List.mem_cons_self)]
      exact ih (hA.set _ _) fs (fun r hr => hs r (List.mem_cons_of_mem _ hr))

theorem AgreeOn.finish {g : List Nat} {h h' : Heap K} (hA : AgreeOn g h h')
    (rsp : List Nat) (res : Res (List (Trace K → Trace K))) (hs : ∀ r ∈ rsp, r ∈ g) :
    (finish h rsp res).2 = (finish h' rsp res).2 ∧
      AgreeOn g (finish h rsp res).1 (finish h' rsp res).1 := by
  unfold Model.finish
  cases res with
  | error e => exact ⟨rfl, hA⟩
  | ok fs =>
    obtain ⟨h1, h2⟩ := hA.writeBack rsp fs hs
    simp only []
    revert h1 h2
    cases Model.writeBack h rsp fs with
    | mk a e =>
      cases Model.writeBack h' rsp fs with
      | mk a' e' =>
        intro h1 h2
        simp only at h1 h2
        subst h1
        cases e <;> exact ⟨rfl, h2⟩

theorem selectComps_congr (g : List Nat) (h h' : Heap K) (hA : AgreeOn g h h') (c : Str) (s : List Nat)
    (hs : ∀ r ∈ s, r ∈ g) : selectComps h c s = selectComps h' c s := by
  induction s with
  | nil => rfl
  | cons a s ih =>
    unfold selectComps
    rw [hA a (hs a List.mem_cons_self), ih (fun r hr => hs r (List.mem_cons_of_mem _ hr))]

theorem indexOf?_congr [DecidableEq K] (g : List Nat) (h h' : Heap K) (hA : AgreeOn g h h') (src : Nat)
    (rsp : List Nat) (hsrc : src ∈ g) (hs : ∀ r ∈ rsp, r ∈ g) :
    indexOf? h src rsp = indexOf? h' src rsp := by
  unfold indexOf?
  rw [hA src hsrc]
  clear hsrc
  induction rsp with
  | nil => rfl
  | cons a s ih =>
    rw [List.findIdx?_cons, List.findIdx?_cons, hA a (hs a List.mem_cons_self),
      ih (fun r hr => hs r (List.mem_cons_of_mem _ hr))]

end base

section call
variable {K : Type} [Field K] [LinearOrder K] [IsStrictOrderedRing K] [FloorRing K]

/-- The traces selected as source and responses belong to the stream. -/
theorem deconvSelect_sub (h : Heap K) (s : List Nat) (a : DeconvArgs K) (m : DMethod) (src : Nat)
    (rsp : List Nat) (nrm : Option Norm) (hd : deconvSelect h s a = .ok (m, src, rsp, nrm)) :
    src ∈ s ∧ ∀ r ∈ rsp, r ∈ s := by
  unfold deconvSelect at hd
  cases hm : deconvMethod a.method with
  | none => rw [hm] at hd; simp at hd
  | some m' =>
    rw [hm] at hd
    simp only at hd
    cases hsel : selectComps h a.srcComps s with
    | error e => rw [hsel] at hd; simp at hd
    | ok l =>
      rw [hsel] at hd
      match l, hsel, hd with
      | [], _, hd => simp at hd
      | [x], hsel, hd =>
        simp only at hd
        cases hr : selectRsp h a.rspComps s with
        | error e => rw [hr] at hd; simp at hd
        | ok rsp' =>
          rw [hr] at hd
          simp only at hd
          split at hd
          · simp only [Except.ok.injEq, Prod.mk.injEq] at hd
            obtain ⟨-, rfl, rfl, -⟩ := hd
            exact ⟨((mem_selectComps h a.srcComps s _ hsel x).1 (by simp)).1,
              selectRsp_sub h a.rspComps s _ hr⟩
          · simp at hd
      | _ :: _ :: _, _, hd => simp at hd

theorem deconvSelect_congr (h h' : Heap K) (s : List Nat) (hA : AgreeOn s h h') (a : DeconvArgs K) :
    deconvSelect h s a = deconvSelect h' s a := by
  unfold deconvSelect
  cases deconvMethod a.method with
  | none => rfl
  | some m' =>
    simp only
    rw [selectComps_congr s h h' hA a.srcComps s (fun r hr => hr)]
    have hr : selectRsp h a.rspComps s = selectRsp h' a.rspComps s := by
      unfold selectRsp
      cases a.rspComps with
      | none => rfl
      | some c => exact selectComps_congr s h h' hA c s (fun r hr => hr)
    rw [hr]
    cases hsel : selectComps h' a.srcComps s with
    | error e => rfl
    | ok l =>
      match l, hsel with
      | [], _ => rfl
      | [x], hsel =>
        simp only
        cases hr' : selectRsp h' a.rspComps s with
        | error e => rfl
        | ok rsp =>
          simp only
          have : normKw h a.normalize x rsp = normKw h' a.normalize x rsp := by
            unfold normKw
            cases a.normalize with
            | some n => rfl
            | none =>
              simp only
              rw [indexOf?_congr s h h' hA x rsp
                ((mem_selectComps h' a.srcComps s _ hsel x).1 (by simp)).1
                (selectRsp_sub h' a.rspComps s _ hr')]
          rw [this]
      | _ :: _ :: _, _ => rfl

/-- The noise given to the multitaper kernel depends only on the traces of the stream. -/
def NoiseLocal (env : DeconvEnv K) : Prop :=
  ∀ (h h' : Heap K) (s rsp : List Nat) (c : Option Str), AgreeOn s h h' → (∀ r ∈ rsp, r ∈ s) →
    env.noise h s rsp c = env.noise h' s rsp c

theorem runKernel_local (env : DeconvEnv K) (hnoise : NoiseLocal env) (m : DMethod) (hm : m ≠ .func)
    (h h' : Heap K) (s rsp : List Nat) (hA : AgreeOn s h h') (hs : ∀ r ∈ rsp, r ∈ s)
    (rc : Option Str) (srcT : Trace K) (sr ts : K) (nrm : Option Norm) :
    (runKernel env m h s rsp rc srcT sr ts nrm).2 = (runKernel env m h' s rsp rc srcT sr ts nrm).2 ∧
      AgreeOn s (runKernel env m h s rsp rc srcT sr ts nrm).1
        (runKernel env m h' s rsp rc srcT sr ts nrm).1 := by
  have hrd : rsp.map (fun r => (h r).data) = rsp.map (fun r => (h' r).data) :=
    List.map_congr_left (fun r hr => by rw [hA r (hs r hr)])
  unfold runKernel
  simp only [hrd]
  cases m with
  | func => exact absurd rfl hm
  | multitaper =>
    simp only [hnoise h h' s rsp rc hA hs]
    exact hA.finish _ _ hs
  | _ => exact hA.finish _ _ hs

/-- A built-in method stays one. -/
theorem deconvSelect_builtin (h : Heap K) (s : List Nat) (a : DeconvArgs K)
    (hm : a.method ≠ "func".toList) (m : DMethod) (src : Nat) (rsp : List Nat) (nrm : Option Norm)
    (hsel : deconvSelect h s a = .ok (m, src, rsp, nrm)) : m ≠ .func := by
  rintro rfl
  apply hm
  apply deconvMethod_func
  unfold deconvSelect at hsel
  cases hdm : deconvMethod a.method with
  | none => rw [hdm] at hsel; simp at hsel
  | some m' =>
    rw [hdm] at hsel
    simp only at hsel
    split at hsel
    · simp at hsel
    · split at hsel
      · simp at hsel
      · split at hsel
        · simp only [Except.ok.injEq, Prod.mk.injEq] at hsel
          rw [hsel.1]
        · simp at hsel
    · simp at hsel

/-- The result traces belong to the stream. -/
theorem deconvolve_result_sub (env : DeconvEnv K) (h : Heap K) (s : List Nat) (a : DeconvArgs K)
    (hm : a.method ≠ "func".toList) (l : List Nat) (hl : (deconvolve env h s a).2 = .ok l) :
    ∀ r ∈ l, r ∈ s := by
  unfold deconvolve at hl
  cases hsel : deconvSelect h s a with
  | error e => rw [hsel] at hl; simp at hl
  | ok q =>
    obtain ⟨m, src, rsp, nrm⟩ := q
    have hrsp := (deconvSelect_sub h s a m src rsp nrm hsel).2
    have hmf := deconvSelect_builtin h s a hm m src rsp nrm hsel
    rw [hsel] at hl
    simp only at hl
    split at hl
    · simp at hl
    · split at hl
      · simp at hl
      · split at hl
        · simp at hl
        · rw [runKernel_result _ _ _ _ _ _ _ _ _ _ _ hmf hl]
          exact hrsp

/-- `deconvolve` with a built-in method depends only on the traces of its stream. -/
theorem deconvolve_local (env : DeconvEnv K) (hnoise : NoiseLocal env) (a : DeconvArgs K)
    (hm : a.method ≠ "func".toList) (h h' : Heap K) (s : List Nat) (hA : AgreeOn s h h') :
    (deconvolve env h s a).2 = (deconvolve env h' s a).2 ∧
      AgreeOn s (deconvolve env h s a).1 (deconvolve env h' s a).1 := by
  unfold deconvolve
  rw [deconvSelect_congr h h' s hA a]
  cases hsel : deconvSelect h' s a with
  | error e => exact ⟨rfl, hA⟩
  | ok q =>
    obtain ⟨m, src, rsp, nrm⟩ := q
    obtain ⟨hsrc, hrsp⟩ := deconvSelect_sub h' s a m src rsp nrm hsel
    have hmf := deconvSelect_builtin h' s a hm m src rsp nrm hsel
    simp only
    rw [hA src hsrc]
    cases (h' src).getTime "onset" with
    | none => exact ⟨rfl, hA⟩
    | some o =>
      simp only
      cases findNearest (times (h' src)) (o - (h' src).start) with
      | error e => exact ⟨rfl, hA⟩
      | ok idx =>
        simp only
        set on := (h' src).start + (idx : K) * (h' src).delta with hon
        have hB : AgreeOn s
            (Heap.forEach (fun t => t.put "onset" (.time on)) (h.set src ((h' src).put "onset" (.time on))) rsp)
            (Heap.forEach (fun t => t.put "onset" (.time on)) (h'.set src ((h' src).put "onset" (.time on)))
              rsp) := (hA.set _ _).forEach _ rsp hrsp
        cases sourceWindow m a.winsrc ((h' src).endtime - (h' src).start) (on - (h' src).start) with
        | error e => exact ⟨rfl, hB⟩
        | ok w =>
          obtain ⟨w0, w1, w2⟩ := w
          simp only
          rw [hB src hsrc, indexOf?_congr s _ _ hB src rsp hsrc hrsp]
          refine runKernel_local env hnoise m hmf _ _ s rsp ?_ hrsp _ _ _ _ _
          split
          · exact hB
          · exact hB.set _ _

/-- A call on one group depends only on the traces of the group and changes no other trace. -/
def GroupLocal (f : Heap K → List Nat → Heap K × Option PyErr) : Prop :=
  ∀ (h h' : Heap K) (g : List Nat), AgreeOn g h h' →
    (f h g).2 = (f h' g).2 ∧ AgreeOn g (f h g).1 (f h' g).1 ∧ ∀ r, r ∉ g → (f h g).1 r = h r

theorem deconvolveCall_frame' (env : RfEnv K) (da : DeconvArgs K) (hfunc : da.method ≠ "func".toList)
    (h : Heap K) (g : List Nat) (r : Nat) (hr : r ∉ g) :
    (deconvolveCall env da h g).1 r = h r := by
  have hsub : ∀ c, r ∉ onComps h g c := by
    intro c hc
    apply hr
    unfold onComps at hc
    split at hc
    · exact hc
    · exact (List.mem_filter.1 hc).1
  unfold deconvolveCall
  cases hd : deconvolve env.dec h g da with
  | mk h' res =>
    have hfr := C07_frame_partial env.dec h h' g da res (fun e => absurd e hfunc) hd r (hsub _) (hsub _)
    cases res with
    | error e => exact hfr
    | ok rsp =>
      simp only
      have hin : r ∉ rsp := by
        intro hin
        have : (deconvolve env.dec h g da).2 = .ok rsp := by rw [hd]
        exact hr (deconvolve_result_sub env.dec h g da hfunc rsp this r hin)
      unfold addInfoAll
      rw [forEachE_not_mem _ _ _ _ hin]
      exact hfr

theorem deconvolveCall_local (env : RfEnv K) (hnoise : NoiseLocal env.dec) (da : DeconvArgs K)
    (hm : da.method ≠ "func".toList) : GroupLocal (deconvolveCall env da) := by
  intro h h' g hA
  refine ⟨?_, ?_, fun r hr => deconvolveCall_frame' env da hm h g r hr⟩
  all_goals
    obtain ⟨h1, h2⟩ := deconvolve_local env.dec hnoise da hm h h' g hA
    have hres : ∀ l, (deconvolve env.dec h g da).2 = .ok l → ∀ r ∈ l, r ∈ g :=
      fun l hl => deconvolve_result_sub env.dec h g da hm l hl
    unfold deconvolveCall
    revert h1 h2 hres
    cases deconvolve env.dec h g da with
    | mk a e =>
      cases deconvolve env.dec h' g da with
      | mk a' e' =>
        intro h1 h2 hres
        simp only at h1 h2 hres
        subst h1
        cases e with
        | error e => first | rfl | exact h2
        | ok rsp => first | rfl | exact (h2.forEachE _ rsp (hres rsp rfl)).2

end call

end Verif.Props
