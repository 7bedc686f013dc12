import Verif.Props.NoiseUse

/-!
# C192: the keyword `noise` of the multitaper method

The property expected: each response is deconvolved with the noise of its component.  It is false of the code: noise and
responses are put together by their positions in the two streams (`C192_position`, `C192_counterexample`).  It holds if
both streams have the components in the same order (`C192_own_partial`).
-/

set_option linter.unusedSimpArgs false
set_option linter.unusedSectionVars false

namespace Verif.Props
open Verif.Py Verif.Model Verif.Spec

section
variable {K : Type} [Field K] [LinearOrder K] [IsStrictOrderedRing K] [FloorRing K]

/-- **C192**: what the kernel gets. -/
theorem C192_position (g : Heap K) (ns : List Nat) (dec : DeconvEnv K) (h h' : Heap K)
    (s : List Nat) (a : DeconvArgs K) (l : List Nat) (hn : s.Nodup) (hm : a.method = "multitaper".toList)
    (hd : deconvolve (withGivenNoise g ns dec) h s a = (h', .ok l)) :
    l = onComps h s a.rspComps ∧ ∃ src srcT w0 nrm rf,
      dec.mt (l.map fun r => (h r).data) srcT ((onComps g ns a.rspComps).map fun r => (g r).data) (h src).sr w0 nrm = .ok rf ∧
      Results h' l rf := by
  rcases deconvolve_cases (withGivenNoise g ns dec) h h' s a _ hd with ⟨_, e, he⟩ |
    ⟨m, src, rsp, nrm, o, idx, onset, hsel, ho, hf, hon, hc⟩
  · cases he
  rcases hc with ⟨_, e, he⟩ | ⟨w0, w1, w2, srcT, h2, hw, hT, h2e, hk⟩
  · cases he
  obtain ⟨s1, s2, s3, s4, s5, s6⟩ := deconvSelect_ok h s a m src rsp nrm hsel
  have hrsp : rsp = onComps h s a.rspComps := (selectRsp_ok h a.rspComps s rsp s3).1
  have hmm : m = .multitaper := by
    rw [hm] at s1
    have e : deconvMethod "multitaper".toList = some .multitaper := by decide
    rw [e] at s1; exact (Option.some.inj s1).symm
  subst hmm
  have hl : l = rsp := by
    have : (runKernel (withGivenNoise g ns dec) .multitaper h2 s rsp a.rspComps srcT (h src).sr (-w0) nrm).2 = .ok l := by rw [hk]
    unfold runKernel at this
    exact finish_result _ _ _ _ this
  subst hl
  have hrn : l.Nodup := by rw [hrsp]; exact hn.sublist (onComps_sublist h s _)
  have h2r : ∀ r ∈ l, h2 r = (h r).put "onset" (.time onset) := fun r hr => by
    rw [h2e]; exact kernelHeap_rsp h src l onset srcT r hr
  have hdata : l.map (fun r => (h2 r).data) = l.map (fun r => (h r).data) :=
    List.map_congr_left fun r hr => by rw [h2r r hr]; rfl
  unfold runKernel at hk
  simp only [hdata, neg_neg] at hk
  rw [show (withGivenNoise g ns dec).noise h2 s l a.rspComps = givenNoise g ns a.rspComps from rfl] at hk
  unfold givenNoise at hk
  cases hs : selectRsp g a.rspComps ns with
  | error e => rw [hs] at hk; cases hk
  | ok q =>
    rw [hs] at hk
    have hq := (selectRsp_ok g a.rspComps ns q hs).1
    subst hq
    simp only [Except.map, Except.bind] at hk
    cases hr : dec.mt (l.map fun r => (h r).data) srcT.data ((onComps g ns a.rspComps).map fun r => (g r).data) (h src).sr w0 nrm with
    | error e => rw [show (withGivenNoise g ns dec).mt = dec.mt from rfl, hr] at hk; cases hk
    | ok rf =>
      rw [show (withGivenNoise g ns dec).mt = dec.mt from rfl, hr] at hk
      refine ⟨hrsp, src, srcT.data, w0, nrm, rf, hr, fun i r hi => ?_⟩
      obtain ⟨f, h1, h3⟩ := finish_results h2 l _ h' l hrn hk i r hi
      rw [List.getElem?_map] at h1
      cases hri : rf[i]? with
      | none => rw [hri] at h1; cases h1
      | some d => rw [hri] at h1; cases h1; rw [h3]; rfl

/-- **C192, partial**: if the response components are in the same order in the noise and in the record, each response is
deconvolved with the noise of its channel. -/
theorem C192_own_partial (g : Heap K) (ns : List Nat) (dec : DeconvEnv K) (h h' : Heap K)
    (s : List Nat) (a : DeconvArgs K) (l : List Nat) (hn : s.Nodup) (hm : a.method = "multitaper".toList)
    (hord : (onComps g ns a.rspComps).map (fun r => (g r).cha) = (onComps h s a.rspComps).map fun r => (h r).cha)
    (hd : deconvolve (withGivenNoise g ns dec) h s a = (h', .ok l)) :
    ∃ (ν : Nat → Nat) (src : Nat) (srcT : List K) (w0 : K) (nrm : Option Norm) (rf : List (List K)),
      (∀ r ∈ l, ν r ∈ ns ∧ (g (ν r)).cha = (h r).cha) ∧
      dec.mt (l.map fun r => (h r).data) srcT (l.map fun r => (g (ν r)).data) (h src).sr w0 nrm = .ok rf ∧ Results h' l rf := by
  obtain ⟨hl, src, srcT, w0, nrm, rf, h1, h2⟩ := C192_position g ns dec h h' s a l hn hm hd
  have hln : l.Nodup := by rw [hl]; exact hn.sublist (onComps_sublist h s _)
  rw [← hl] at hord
  have hex : ∀ (l q : List Nat), l.Nodup → q.map (fun r => (g r).cha) = l.map (fun r => (h r).cha) →
      ∃ ν : Nat → Nat, q = l.map ν ∧ ∀ r ∈ l, (g (ν r)).cha = (h r).cha := by
    intro l
    induction l with
    | nil => intro q _ hq; exact ⟨id, by simpa using hq, fun r hr => by cases hr⟩
    | cons x l ih =>
      intro q hnd hq
      cases q with
      | nil => cases hq
      | cons y q =>
        simp only [List.map_cons, List.cons.injEq] at hq
        obtain ⟨hx, hnd⟩ := List.nodup_cons.1 hnd
        obtain ⟨ν, e1, e2⟩ := ih q hnd hq.2
        refine ⟨fun r => if r = x then y else ν r, ?_, ?_⟩
        · simp only [List.map_cons, if_true]
          rw [e1]
          congr 1
          refine List.map_congr_left fun r hr => ?_
          have e : r ≠ x := fun e => hx (by rw [← e]; exact hr)
          rw [if_neg e]
        · intro r hr
          simp only
          split
          · rename_i e; rw [e]; exact hq.1
          · rename_i e
            rcases List.mem_cons.1 hr with e' | hr
            · exact absurd e' e
            · exact e2 r hr
  obtain ⟨ν, e1, e2⟩ := hex l _ hln hord
  refine ⟨ν, src, srcT, w0, nrm, rf, fun r hr => ⟨?_, e2 r hr⟩, ?_, h2⟩
  · refine (onComps_sublist g ns a.rspComps).subset ?_
    rw [e1]
    exact List.mem_map_of_mem hr
  · rw [e1, List.map_map] at h1
    exact h1

end

/-- **C192**: with the multitaper function of the package there has to be a noise trace for each response; further ones
are ignored or not, but never reported. -/
theorem C192_enough (ka : KernelArgs) (g : Heap ℝ) (ns : List Nat) (dec : DeconvEnv ℝ) (h h' : Heap ℝ)
    (s : List Nat) (a : DeconvArgs ℝ) (l : List Nat) (hn : s.Nodup) (hm : a.method = "multitaper".toList)
    (hd : deconvolve (withGivenNoise g ns (withKernels ka dec)) h s a = (h', .ok l)) :
    l.length ≤ (onComps g ns a.rspComps).length := by
  obtain ⟨-, src, srcT, w0, nrm, rf, h1, -⟩ := C192_position g ns (withKernels ka dec) h h' s a l hn hm hd
  have := mtKernel_noise ka _ _ _ _ _ _ _ h1
  simpa using this

section examples

/-- A noise stream. -/
def gHeap : Heap ℚ := fun r => { nHeap 0 r with data := [(r : ℚ), r] }

/-- C192 as stated is false: the noise has the components in the order T, Q, L; the kernel (which returns the noise) gets
the noise of T for the component L and that of L for the component T. -/
theorem C192_counterexample :
    (gHeap 2).cha = (nHeap 110 2).cha ∧ (gHeap 2).cha ≠ (nHeap 110 0).cha ∧
    let out := deconvolve (withGivenNoise gHeap [2, 1, 0] nEnv) (nHeap 110) [0, 1, 2] nArgs
    (match out.2 with | .ok l => l | _ => []) = [0, 1, 2] ∧
    (out.1 0).data = (gHeap 2).data ∧ (out.1 1).data = (gHeap 1).data ∧ (out.1 2).data = (gHeap 0).data := by
  decide +kernel

/-- The hypotheses of `C192_own_partial` are met: the same order. -/
example : (onComps gHeap [0, 1, 2] nArgs.rspComps).map (fun r => (gHeap r).cha) =
      (onComps (nHeap 110) [0, 1, 2] nArgs.rspComps).map (fun r => (nHeap 110 r).cha) ∧
    let out := deconvolve (withGivenNoise gHeap [0, 1, 2] nEnv) (nHeap 110) [0, 1, 2] nArgs
    (match out.2 with | .ok l => l | _ => []) = [0, 1, 2] ∧ (out.1 1).data = (gHeap 1).data := by
  decide +kernel

end examples
end Verif.Props
