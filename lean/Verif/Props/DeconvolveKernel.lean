import Verif.Props.DeconvolveProps
import Verif.Props.DeconvTime

/-!
# What `deconvolve` passes to the numerical kernels (C86)
-/

set_option linter.unusedSimpArgs false
set_option linter.unusedSectionVars false

namespace Verif.Props
open Verif.Py Verif.Model Verif.Spec

section
variable {K : Type} [Field K] [LinearOrder K] [IsStrictOrderedRing K] [FloorRing K]

/-- Trace `l[i]` has the samples `rf[i]`. -/
def Results (h : Heap K) (l : List Nat) (rf : List (List K)) : Prop :=
  ∀ (i r : Nat), l[i]? = some r → rf[i]? = some (h r).data

theorem finish_results (h : Heap K) (rsp : List Nat) (fs : List (Trace K → Trace K)) (h' : Heap K)
    (l : List Nat) (hn : rsp.Nodup) (hf : finish h rsp (.ok fs) = (h', .ok l)) :
    ∀ (i r : Nat), rsp[i]? = some r → ∃ f, fs[i]? = some f ∧ h' r = f (h r) := by
  intro i r hr
  have hwb : writeBack h rsp fs = (h', none) := by
    unfold finish at hf
    simp only [] at hf
    cases hw : writeBack h rsp fs with
    | mk h2 e => rw [hw] at hf; cases e <;> simp at hf; rw [hf.1]
  have hlen : rsp.length ≤ fs.length := by
    by_contra hc
    have : ∀ (rsp : List Nat) (fs : List (Trace K → Trace K)) (h : Heap K), fs.length < rsp.length →
        (writeBack h rsp fs).2 ≠ none := by
      intro rsp
      induction rsp with
      | nil => intro fs h hl; simp at hl
      | cons q rsp ih =>
        intro fs h hl
        cases fs with
        | nil => simp [writeBack]
        | cons f fs => exact ih fs _ (by simpa using hl)
    exact this rsp fs h (by omega) (by rw [hwb])
  have hi : i < fs.length := by
    have := (List.getElem?_eq_some_iff.1 hr).1
    omega
  refine ⟨fs[i], List.getElem?_eq_getElem hi, ?_⟩
  rw [← writeBack_get h rsp fs hn i r fs[i] hr (List.getElem?_eq_getElem hi) hlen, hwb]

/-- **C86** 'freq' is another name of 'waterlevel'. -/
theorem C86_alias (env : DeconvEnv K) (h : Heap K) (s : List Nat) (a : DeconvArgs K) :
    deconvolve env h s { a with method := "freq".toList } =
      deconvolve env h s { a with method := "waterlevel".toList } := by
  have : deconvSelect h s { a with method := "freq".toList } =
      deconvSelect h s { a with method := "waterlevel".toList } := by
    unfold deconvSelect
    simp only []
    rw [show deconvMethod "freq".toList = deconvMethod "waterlevel".toList by decide]
  unfold deconvolve
  rw [this]

/-- **C86** A successful call with the window `(w0, w1, w2)` cuts the source from `w0` to `w1` around the onset,
tapers it by `w2` and passes it with the samples of the responses to the kernel of the method: the time domain
kernel gets the shift `n - M/2` for a window starting `n` samples before the onset with `M` samples, the
waterlevel and iterative kernels the time shift `-w0`, the multitaper kernel `w0`.  The results are stored in
the responses in order.  A given `normalize` keyword is passed on. -/
theorem C86_kernel_call (env : DeconvEnv K) (h h' : Heap K) (s : List Nat) (a : DeconvArgs K) (l : List Nat)
    (w0 w1 w2 : K) (hwin : a.winsrc = .tuple w0 w1 w2) (hn : s.Nodup) (hfn : a.method ≠ "func".toList)
    (hd : deconvolve env h s a = (h', .ok l)) :
    ∃ src ∈ s, OfComp a.srcComps (h src) ∧ ∃ (onset : K) (T c : Trace K) (nrm : Option Norm),
      T.data = (h src).data ∧ T.start = (h src).start ∧ T.sr = (h src).sr ∧ T.getTime "onset" = some onset ∧
      c = env.taper (env.trimPad T (onset + w0) (onset + w1)) w2 ∧ (∀ n, a.normalize = some n → nrm = some n) ∧
      ((0 < (h src).sr → SnappedOnset (h src) onset) ∧
        ∀ r ∈ l, (h' r).getTime "onset" = some onset ∧ (h' r).start = (h r).start ∧ (h' r).sr = (h r).sr) ∧
      (a.method = "time".toList → ∀ n : ℤ, -w0 * (h src).sr = n → ∃ rf,
        env.time (l.map fun r => (h r).data) c.data (n - ((c.data.length / 2 : Nat) : ℤ)) nrm = .ok rf ∧
          Results h' l rf) ∧
      (a.method = "waterlevel".toList ∨ a.method = "freq".toList → ∃ rf,
        env.water (l.map fun r => (h r).data) c.data (h src).sr (-w0) nrm = .ok rf ∧ Results h' l rf) ∧
      (a.method = "iterative".toList → ∃ rf,
        env.iter (l.map fun r => (h r).data) c.data (h src).sr (-w0) nrm = .ok rf ∧
          Results h' l (rf.map Prod.fst) ∧
          ∀ (i r : Nat), l[i]? = some r → ∃ p, rf[i]? = some p ∧ (h' r).getNum "iterations" = some ((p.2 : Nat) : K)) ∧
      (a.method = "multitaper".toList → ∃ nse rf,
        env.mt (l.map fun r => (h r).data) c.data nse (h src).sr w0 nrm = .ok rf ∧ Results h' l rf) := by
  rcases deconvolve_cases env h h' s a _ hd with ⟨_, e, he⟩ |
    ⟨m, src, rsp, nrm, o, idx, onset, hsel, ho, hf, hon, hc⟩
  · cases he
  rcases hc with ⟨_, e, he⟩ | ⟨v0, v1, v2, srcT, h2, hw, hT, h2e, hk⟩
  · cases he
  obtain ⟨s1, s2, s3, s4, s5, s6⟩ := deconvSelect_ok h s a m src rsp nrm hsel
  have hcha := (selectComps_ok h a.srcComps s [src] s2).1
  have hsel1 := selectComps_eq h a.srcComps s hcha
  have hsel2 := selectRsp_eq h a.rspComps s hcha
  rw [s2] at hsel1
  rw [s3] at hsel2
  simp only [Except.ok.injEq] at hsel1 hsel2
  have hsrc : src ∈ s ∧ OfComp a.srcComps (h src) := by
    have : src ∈ onComps h s (some a.srcComps) := by rw [← hsel1]; simp
    unfold onComps at this
    simpa using this
  have hrn : rsp.Nodup := by
    rw [hsel2]
    cases a.rspComps with
    | none => exact hn
    | some c => exact hn.filter _
  have hmf : m ≠ .func := by rintro rfl; exact hfn (deconvMethod_func _ s1)
  rw [hwin] at hw
  simp only [sourceWindow, Except.ok.injEq, Prod.mk.injEq] at hw
  obtain ⟨rfl, rfl, rfl⟩ := hw
  have hl : l = rsp := by
    have : (runKernel env m h2 s rsp a.rspComps srcT (h src).sr (-w0) nrm).2 = .ok l := by rw [hk]
    unfold runKernel at this
    cases m with
    | func => exact absurd rfl hmf
    | time => exact finish_result _ _ _ _ this
    | waterlevel => exact finish_result _ _ _ _ this
    | iterative => exact finish_result _ _ _ _ this
    | multitaper => exact finish_result _ _ _ _ this
  subst hl
  have hdata : l.map (fun r => (h2 r).data) = l.map (fun r => (h r).data) := by
    apply List.map_congr_left
    intro r hr
    have hsn : (snapped h src l onset r).data = (h r).data := snapped_inv (fun t => t.data) (fun _ _ => rfl) h src l onset r
    rw [h2e]
    split
    · exact hsn
    · rename_i hno
      rw [Heap.set_ne]
      · exact hsn
      · rintro rfl
        apply hno
        unfold indexOf?
        rw [List.findIdx?_isSome]
        simp only [List.any_eq_true, Bool.or_eq_true, decide_eq_true_eq]
        exact ⟨r, hr, Or.inl rfl⟩
  have hmeth : ∀ x, deconvMethod x = some m → a.method = x → deconvMethod a.method = some m := by
    intro x hx hx'; rw [hx']; exact hx
  refine ⟨src, hsrc.1, hsrc.2, onset, snapped h src l onset src, srcT, nrm,
    snapped_inv (fun t => t.data) (fun _ _ => rfl) h src l onset src,
    snapped_inv (fun t => t.start) (fun _ _ => rfl) h src l onset src,
    snapped_inv (fun t => t.sr) (fun _ _ => rfl) h src l onset src,
    snapped_onset h src l onset src (Or.inl rfl), hT, fun n hn => by rw [s6, hn]; rfl, ⟨fun hpos => ?_, fun r hr => ?_⟩,
    ?_, ?_, ?_, ?_⟩
  · have hex := findNearest_ok_exists _ _ _ hf
    obtain ⟨i, hi, hnear⟩ := findNearest_ok _ (o - (h src).start) (times_sorted (h src) hpos) hex
    rw [hi] at hf
    obtain rfl := Except.ok.inj hf
    obtain ⟨x, hx, hmin⟩ := hnear
    obtain ⟨hin, rfl⟩ := times_get _ _ _ hx
    have hdel : (h src).delta = 1 / (h src).sr := rfl
    refine ⟨o, i, ho, hin, by rw [hon, hdel]; ring, fun j hj => ?_⟩
    have := hmin ((j : K) * (h src).delta) ((mem_times _ _).2 ⟨j, hj, rfl⟩)
    rw [hdel] at this
    have e1 : ∀ k : Nat, o - ((h src).start + (k : K) / (h src).sr)
        = o - (h src).start - (k : K) * (1 / (h src).sr) := by intro k; ring
    rw [hon, hdel, e1, show o - ((h src).start + (i : K) * (1 / (h src).sr))
      = o - (h src).start - (i : K) * (1 / (h src).sr) by ring]
    exact this
  · have h2r : h2 r = snapped h src l onset r := by
      rw [h2e]
      split
      · rfl
      · rename_i hno
        rw [Heap.set_ne]
        rintro rfl
        apply hno
        unfold indexOf?
        rw [List.findIdx?_isSome]
        simp only [List.any_eq_true, Bool.or_eq_true, decide_eq_true_eq]
        exact ⟨r, hr, Or.inl rfl⟩
    have g1 := runKernel_inv (fun t : Trace K => t.getTime "onset") (fun d t => rfl)
      (fun x t => by simp [Trace.getTime, Trace.put, Dict.get_set_ne]) env m h2 s l a.rspComps srcT
      (h src).sr (-w0) nrm hmf r
    have g2 := runKernel_inv (fun t : Trace K => (t.start, t.sr)) (fun d t => rfl)
      (fun x t => rfl) env m h2 s l a.rspComps srcT (h src).sr (-w0) nrm hmf r
    rw [hk] at g1 g2
    simp only [h2r, Prod.mk.injEq] at g1 g2
    exact ⟨g1.trans (snapped_onset h src l onset r (Or.inr hr)),
      g2.1.trans (snapped_inv (fun t => t.start) (fun _ _ => rfl) h src l onset r),
      g2.2.trans (snapped_inv (fun t => t.sr) (fun _ _ => rfl) h src l onset r)⟩
  · intro hm n hn'
    rw [hm] at s1
    have : m = .time := by
      have e : deconvMethod "time".toList = some .time := by decide
      rw [e] at s1; exact (Option.some.inj s1).symm
    subst this
    unfold runKernel at hk
    simp only [hdata] at hk
    have hshift : pyRound (-w0 * (h src).sr - ((srcT.npts / 2 : Nat) : K)) =
        n - ((srcT.data.length / 2 : Nat) : ℤ) := by
      rw [hn']
      have : (n : K) - ((srcT.npts / 2 : Nat) : K) = ((n - ((srcT.data.length / 2 : Nat) : ℤ) : ℤ) : K) := by
        rw [Int.cast_sub, Int.cast_natCast]; rfl
      rw [this, pyRound_int]
    rw [hshift] at hk
    cases hr : env.time (l.map fun r => (h r).data) srcT.data (n - ((srcT.data.length / 2 : Nat) : ℤ)) nrm with
    | error e => rw [hr] at hk; cases hk
    | ok rf =>
      rw [hr] at hk
      refine ⟨rf, rfl, fun i r hi => ?_⟩
      obtain ⟨f, h1, h3⟩ := finish_results h2 l _ h' l hrn hk i r hi
      rw [List.getElem?_map] at h1
      cases hri : rf[i]? with
      | none => rw [hri] at h1; cases h1
      | some d => rw [hri] at h1; cases h1; rw [h3]; rfl
  · intro hm
    have : m = .waterlevel := by
      rcases hm with hm | hm <;>
      · rw [hm] at s1
        first
        | (have e : deconvMethod "waterlevel".toList = some .waterlevel := by decide
           rw [e] at s1; exact (Option.some.inj s1).symm)
        | (have e : deconvMethod "freq".toList = some .waterlevel := by decide
           rw [e] at s1; exact (Option.some.inj s1).symm)
    subst this
    unfold runKernel at hk
    simp only [hdata] at hk
    cases hr : env.water (l.map fun r => (h r).data) srcT.data (h src).sr (-w0) nrm with
    | error e => rw [hr] at hk; cases hk
    | ok rf =>
      rw [hr] at hk
      refine ⟨rf, rfl, fun i r hi => ?_⟩
      obtain ⟨f, h1, h3⟩ := finish_results h2 l _ h' l hrn hk i r hi
      rw [List.getElem?_map] at h1
      cases hri : rf[i]? with
      | none => rw [hri] at h1; cases h1
      | some d => rw [hri] at h1; cases h1; rw [h3]; rfl
  · intro hm
    rw [hm] at s1
    have : m = .iterative := by
      have e : deconvMethod "iterative".toList = some .iterative := by decide
      rw [e] at s1; exact (Option.some.inj s1).symm
    subst this
    unfold runKernel at hk
    simp only [hdata] at hk
    cases hr : env.iter (l.map fun r => (h r).data) srcT.data (h src).sr (-w0) nrm with
    | error e => rw [hr] at hk; cases hk
    | ok rf =>
      rw [hr] at hk
      have key : ∀ (i r : Nat), l[i]? = some r → ∃ p, rf[i]? = some p ∧
          h' r = (setData p.1 (h2 r)).put "iterations" (.num ((p.2 : Nat) : K)) := by
        intro i r hi
        obtain ⟨f, h1, h3⟩ := finish_results h2 l _ h' l hrn hk i r hi
        rw [List.getElem?_map] at h1
        cases hri : rf[i]? with
        | none => rw [hri] at h1; cases h1
        | some p => rw [hri] at h1; cases h1; exact ⟨p, rfl, h3⟩
      refine ⟨rf, rfl, fun i r hi => ?_, fun i r hi => ?_⟩
      · obtain ⟨p, h1, h3⟩ := key i r hi
        rw [List.getElem?_map, h1, h3]
        rfl
      · obtain ⟨p, h1, h3⟩ := key i r hi
        refine ⟨p, h1, ?_⟩
        rw [h3]
        unfold Trace.getNum Trace.put
        simp only [Dict.get_set_self]
  · intro hm
    rw [hm] at s1
    have : m = .multitaper := by
      have e : deconvMethod "multitaper".toList = some .multitaper := by decide
      rw [e] at s1; exact (Option.some.inj s1).symm
    subst this
    unfold runKernel at hk
    simp only [hdata, neg_neg] at hk
    cases hnoi : env.noise h2 s l a.rspComps with
    | error e => rw [hnoi] at hk; cases hk
    | ok nse =>
    rw [hnoi] at hk
    simp only [Except.bind] at hk
    cases hr : env.mt (l.map fun r => (h r).data) srcT.data nse (h src).sr w0 nrm with
    | error e => rw [hr] at hk; cases hk
    | ok rf =>
      rw [hr] at hk
      refine ⟨_, rf, hr, fun i r hi => ?_⟩
      obtain ⟨f, h1, h3⟩ := finish_results h2 l _ h' l hrn hk i r hi
      rw [List.getElem?_map] at h1
      cases hri : rf[i]? with
      | none => rw [hri] at h1; cases h1
      | some d => rw [hri] at h1; cases h1; rw [h3]; rfl

end

section examples

/-- A kernel which shows its arguments: all samples become the shift. -/
def kEnv : DeconvEnv ℚ := { dEnv with
  time := fun r s sh _ => .ok (r.map fun d => d.map fun _ => (sh : ℚ) + 100 * s.length)
  water := fun r s _ ts _ => .ok (r.map fun d => d.map fun _ => ts + 100 * s.length)
  mt := fun r s _ _ ts _ => .ok (r.map fun d => d.map fun _ => ts + 100 * s.length) }

/-- Window from 0.5 s before to 0.5 s after the onset, two samples per second: three samples, the time kernel gets
the shift 1 - 1 = 0, the waterlevel kernel 0.5 s and the multitaper kernel -0.5 s. -/
example : (deconvolve kEnv dHeap [0, 1, 2] { dArgs with winsrc := .tuple (-1/2) (1/2) 0 }).2 = .ok [0, 1, 2] ∧
    ((deconvolve kEnv dHeap [0, 1, 2] { dArgs with winsrc := .tuple (-1/2) (1/2) 0 }).1 1).data =
      [300, 300, 300, 300, 300] ∧
    ((deconvolve kEnv dHeap [0, 1, 2] { dArgs with
      method := "waterlevel".toList, winsrc := .tuple (-1/2) (1/2) 0 }).1 1).data.head? = some (300 + 1/2) ∧
    ((deconvolve kEnv dHeap [0, 1, 2] { dArgs with
      method := "multitaper".toList, winsrc := .tuple (-1/2) (1/2) 0 }).1 1).data.head? = some (300 - 1/2) := by
  decide +kernel

end examples
end Verif.Props
