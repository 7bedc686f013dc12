import Verif.Props.DeconvolveCall
import Mathlib.Data.List.NodupEquivFin

/-!
# Property theorems C04 - C08
-/

set_option linter.unusedSimpArgs false
set_option linter.unusedSectionVars false

namespace Verif.Props
open Verif.Py Verif.Model Verif.Spec

section props
variable {K : Type} [Field K] [LinearOrder K] [IsStrictOrderedRing K] [FloorRing K]

/-- ObsPy's `trim` and `taper` keep additional header entries. -/
def KeepsExt (env : DeconvEnv K) : Prop :=
  (∀ t a b, (env.trimPad t a b).ext = t.ext) ∧ ∀ t x, (env.taper t x).ext = t.ext

theorem findNearest_ok_exists (a : List K) (v : K) (i : Nat) (h : findNearest a v = .ok i) :
    ∃ x ∈ a, v ≤ x := by
  by_contra hne
  push Not at hne
  rw [findNearest_error a v hne] at h
  cases h

/-- **C04** (partial: for an onset after the last sample the call fails, see
`C04_after_end_fails`).  After a successful call the onset of the source and of all results is a
sample time of the source trace, no sample is closer to the old onset, and for an onset inside the
data it has moved by at most half a sample. -/
theorem C04_snapped_partial (env : DeconvEnv K) (h h' : Heap K) (s : List Nat) (a : DeconvArgs K)
    (l : List Nat) (hm : a.method ≠ "func".toList) (hkeep : KeepsExt env)
    (hsr : ∀ r ∈ s, 0 < (h r).sr) (hd : deconvolve env h s a = (h', .ok l)) :
    ∃ src ∈ s, OfComp a.srcComps (h src) ∧ ∃ (o : K) (i : Nat),
      (h src).getTime "onset" = some o ∧ i < (h src).data.length ∧
      (∀ r, r = src ∨ r ∈ l → (h' r).getTime "onset" = some ((h src).start + (i : K) / (h src).sr)) ∧
      (∀ j : Nat, j < (h src).data.length →
        |o - ((h src).start + (i : K) / (h src).sr)| ≤ |o - ((h src).start + (j : K) / (h src).sr)|) ∧
      ((h src).start ≤ o → |o - ((h src).start + (i : K) / (h src).sr)| ≤ 1 / (h src).sr / 2) := by
  rcases deconvolve_cases env h h' s a _ hd with ⟨_, e, he⟩ | ⟨m, src, rsp, nrm, o, idx, onset, hsel, ho, hf, hon, hc⟩
  · cases he
  rcases hc with ⟨_, e, he⟩ | ⟨w0, w1, w2, srcT, h2, hw, hT, h2e, hk⟩
  · cases he
  obtain ⟨s1, s2, s3, s4, s5, s6⟩ := deconvSelect_ok h s a m src rsp nrm hsel
  have hmf : m ≠ .func := by
    rintro rfl
    exact hm (deconvMethod_func _ s1)
  have hsrc := (mem_selectComps h a.srcComps s [src] s2 src).1 (by simp)
  have hpos := hsr src hsrc.1
  have hex := findNearest_ok_exists _ _ _ hf
  obtain ⟨i, hi, hnear⟩ := findNearest_ok _ (o - (h src).start) (times_sorted (h src) hpos) hex
  rw [hi] at hf
  simp only [Except.ok.injEq] at hf
  subst hf
  obtain ⟨x, hx, hmin⟩ := hnear
  obtain ⟨hin, rfl⟩ := times_get _ _ _ hx
  have hdel : (h src).delta = 1 / (h src).sr := rfl
  have hl : l = rsp := runKernel_result env m h2 s rsp a.rspComps srcT _ _ nrm l hmf (by rw [hk])
  refine ⟨src, hsrc.1, hsrc.2, o, i, ho, hin, ?_, ?_, ?_⟩
  · intro r hr
    have hg := runKernel_inv (fun t : Trace K => t.getTime "onset") (fun d t => rfl)
      (fun x t => by simp [Trace.getTime, Trace.put, Dict.get_set_ne]) env m h2 s rsp a.rspComps srcT
      (h src).sr (-w0) nrm hmf r
    rw [hk] at hg
    have hsn := snapped_onset h src rsp onset r (by rw [← hl]; exact hr)
    have h2r : (h2 r).getTime "onset" = some onset := by
      rw [h2e]
      split
      · exact hsn
      · by_cases hrs : r = src
        · subst hrs
          rw [Heap.set_self]
          have : srcT.ext = (snapped h r rsp onset r).ext := by rw [hT, hkeep.2, hkeep.1]
          simp only [Trace.getTime, this] at hsn ⊢
          exact hsn
        · rw [Heap.set_ne _ _ hrs]; exact hsn
    simp only at hg
    rw [hg, h2r, hon, hdel]
    congr 2
    ring
  · intro j hj
    have := hmin ((j : K) * (h src).delta) ((mem_times _ _).2 ⟨j, hj, rfl⟩)
    rw [hdel] at this
    have e1 : ∀ k : Nat, o - ((h src).start + (k : K) / (h src).sr)
        = o - (h src).start - (k : K) * (1 / (h src).sr) := by intro k; ring
    rw [e1, e1]
    exact this
  · intro hst
    have := half_sample (h src) hpos (o - (h src).start) (by linarith) hex i
      ⟨_, hx, hmin⟩
    rw [hdel] at this
    have e1 : o - ((h src).start + (i : K) / (h src).sr)
        = o - (h src).start - (i : K) * (1 / (h src).sr) := by ring
    rw [e1]
    exact this

/-- **C04, negation.**  If the onset is after the last sample of an admissible source trace, there is a
nearest sample (the last one), but every call fails with `IndexError`. -/
theorem C04_after_end_fails (env : DeconvEnv K) (h : Heap K) (s : List Nat) (a : DeconvArgs K)
    (m : DMethod) (src : Nat) (rsp : List Nat) (nrm : Option Norm) (o : K)
    (hsel : deconvSelect h s a = .ok (m, src, rsp, nrm)) (ho : (h src).getTime "onset" = some o)
    (hend : ∀ j : Nat, j < (h src).data.length → (h src).start + (j : K) / (h src).sr < o) :
    deconvolve env h s a = (h, .error .indexError) := by
  unfold deconvolve
  rw [hsel]
  simp only [ho]
  rw [findNearest_error]
  intro x hx
  obtain ⟨j, hj, rfl⟩ := (mem_times _ _).1 hx
  have := hend j hj
  have e : (j : K) * (h src).delta = (j : K) / (h src).sr := by unfold Trace.delta; ring
  rw [e]
  linarith

theorem selectComps_eq (h : Heap K) (comps : Str) (s : List Nat) (hcha : ∀ r ∈ s, (h r).cha ≠ []) :
    selectComps h comps s = .ok (onComps h s (some comps)) := by
  obtain ⟨l, hl⟩ := selectComps_total h comps s hcha
  rw [hl, (selectComps_ok h comps s l hl).2]
  congr 1
  refine List.filter_congr ?_
  intro r hr
  rw [Bool.eq_iff_iff, decide_eq_true_iff]
  unfold OfComp Trace.comp
  cases (h r).cha.getLast? <;> simp

theorem selectRsp_eq (h : Heap K) (comps : Option Str) (s : List Nat)
    (hcha : ∀ r ∈ s, (h r).cha ≠ []) : selectRsp h comps s = .ok (onComps h s comps) := by
  cases comps with
  | none => rfl
  | some c => exact selectComps_eq h c s hcha

/-- **C05** (rejection).  If all channel codes are non-empty, an unknown method is rejected with
`NotImplementedError`, any number of source traces other than one and any number of responses outside
1..3 with `ValueError`; the heap is unchanged. -/
theorem C05_rejects (env : DeconvEnv K) (h : Heap K) (s : List Nat) (a : DeconvArgs K)
    (hcha : ∀ r ∈ s, (h r).cha ≠ []) :
    (¬ KnownMethod a.method → deconvolve env h s a = (h, .error .notImplemented)) ∧
    (KnownMethod a.method → ((onComps h s (some a.srcComps)).length ≠ 1 ∨
        (onComps h s a.rspComps).length = 0 ∨ 3 < (onComps h s a.rspComps).length) →
      deconvolve env h s a = (h, .error .valueError)) := by
  constructor
  · intro hk
    have : deconvMethod a.method = none := by
      rw [← Option.not_isSome_iff_eq_none, deconvMethod_iff]; exact hk
    unfold deconvolve deconvSelect
    rw [this]
  · intro hk hbad
    obtain ⟨m, hm⟩ := Option.isSome_iff_exists.1 ((deconvMethod_iff a.method).2 hk)
    unfold deconvolve deconvSelect
    rw [hm]
    simp only
    rw [selectComps_eq h a.srcComps s hcha]
    generalize onComps h s (some a.srcComps) = srcs at hbad ⊢
    match srcs, hbad with
    | [], _ => rfl
    | _ :: _ :: _, _ => rfl
    | [x], hbad =>
      simp only
      rw [selectRsp_eq h a.rspComps s hcha]
      simp only
      rw [if_neg (by simp only [List.length_singleton, ne_eq, not_true_eq_false, false_or] at hbad; omega)]

/-- The selection made for an admissible call. -/
theorem deconvSelect_eq (h : Heap K) (s : List Nat) (a : DeconvArgs K) (m : DMethod) (src : Nat)
    (hcha : ∀ r ∈ s, (h r).cha ≠ []) (hm : deconvMethod a.method = some m)
    (hsrc : onComps h s (some a.srcComps) = [src])
    (h1 : 1 ≤ (onComps h s a.rspComps).length) (h2 : (onComps h s a.rspComps).length ≤ 3) :
    deconvSelect h s a = .ok (m, src, onComps h s a.rspComps,
      normKw h a.normalize src (onComps h s a.rspComps)) := by
  unfold deconvSelect
  rw [hm]
  simp only
  rw [selectComps_eq h a.srcComps s hcha, hsrc]
  simp only
  rw [selectRsp_eq h a.rspComps s hcha]
  simp only
  rw [if_pos ⟨by omega, by omega⟩]

/-- The kernels return one array per response. -/
def KernelsTotal (env : DeconvEnv K) : Prop :=
  (∀ r s i n, ∃ l, env.time r s i n = .ok l ∧ l.length = r.length) ∧
  (∀ r s x y n, ∃ l, env.water r s x y n = .ok l ∧ l.length = r.length) ∧
  (∀ r s x y n, ∃ l, env.iter r s x y n = .ok l ∧ l.length = r.length) ∧
  (∀ r s q x y n, ∃ l, env.mt r s q x y n = .ok l ∧ l.length = r.length) ∧
  ∀ h s rsp c, ∃ nse, env.noise h s rsp c = .ok nse

theorem finish_total (h : Heap K) (rsp : List Nat) (res : Res (List (Trace K → Trace K)))
    (fs : List (Trace K → Trace K)) (hf : res = .ok fs) (hl : fs.length = rsp.length) :
    ∃ h', finish h rsp res = (h', .ok rsp) := by
  subst hf
  have := writeBack_ok h rsp fs hl.ge
  unfold finish
  simp only
  cases hw : writeBack h rsp fs with
  | mk h' e => rw [hw] at this; simp only at this; subst this; exact ⟨h', rfl⟩

/-- **C05** (acceptance).  With a known method, exactly one source trace and one to three responses, an
onset not after the last sample and a valid window, the call succeeds and returns exactly the selected
responses in stream order. -/
theorem C05_accepts (env : DeconvEnv K) (h : Heap K) (s : List Nat) (a : DeconvArgs K) (src : Nat)
    (o : K) (hcha : ∀ r ∈ s, (h r).cha ≠ []) (hk : KnownMethod a.method)
    (hfn : a.method ≠ "func".toList) (hsrc : onComps h s (some a.srcComps) = [src])
    (h1 : 1 ≤ (onComps h s a.rspComps).length) (h2 : (onComps h s a.rspComps).length ≤ 3)
    (hsr : 0 < (h src).sr) (ho : (h src).getTime "onset" = some o)
    (hin : ∃ j : Nat, j < (h src).data.length ∧ o ≤ (h src).start + (j : K) / (h src).sr)
    (hw : a.winsrc = .letter "P".toList ∨ a.winsrc = .letter "S".toList ∨
      ∃ x y z, a.winsrc = .tuple x y z) (hker : KernelsTotal env) :
    ∃ h', deconvolve env h s a = (h', .ok (onComps h s a.rspComps)) := by
  obtain ⟨m, hm⟩ := Option.isSome_iff_exists.1 ((deconvMethod_iff a.method).2 hk)
  have hmf : m ≠ .func := by rintro rfl; exact hfn (deconvMethod_func _ hm)
  obtain ⟨idx, hidx, _⟩ := findNearest_ok (times (h src)) (o - (h src).start)
    (times_sorted (h src) hsr) (by
      obtain ⟨j, hj, hjo⟩ := hin
      refine ⟨_, (mem_times _ _).2 ⟨j, hj, rfl⟩, ?_⟩
      have e : (j : K) * (h src).delta = (j : K) / (h src).sr := by unfold Trace.delta; ring
      rw [e]; linarith)
  have hwin : ∀ x y, ∃ w0 w1 w2, sourceWindow m a.winsrc x y = .ok (w0, w1, w2) := by
    intro x y
    rcases hw with e | e | ⟨p, q, r, e⟩
    · rw [e]; unfold sourceWindow; simp only [if_true]
      cases m <;> exact ⟨_, _, _, rfl⟩
    · rw [e]; unfold sourceWindow; simp only [if_true]; rw [if_neg (by decide)]
      cases m <;> exact ⟨_, _, _, rfl⟩
    · rw [e]; exact ⟨p, q, r, rfl⟩
  unfold deconvolve
  rw [deconvSelect_eq h s a m src hcha hm hsrc h1 h2]
  simp only [ho, hidx]
  obtain ⟨w0, w1, w2, hw'⟩ := hwin ((h src).endtime - (h src).start)
    ((h src).start + (idx : K) * (h src).delta - (h src).start)
  rw [hw']
  simp only
  obtain ⟨k1, k2, k3, k4, k5⟩ := hker
  unfold runKernel
  cases m with
  | func => exact absurd rfl hmf
  | time =>
    simp only
    obtain ⟨l, e, hl⟩ := k1 _ _ _ _
    rw [e]
    exact finish_total _ _ _ _ rfl (by simpa using hl)
  | waterlevel =>
    simp only
    obtain ⟨l, e, hl⟩ := k2 _ _ _ _ _
    rw [e]
    exact finish_total _ _ _ _ rfl (by simpa using hl)
  | iterative =>
    simp only
    obtain ⟨l, e, hl⟩ := k3 _ _ _ _ _
    rw [e]
    exact finish_total _ _ _ _ rfl (by simpa using hl)
  | multitaper =>
    simp only
    obtain ⟨nse, en⟩ := k5 _ _ _ _
    rw [en]
    simp only [Except.bind]
    obtain ⟨l, e, hl⟩ := k4 _ _ _ _ _ _
    rw [e]
    exact finish_total _ _ _ _ rfl (by simpa using hl)

theorem deconvolve_normalize (env : DeconvEnv K) (h : Heap K) (s : List Nat) (a : DeconvArgs K)
    (n : Norm) (hn : ∀ m src rsp nrm, deconvSelect h s a = .ok (m, src, rsp, nrm) → nrm = some n) :
    deconvolve env h s a = deconvolve env h s { a with normalize := some n } := by
  have key : deconvSelect h s { a with normalize := some n } = deconvSelect h s a := by
    cases hs : deconvSelect h s a with
    | error e =>
      rw [← hs]
      unfold deconvSelect at hs ⊢
      cases h1 : deconvMethod a.method with
      | none => simp [h1]
      | some m =>
        simp only [h1] at hs ⊢
        cases h2 : selectComps h a.srcComps s with
        | error e => rfl
        | ok l =>
          match l with
          | [] => rfl
          | _ :: _ :: _ => rfl
          | [x] =>
            cases h3 : selectRsp h a.rspComps s with
            | error e => simp [h3]
            | ok rsp =>
              simp only [h2, h3] at hs ⊢
              by_cases h4 : 0 < rsp.length ∧ rsp.length < 4
              · rw [if_pos h4] at hs; cases hs
              · rw [if_neg h4, if_neg h4]
    | ok q =>
      obtain ⟨m, src, rsp, nrm⟩ := q
      have hnrm := hn m src rsp nrm hs
      obtain ⟨s1, s2, s3, s4, s5, s6⟩ := deconvSelect_ok h s a m src rsp nrm hs
      unfold deconvSelect
      simp only [s1, s2, s3]
      rw [if_pos ⟨s4, s5⟩, hnrm]
      rfl
  unfold deconvolve
  rw [key]

/-- **C06**.  Without `normalize` keyword: if the source is among the responses, at position `i`, the
call is the same as with `normalize=i`; otherwise the same as with `normalize=0`, provided that `0` is
the default of the kernels (lines 171, 293, 434, 525). -/
theorem C06_default_normalize (env : DeconvEnv K) (h : Heap K) (s : List Nat) (a : DeconvArgs K)
    (src : Nat) (hcha : ∀ r ∈ s, (h r).cha ≠ []) (h0 : a.normalize = none)
    (hsrc : onComps h s (some a.srcComps) = [src]) :
    (∀ i : Nat, (onComps h s a.rspComps)[i]? = some src →
      deconvolve env h s a = deconvolve env h s { a with normalize := some (.idx i) }) ∧
    (src ∉ onComps h s a.rspComps → a.method ≠ "func".toList →
      (∀ r x i, env.time r x i none = env.time r x i (some (.idx 0))) →
      (∀ r x y z, env.water r x y z none = env.water r x y z (some (.idx 0))) →
      (∀ r x y z, env.iter r x y z none = env.iter r x y z (some (.idx 0))) →
      (∀ r x q y z, env.mt r x q y z none = env.mt r x q y z (some (.idx 0))) →
      deconvolve env h s a = deconvolve env h s { a with normalize := some (.idx 0) }) := by
  have hs := selectComps_eq h a.srcComps s hcha
  rw [hsrc] at hs
  have hr := selectRsp_eq h a.rspComps s hcha
  have hsub := selectRsp_sub h a.rspComps s _ hr
  have hidx := indexOf?_eq h s a.srcComps src (onComps h s a.rspComps) hs hsub
  have hocc : ∀ j : Nat, s.count src = 1 := by
    intro _
    have h1 : (s.filter (fun r => decide (OfComp a.srcComps (h r)))) = [src] := hsrc
    have hof : OfComp a.srcComps (h src) := by
      have : src ∈ s.filter (fun r => decide (OfComp a.srcComps (h r))) := by rw [h1]; simp
      simpa using (List.mem_filter.1 this).2
    have := List.count_filter (l := s) (p := fun r => decide (OfComp a.srcComps (h r))) (a := src)
      (by simpa using hof)
    rw [h1] at this
    simpa using this.symm
  have hcount : (onComps h s a.rspComps).count src ≤ 1 := by
    rw [← hocc 0]
    have : (onComps h s a.rspComps).Sublist s := by
      cases a.rspComps with
      | none => exact List.Sublist.refl _
      | some c => exact List.filter_sublist
    exact this.count_le src
  constructor
  · intro i hi
    refine deconvolve_normalize env h s a _ ?_
    intro m src' rsp nrm hsel
    obtain ⟨s1, s2, s3, s4, s5, s6⟩ := deconvSelect_ok h s a m src' rsp nrm hsel
    rw [hs] at s2
    simp only [Except.ok.injEq, List.cons.injEq, and_true] at s2
    subst s2
    rw [hr] at s3
    simp only [Except.ok.injEq] at s3
    subst s3
    rw [s6, h0]
    unfold normKw
    simp only
    rw [hidx]
    have : (onComps h s a.rspComps).findIdx? (fun r => decide (r = src)) = some i := by
      rw [List.findIdx?_eq_some_iff_getElem]
      obtain ⟨hil, hie⟩ := List.getElem?_eq_some_iff.1 hi
      refine ⟨hil, by simp [hie], ?_⟩
      intro j hj hje
      simp only [decide_eq_true_eq] at hje
      have hd : (onComps h s a.rspComps).Duplicate src := by
        rw [List.duplicate_iff_exists_distinct_get]
        exact ⟨⟨j, by omega⟩, ⟨i, hil⟩, hj, by simp [hje], by simp [hie]⟩
      have := List.duplicate_iff_two_le_count.1 hd
      omega
    rw [this]
    rfl
  · intro hnot hfn k1 k2 k3 k4
    have hnone : ∀ m src' rsp nrm, deconvSelect h s a = .ok (m, src', rsp, nrm) →
        nrm = none ∧ m ≠ .func := by
      intro m src' rsp nrm hsel
      obtain ⟨s1, s2, s3, s4, s5, s6⟩ := deconvSelect_ok h s a m src' rsp nrm hsel
      rw [hs] at s2
      simp only [Except.ok.injEq, List.cons.injEq, and_true] at s2
      subst s2
      rw [hr] at s3
      simp only [Except.ok.injEq] at s3
      subst s3
      refine ⟨?_, ?_⟩
      · rw [s6, h0]
        unfold normKw
        simp only [Option.map_eq_none_iff]
        rw [hidx, List.findIdx?_eq_none_iff]
        intro r hr'
        simp only [decide_eq_false_iff_not]
        rintro rfl
        exact hnot hr'
      · rintro rfl; exact hfn (deconvMethod_func _ s1)
    cases hsel : deconvSelect h s a with
    | error e =>
      refine deconvolve_normalize env h s a _ ?_
      intro m src' rsp nrm hx
      rw [hsel] at hx; cases hx
    | ok q =>
      obtain ⟨m, src', rsp, nrm⟩ := q
      obtain ⟨rfl, hmf⟩ := hnone _ _ _ _ hsel
      obtain ⟨s1, s2, s3, s4, s5, s6⟩ := deconvSelect_ok h s a m src' rsp none hsel
      have hsel' : deconvSelect h s { a with normalize := some (.idx 0) }
          = .ok (m, src', rsp, some (.idx 0)) := by
        unfold deconvSelect
        simp only [s1, s2, s3]
        rw [if_pos ⟨s4, s5⟩]
        rfl
      have hrun : ∀ h2 srcT sr ts, runKernel env m h2 s rsp a.rspComps srcT sr ts none
          = runKernel env m h2 s rsp a.rspComps srcT sr ts (some (.idx 0)) := by
        intro h2 srcT sr ts
        cases m with
        | func => exact absurd rfl hmf
        | time => unfold runKernel; simp only; rw [k1]
        | waterlevel => unfold runKernel; simp only; rw [k2]
        | iterative => unfold runKernel; simp only; rw [k3]
        | multitaper => unfold runKernel; simp only [k4]
      unfold deconvolve
      rw [hsel, hsel']
      simp only
      simp only [hrun]

/-- **C07** (partial: the source trace itself is changed if it is not a response, see
`C07_counterexample`).  Whatever the outcome, traces that are neither response nor source keep data and
header; a source that is not a response keeps them up to what `trim`, `taper` and the onset do to it. -/
theorem C07_frame_partial (env : DeconvEnv K) (h h' : Heap K) (s : List Nat) (a : DeconvArgs K)
    (res : Res (List Nat)) (hfunc : a.method = "func".toList → FuncFrame env)
    (hd : deconvolve env h s a = (h', res)) (r : Nat) (hr : r ∉ onComps h s a.rspComps)
    (hs : r ∉ onComps h s (some a.srcComps)) : h' r = h r := by
  rcases deconvolve_cases env h h' s a _ hd with ⟨e, _⟩ | ⟨m, src, rsp, nrm, o, idx, onset, hsel, ho, hf, hon, hc⟩
  · rw [e]
  obtain ⟨s1, s2, s3, s4, s5, s6⟩ := deconvSelect_ok h s a m src rsp nrm hsel
  have hcha := (selectComps_ok h a.srcComps s [src] s2).1
  have hsel1 := selectComps_eq h a.srcComps s hcha
  have hsel2 := selectRsp_eq h a.rspComps s hcha
  rw [s2] at hsel1
  rw [s3] at hsel2
  simp only [Except.ok.injEq] at hsel1 hsel2
  rw [← hsel1] at hs
  rw [← hsel2] at hr
  have hne : r ≠ src := by simpa using hs
  have hsn := snapped_frame h src rsp onset r hne hr
  rcases hc with ⟨e, _⟩ | ⟨w0, w1, w2, srcT, h2, hw, hT, h2e, hk⟩
  · rw [e, hsn]
  have hfr := runKernel_frame env m h2 s rsp a.rspComps srcT (h src).sr (-w0) nrm
    (by rintro rfl; exact hfunc (deconvMethod_func _ s1)) r hr
  rw [hk] at hfr
  simp only at hfr
  rw [hfr, h2e]
  split
  · exact hsn
  · rw [Heap.set_ne _ _ hne, hsn]

/-- **C07** (responses).  If the source is one of the responses, a response (and hence every trace)
changes at most in its samples, its onset and the number of iterations. -/
theorem C07_response_partial (env : DeconvEnv K) (h h' : Heap K) (s : List Nat) (a : DeconvArgs K)
    (res : Res (List Nat)) (hfunc : a.method ≠ "func".toList)
    (hd : deconvolve env h s a = (h', res)) (r : Nat)
    (hr : r ∈ onComps h s (some a.srcComps) → r ∈ onComps h s a.rspComps) :
    SameButResult (h r) (h' r) := by
  let g : Trace K → (Str × Str × Str × Str × K × K × (String → Option (Val K))) := fun t =>
    (t.net, t.sta, t.loc, t.cha, t.start, t.sr,
      fun k => if k = "onset" ∨ k = "iterations" then none else t.ext.get k)
  have hg1 : ∀ d t, g (setData d t) = g t := fun d t => rfl
  have hg2 : ∀ x t, g (t.put "iterations" x) = g t := by
    intro x t
    simp only [g, Trace.put, Prod.mk.injEq, true_and]
    funext k
    split
    · rfl
    · rename_i hk
      rw [Dict.get_set_ne]
      intro e; exact hk (Or.inr e)
  have hg3 : ∀ x t, g (t.put "onset" x) = g t := by
    intro x t
    simp only [g, Trace.put, Prod.mk.injEq, true_and]
    funext k
    split
    · rfl
    · rename_i hk
      rw [Dict.get_set_ne]
      intro e; exact hk (Or.inl e)
  have main : g (h' r) = g (h r) := by
    rcases deconvolve_cases env h h' s a _ hd with ⟨e, _⟩ | ⟨m, src, rsp, nrm, o, idx, onset, hsel, ho, hf, hon, hc⟩
    · rw [e]
    have hsn := snapped_inv g hg3 h src rsp onset r
    rcases hc with ⟨e, _⟩ | ⟨w0, w1, w2, srcT, h2, hw, hT, h2e, hk⟩
    · rw [e, hsn]
    obtain ⟨s1, s2, s3, s4, s5, s6⟩ := deconvSelect_ok h s a m src rsp nrm hsel
    have hmf : m ≠ .func := by rintro rfl; exact hfunc (deconvMethod_func _ s1)
    have hrun := runKernel_inv g hg1 hg2 env m h2 s rsp a.rspComps srcT (h src).sr (-w0) nrm hmf r
    rw [hk] at hrun
    simp only at hrun
    rw [hrun, h2e]
    split
    · exact hsn
    · rename_i hno
      by_cases hrs : r = src
      · exfalso
        subst hrs
        have hcha := (selectComps_ok h a.srcComps s [r] s2).1
        have hsel1 := selectComps_eq h a.srcComps s hcha
        have hsel2 := selectRsp_eq h a.rspComps s hcha
        rw [s2] at hsel1
        rw [s3] at hsel2
        simp only [Except.ok.injEq] at hsel1 hsel2
        have hmem : r ∈ rsp := by rw [hsel2]; exact hr (by rw [← hsel1]; simp)
        apply hno
        unfold indexOf?
        rw [List.findIdx?_isSome]
        simp only [List.any_eq_true, Bool.or_eq_true, decide_eq_true_eq]
        exact ⟨r, hmem, Or.inl rfl⟩
      · rw [Heap.set_ne _ _ hrs]; exact hsn
  simp only [g, Prod.mk.injEq] at main
  obtain ⟨m1, m2, m3, m4, m5, m6, m7⟩ := main
  refine ⟨m1, m2, m3, m4, m5, m6, ?_⟩
  intro k hk1 hk2
  have := congrFun m7 k
  simpa [hk1, hk2] using this

/-- **C08** (explicit windows are used unchanged; the window of 'P' and 'S' is the documented one).
Each call with a letter equals the call with the explicit window. -/
theorem C08_documented (env : DeconvEnv K) (h : Heap K) (s : List Nat) (a : DeconvArgs K) (m : DMethod)
    (hm : deconvMethod a.method = some m) (l : Str) (hl : l = "P".toList ∨ l = "S".toList) :
    (m = .time ∨ m = .multitaper ∨ m = .func →
      deconvolve env h s { a with winsrc := .letter l }
        = deconvolve env h s { a with winsrc := .tuple (-10) 30 5 }) ∧
    (∀ src nrm rsp o idx, deconvSelect h s a = .ok (m, src, rsp, nrm) →
      (h src).getTime "onset" = some o →
      findNearest (times (h src)) (o - (h src).start) = .ok idx →
      ∀ on, on = (idx : K) * (h src).delta →
      (m = .iterative → deconvolve env h s { a with winsrc := .letter l }
        = deconvolve env h s
          { a with winsrc := .tuple (-on) ((h src).endtime - (h src).start - on) 0 }) ∧
      (m = .waterlevel → l = "P".toList → deconvolve env h s { a with winsrc := .letter l }
        = deconvolve env h s
          { a with winsrc := .tuple (-on) ((h src).endtime - (h src).start - on) 5 }) ∧
      (m = .waterlevel → l = "S".toList → deconvolve env h s { a with winsrc := .letter l }
        = deconvolve env h s
          { a with winsrc := .tuple (-10) ((h src).endtime - (h src).start - on) 5 })) := by
  have hsel : ∀ w, deconvSelect h s { a with winsrc := w } = deconvSelect h s a := fun w => rfl
  have hPS : "S".toList ≠ "P".toList := by decide
  have hW : ∀ (x y : K), (m = .time ∨ m = .multitaper ∨ m = .func →
        sourceWindow m (.letter l) x y = .ok (-10, 30, 5)) ∧
      (m = .iterative → sourceWindow m (.letter l) x y = .ok (-y, x - y, 0)) ∧
      (m = .waterlevel → l = "P".toList → sourceWindow m (.letter l) x y = .ok (-y, x - y, 5)) ∧
      (m = .waterlevel → l = "S".toList → sourceWindow m (.letter l) x y = .ok (-10, x - y, 5)) := by
    intro x y
    rcases hl with rfl | rfl
    · unfold sourceWindow
      simp only [if_true]
      refine ⟨?_, ?_, ?_, ?_⟩
      · rintro (rfl | rfl | rfl) <;> rfl
      · rintro rfl; rfl
      · rintro rfl _; rfl
      · intro _ hx; exact absurd hx.symm hPS
    · unfold sourceWindow
      simp only [if_true]
      rw [if_neg hPS]
      refine ⟨?_, ?_, ?_, ?_⟩
      · rintro (rfl | rfl | rfl) <;> rfl
      · rintro rfl; rfl
      · intro _ hx; exact absurd hx hPS
      · rintro rfl _; rfl
  refine ⟨?_, ?_⟩
  · intro hmm
    cases hs : deconvSelect h s a with
    | error e => unfold deconvolve; simp only [hsel, hs]
    | ok q =>
      obtain ⟨m', src, rsp, nrm⟩ := q
      have hmm' : m' = m := by
        have := (deconvSelect_ok h s a m' src rsp nrm hs).1
        rw [hm] at this; exact (Option.some.inj this).symm
      subst hmm'
      unfold deconvolve
      simp only [hsel, hs]
      simp only [(hW _ _).1 hmm]
      rfl
  · intro src nrm rsp o idx hs ho hf on hon
    have e1 : (h src).start + (idx : K) * (h src).delta - (h src).start = on := by rw [hon]; ring
    refine ⟨?_, ?_, ?_⟩
    · intro hmm
      unfold deconvolve
      simp only [hsel, hs, ho, hf, e1, (hW _ _).2.1 hmm]
      rfl
    · intro hmm hl'
      unfold deconvolve
      simp only [hsel, hs, ho, hf, e1, (hW _ _).2.2.1 hmm hl']
      rfl
    · intro hmm hl'
      unfold deconvolve
      simp only [hsel, hs, ho, hf, e1, (hW _ _).2.2.2 hmm hl']
      rfl

/-- **C08** (coverage).  With the default windows of the iterative method and, for P, of the water level
method the source is cut exactly from its first to its last sample: the call does not depend on what
`trim` does with any other bounds. -/
theorem C08_covers (env : DeconvEnv K) (h : Heap K) (s : List Nat) (a : DeconvArgs K) (m : DMethod)
    (hm : deconvMethod a.method = some m) (trim' : Trace K → K → K → Trace K)
    (htrim : ∀ t : Trace K, trim' t t.start t.endtime = env.trimPad t t.start t.endtime)
    (hw : (m = .iterative ∧ (a.winsrc = .letter "P".toList ∨ a.winsrc = .letter "S".toList)) ∨
      (m = .waterlevel ∧ a.winsrc = .letter "P".toList)) :
    deconvolve { env with trimPad := trim' } h s a = deconvolve env h s a := by
  have hPS : "S".toList ≠ "P".toList := by decide
  have hW : ∃ c : K, ∀ (x y : K), sourceWindow m a.winsrc x y = .ok (-y, x - y, c) := by
    rcases hw with ⟨rfl, e | e⟩ | ⟨rfl, e⟩ <;> rw [e] <;> unfold sourceWindow <;> simp only [if_true]
    · exact ⟨0, fun _ _ => rfl⟩
    · exact ⟨0, fun _ _ => ite_self _⟩
    · exact ⟨5, fun _ _ => rfl⟩
  obtain ⟨c, hW⟩ := hW
  cases hs : deconvSelect h s a with
  | error e => unfold deconvolve; simp only [hs]
  | ok q =>
    obtain ⟨m', src, rsp, nrm⟩ := q
    have hmm' : m' = m := by
      have := (deconvSelect_ok h s a m' src rsp nrm hs).1
      rw [hm] at this; exact (Option.some.inj this).symm
    subst hmm'
    unfold deconvolve
    simp only [hs]
    cases (h src).getTime "onset" with
    | none => rfl
    | some o =>
      simp only
      cases findNearest (times (h src)) (o - (h src).start) with
      | error e => rfl
      | ok idx =>
        simp only [hW]
        have e1 : (h src).start + (idx : K) * (h src).delta +
            -((h src).start + (idx : K) * (h src).delta - (h src).start) = (h src).start := by ring
        have e2 : (h src).start + (idx : K) * (h src).delta + ((h src).endtime - (h src).start -
            ((h src).start + (idx : K) * (h src).delta - (h src).start)) = (h src).endtime := by ring
        rw [e1, e2]
        have k1 : ∀ on, (snapped h src rsp on src).start = (h src).start := fun on =>
          snapped_inv (fun t => t.start) (fun _ _ => rfl) h src rsp on src
        have k2 : ∀ on, (snapped h src rsp on src).endtime = (h src).endtime := fun on =>
          snapped_inv (fun t => t.endtime) (fun _ _ => rfl) h src rsp on src
        have k3 : ∀ on, trim' (snapped h src rsp on src) (h src).start (h src).endtime
            = env.trimPad (snapped h src rsp on src) (h src).start (h src).endtime := by
          intro on
          have := htrim (snapped h src rsp on src)
          rwa [k1, k2] at this
        unfold snapped at k3
        rw [k3]
        rfl

end props

/-! ### Concrete cases -/

section examples

/-- A three component example record, onset between two samples. -/
def dHeap : Heap ℚ := fun r =>
  { net := "XX".toList, sta := "A".toList, loc := [],
    cha := if r = 0 then "BHZ".toList else if r = 1 then "BHN".toList else "BHE".toList,
    start := 100, sr := 2, data := [1, 2, 3, 4, 5], ext := [("onset", .time (1008/10))] }

/-- Trivial kernels, `trim` as a cut at sample times. -/
def dEnv : DeconvEnv ℚ where
  trimPad t a b := { t with
    data := ((t.data.zipIdx).filter (fun p => decide (a ≤ t.start + p.2 / t.sr ∧
      t.start + p.2 / t.sr ≤ b))).map Prod.fst, start := max a t.start }
  taper t _ := t
  noise _ _ _ _ := .ok []
  time r _ _ _ := .ok (r.map (·.map (· / 2)))
  water r _ _ _ _ := .ok (r.map (·.map (· / 2)))
  iter r _ _ _ _ := .ok (r.map (fun d => (d.map (· / 2), 7)))
  mt r _ _ _ _ _ := .ok (r.map (·.map (· / 2)))
  func h r _ _ _ := (h, .ok r)

def dArgs : DeconvArgs ℚ :=
  { method := "time".toList, srcComps := "LZ".toList, rspComps := none, winsrc := .letter "P".toList,
    normalize := none }

theorem dEnv_keeps : KeepsExt dEnv := ⟨fun _ _ _ => rfl, fun _ _ => rfl⟩

/-- The hypotheses of C04 - C06 are met by the example call: it succeeds, the onset 100.8 is snapped to
sample 2 (time 101). -/
example : (deconvolve dEnv dHeap [0, 1, 2] dArgs).2 = .ok [0, 1, 2] ∧
    ((deconvolve dEnv dHeap [0, 1, 2] dArgs).1 1).getTime "onset" = some 101 ∧
    onComps dHeap [0, 1, 2] (some dArgs.srcComps) = [0] := by
  decide +kernel

/-- An onset half a second after the last sample makes the admissible call fail. -/
example : (deconvolve dEnv (fun r => (dHeap r).put "onset" (.time (1019/10))) [0, 1, 2] dArgs).2
    = .ok [0, 1, 2] ∧
    (deconvolve dEnv (fun r => (dHeap r).put "onset" (.time 103)) [0, 1, 2] dArgs).2
    = .error .indexError := by
  decide +kernel

/-- **C04, concrete negation**: an admissible stream whose onset lies after the data is not snapped to
the nearest sample. -/
theorem C04_counterexample : ∃ (h : Heap ℚ) (s : List Nat) (a : DeconvArgs ℚ),
    ¬ ∃ l, (deconvolve dEnv h s a).2 = .ok l := by
  refine ⟨fun r => (dHeap r).put "onset" (.time 103), [0, 1, 2], dArgs, ?_⟩
  rintro ⟨l, hl⟩
  have : (deconvolve dEnv (fun r => (dHeap r).put "onset" (.time 103)) [0, 1, 2] dArgs).2
      = .error .indexError := by decide +kernel
  rw [this] at hl
  cases hl

/-- **C07, negation**: with `response_components='NE'` the vertical trace is not a response, but the
call overwrites its data (the source window is cut out of it) and its onset. -/
theorem C07_counterexample : ∃ (h : Heap ℚ) (s : List Nat) (a : DeconvArgs ℚ) (r : Nat),
    (deconvolve dEnv h s a).2 = .ok [1, 2] ∧ r ∈ s ∧ r ∉ onComps h s a.rspComps ∧
      ((deconvolve dEnv h s a).1 r).data ≠ (h r).data ∧
      ((deconvolve dEnv h s a).1 r).getTime "onset" ≠ (h r).getTime "onset" := by
  refine ⟨dHeap, [0, 1, 2], { dArgs with rspComps := some "NE".toList, winsrc := .tuple 0 1 0 }, 0, ?_⟩
  decide +kernel

/-- C05: two source components are rejected, the alias 'freq' is accepted. -/
example : (deconvolve dEnv dHeap [0, 0, 2] dArgs).2 = .error .valueError ∧
    (deconvolve dEnv dHeap [0, 1, 2] { dArgs with method := "freq".toList }).2 = .ok [0, 1, 2] ∧
    (deconvolve dEnv dHeap [0, 1, 2] { dArgs with method := "Time".toList }).2
      = .error .notImplemented := by
  decide +kernel

end examples
end Verif.Props
