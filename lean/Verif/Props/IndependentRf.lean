import Verif.Props.Independent
import Verif.Spec.Records

/-!
# C130: the result of `RFStream.rf` for a record does not depend on the other records of the stream
-/

set_option linter.unusedSimpArgs false
set_option linter.unusedSectionVars false

namespace Verif.Props
open Verif.Py Verif.Model Verif.Spec

section label
variable {K : Type} [Field K] [LinearOrder K] [IsStrictOrderedRing K] [FloorRing K]

theorem _root_.Verif.Spec.EqBut.refl' (ks : List String) (t : Trace K) : EqBut ks t t :=
  ⟨rfl, rfl, rfl, rfl, rfl, rfl, rfl, fun _ _ => rfl⟩

theorem _root_.Verif.Spec.EqBut.symm' {ks : List String} {t t' : Trace K} (h : EqBut ks t t') : EqBut ks t' t :=
  ⟨h.net.symm, h.sta.symm, h.loc.symm, h.cha.symm, h.start.symm, h.sr.symm, h.data.symm,
    fun k hk => (h.ext k hk).symm⟩

theorem _root_.Verif.Spec.EqBut.trans' {ks : List String} {t t' t'' : Trace K} (h : EqBut ks t t') (h' : EqBut ks t' t'') :
    EqBut ks t t'' :=
  ⟨h.net.trans h'.net, h.sta.trans h'.sta, h.loc.trans h'.loc, h.cha.trans h'.cha,
    h.start.trans h'.start, h.sr.trans h'.sr, h.data.trans h'.data,
    fun k hk => (h.ext k hk).trans (h'.ext k hk)⟩

theorem _root_.Verif.Spec.EqBut.mono' {ks ks' : List String} {t t' : Trace K} (h : EqBut ks t t')
    (hk : ∀ k ∈ ks, k ∈ ks') : EqBut ks' t t' :=
  ⟨h.net, h.sta, h.loc, h.cha, h.start, h.sr, h.data, fun k hk' => h.ext k (fun hm => hk' (hk k hm))⟩

theorem eqBut_put (k : String) (v : Val K) (t : Trace K) : EqBut [k] (t.put k v) t :=
  ⟨rfl, rfl, rfl, rfl, rfl, rfl, rfl, fun k' hk => by
    rw [put_get, if_neg (by simpa using hk)]⟩

theorem setMethod_eqBut (m : Str) (h : Heap K) (s : List Nat) (r : Nat) :
    EqBut ["phase"] (setMethod m h s r) (h r) := by
  unfold setMethod
  induction s generalizing h with
  | nil => exact EqBut.refl' _ _
  | cons a s ih =>
    refine EqBut.trans' (ih (h.set a ((h a).put "phase" (.str m)))) ?_
    by_cases e : r = a
    · subst e; rw [Heap.set_self]; exact eqBut_put _ _ _
    · rw [Heap.set_ne _ _ e]; exact EqBut.refl' _ _

theorem addInfo_eqBut (info : Str) (t t' : Trace K) (h : addInfo info t = .ok t') :
    EqBut ["processing"] t' t := by
  obtain ⟨h1, h2, h3, h4, h5, h6, h7⟩ := addInfo_rest info t t' h
  exact ⟨h4, h5, h6, h7, h2, h3, h1, fun k hk => addInfo_get info t t' h k (by simpa using hk)⟩

theorem addInfoAll_eqBut (info : Str) (h : Heap K) (s : List Nat) (r : Nat) :
    EqBut ["processing"] (addInfoAll info h s r) (h r) := by
  unfold addInfoAll
  induction s generalizing h with
  | nil => exact EqBut.refl' _ _
  | cons a s ih =>
    unfold Heap.forEachE
    cases hf : addInfo info (h a) with
    | error e => exact EqBut.refl' _ _
    | ok t =>
      refine EqBut.trans' (ih (h.set a t)) ?_
      by_cases e : r = a
      · subst e; rw [Heap.set_self]; exact addInfo_eqBut info _ _ hf
      · rw [Heap.set_ne _ _ e]; exact EqBut.refl' _ _

theorem setType_phase (v : Str) (h : Heap K) (s : List Nat) (r : Nat) :
    (setType v h s r).ext.get "phase" = (h r).ext.get "phase" :=
  Heap.forEach_inv (fun t => t.ext.get "phase") _ (fun t => put_phase "type" (by decide) _ t) h s r

/-- With well formed phases the property `method` can be read. -/
theorem streamMethod_ok (h : Heap K) (s : List Nat) (hp : PhasesOk h s) :
    ∃ m, streamMethod h s = .ok m := by
  unfold streamMethod
  cases hu : uniqueHeader h s "phase" with
  | none => exact ⟨none, rfl⟩
  | some v =>
    have hv : ∃ r ∈ s, (h r).ext.get "phase" = some v := by
      unfold uniqueHeader at hu
      split at hu
      · cases hu
      · rename_i w ws hl
        split at hu
        · simp only [Option.some.injEq] at hu
          subst hu
          have : w ∈ s.filterMap (fun r => (h r).ext.get "phase") := by rw [hl]; exact List.mem_cons_self
          obtain ⟨r, hr, hrv⟩ := List.mem_filterMap.1 this
          exact ⟨r, hr, hrv⟩
        · cases hu
    obtain ⟨r, hr, hrv⟩ := hv
    obtain ⟨x, hx, rfl⟩ := hp r hr v hrv
    simp only
    cases hl : x.getLast? with
    | none => exact absurd (List.getLast?_eq_none_iff.1 hl) hx
    | some c => exact ⟨some (upper [c]), rfl⟩

/-- The labels, on the whole stream and on the part: equal up to the phase. -/
theorem label_sim (m : Str) (p : Nat → Bool) (st st' : SState K) (hS : Sim p st st')
    (hp : PhasesOk st.1 st.2) :
    ∃ h1 h1', labelStage m st = ((h1, st.2), none) ∧ labelStage m st' = ((h1', st'.2), none) ∧
      ∀ r, p r = true → EqBut ["phase"] (h1 r) (h1' r) := by
  have hA : AgreeP p (setType "rf".toList st.1 st.2) (setType "rf".toList st'.1 st'.2) := by
    rw [hS.1]; exact forEach_sim hS.2 _ st.2
  have hp1 : PhasesOk (setType "rf".toList st.1 st.2) st.2 := by
    intro r hr v hv
    rw [setType_phase] at hv
    exact hp r hr v hv
  have hp2 : PhasesOk (setType "rf".toList st'.1 st'.2) st'.2 := by
    intro r hr v hv
    rw [setType_phase] at hv
    rw [hS.1, List.mem_filter] at hr
    rw [← hS.2 r hr.2] at hv
    exact hp r hr.1 v hv
  obtain ⟨m1, hm1⟩ := streamMethod_ok _ _ hp1
  obtain ⟨m2, hm2⟩ := streamMethod_ok _ _ hp2
  unfold labelStage
  simp only [hm1, hm2]
  refine ⟨_, _, rfl, rfl, ?_⟩
  intro r hr
  have e1 : EqBut ["phase"] ((if m1 ≠ some m then setMethod m (setType "rf".toList st.1 st.2) st.2 else
      setType "rf".toList st.1 st.2) r) (setType "rf".toList st.1 st.2 r) := by
    split
    · exact setMethod_eqBut _ _ _ _
    · exact EqBut.refl' _ _
  have e2 : EqBut ["phase"] ((if m2 ≠ some m then setMethod m (setType "rf".toList st'.1 st'.2) st'.2 else
      setType "rf".toList st'.1 st'.2) r) (setType "rf".toList st'.1 st'.2 r) := by
    split
    · exact setMethod_eqBut _ _ _ _
    · exact EqBut.refl' _ _
  rw [hA r hr] at e1
  exact e1.trans' e2.symm'

theorem uniqueHeader_const (h : Heap K) (s : List Nat) (k : String) (v : Val K) (hs : s ≠ [])
    (hv : ∀ r ∈ s, (h r).ext.get k = some v) : uniqueHeader h s k = some v := by
  unfold uniqueHeader
  have hl : s.filterMap (fun r => (h r).ext.get k) = s.map (fun _ => v) := by
    clear hs
    induction s with
    | nil => rfl
    | cons a s ih =>
      rw [List.filterMap_cons, hv a List.mem_cons_self]
      simp only [List.map_cons]
      rw [ih (fun r hr => hv r (List.mem_cons_of_mem _ hr))]
  rw [hl]
  cases s with
  | nil => exact absurd rfl hs
  | cons a s =>
    simp only [List.map_cons]
    rw [if_pos]
    simp

theorem streamMethod_const (h : Heap K) (s : List Nat) (x : Str) (hx : x ≠ []) (hs : s ≠ [])
    (hv : ∀ r ∈ s, (h r).ext.get "phase" = some (.str x)) :
    streamMethod h s = .ok (some (upper [x.getLast hx])) := by
  unfold streamMethod
  rw [uniqueHeader_const h s "phase" _ hs hv]
  simp only
  rw [List.getLast?_eq_getLast_of_ne_nil hx]

/-- With one phase for all traces the labels agree completely. -/
theorem label_sim_uniform (m : Str) (p : Nat → Bool) (st st' : SState K) (hS : Sim p st st')
    (x : Str) (hx : x ≠ []) (hv : ∀ r ∈ st.2, (st.1 r).ext.get "phase" = some (.str x)) :
    ∃ h1 h1', labelStage m st = ((h1, st.2), none) ∧ labelStage m st' = ((h1', st'.2), none) ∧
      ∀ r ∈ st.2, p r = true → h1 r = h1' r := by
  have hA : AgreeP p (setType "rf".toList st.1 st.2) (setType "rf".toList st'.1 st'.2) := by
    rw [hS.1]; exact forEach_sim hS.2 _ st.2
  have hp : PhasesOk st.1 st.2 := by
    intro r hr v hv'
    rw [hv r hr] at hv'
    exact ⟨x, hx, (Option.some.inj hv').symm⟩
  obtain ⟨h1, h1', l1, l2, -⟩ := label_sim m p st st' hS hp
  refine ⟨h1, h1', l1, l2, ?_⟩
  intro r hr hpr
  have hr' : r ∈ st'.2 := by rw [hS.1]; exact List.mem_filter.2 ⟨hr, hpr⟩
  have s1 := streamMethod_const (setType "rf".toList st.1 st.2) st.2 x hx (List.ne_nil_of_mem hr)
    (fun q hq => by rw [setType_phase]; exact hv q hq)
  have s2 := streamMethod_const (setType "rf".toList st'.1 st'.2) st'.2 x hx (List.ne_nil_of_mem hr')
    (fun q hq => by
      rw [setType_phase]
      rw [hS.1, List.mem_filter] at hq
      rw [← hS.2 q hq.2]
      exact hv q hq.1)
  unfold labelStage at l1 l2
  simp only [s1, Prod.mk.injEq, and_true] at l1
  simp only [s2, Prod.mk.injEq, and_true] at l2
  rw [← l1, ← l2]
  by_cases hm : some (upper [x.getLast hx]) ≠ some m
  · rw [if_pos hm, if_pos hm, hS.1]
    rw [hS.1] at hA
    exact forEach_sim hA _ st.2 r hpr
  · rw [if_neg hm, if_neg hm]
    exact hA r hpr

theorem rf_of_stages (env : RfEnv K) (a : RfArgs K) (m : Str) (st st2 st3 : SState K)
    (hm : rfMethod st.1 st.2 a.method = .ok m)
    (h1 : ((rfBefore env a m st).andThen (mirrorStage m)) = (st2, none))
    (h2 : labelStage m st2 = (st3, none)) :
    rf env a st = ((addInfoAll env.infoRf st3.1 st3.2, st3.2), none) := by
  unfold rf rfBody
  rw [hm]
  simp only
  rw [h1]
  simp only [SRes.andThen, h2]

theorem rf_stages (env : RfEnv K) (a : RfArgs K) (st st' : SState K) (h : rf env a st = (st', none)) :
    ∃ m st2 st3, rfMethod st.1 st.2 a.method = .ok m ∧
      ((rfBefore env a m st).andThen (mirrorStage m)) = (st2, none) ∧
      labelStage m st2 = (st3, none) ∧ st' = (addInfoAll env.infoRf st3.1 st3.2, st3.2) := by
  unfold rf rfBody at h
  obtain ⟨st3, hb, hfin⟩ := andThen_ok h
  cases hm : rfMethod st.1 st.2 a.method with
  | error e => rw [hm] at hb; simp at hb
  | ok m =>
    rw [hm] at hb
    simp only at hb
    obtain ⟨st2, h1, h2⟩ := andThen_ok hb
    simp only [Prod.mk.injEq, and_true] at hfin
    exact ⟨m, st2, st3, rfl, h1, h2, hfin.symm⟩

/-- C130.  `rf` with an explicit method and one of the built-in deconvolutions (or none): if it succeeds
for a stream, it succeeds for every part of the stream made of whole records, and the part
then consists of the same traces with the same data and header.  The missing part - the entries phase
and processing - is false for the phase, see `C130_counterexample`. -/
theorem C130_records_partial (env : RfEnv K) (a : RfArgs K) (m : Str) (hm : a.method = some m)
    (hfunc : a.deconvolve ≠ some "func".toList) (hk : KeepsRecord env)
    (hrot : ∀ x, GroupLocal (env.rotate x)) (hnoise : NoiseLocal env.dec) (hext : KeepsExt env.dec)
    (h h1 : Heap K) (s s1 : List Nat) (hph : PhasesOk h s) (p : Nat → Bool)
    (hW : WholeRecords env.timeStr p h s) (hok : rf env a (h, s) = ((h1, s1), none)) :
    ∃ h2, rf env a (h, s.filter p) = ((h2, s1.filter p), none) ∧
      ∀ r ∈ s1, p r = true → EqBut ["phase", "processing"] (h1 r) (h2 r) := by
  obtain ⟨m', st2, st3, hm', hb, hl, he⟩ := rf_stages env a _ _ hok
  have hS : Sim p (h, s) (h, s.filter p) := ⟨rfl, fun r _ => rfl⟩
  obtain ⟨⟨st2', b1, b2⟩, b3, b4⟩ := before_sim env a m' hfunc hk hrot hnoise hext p _ _ st2 hS hW hb
  obtain ⟨g1, g1', l1, l2, l3⟩ := label_sim m' p st2 st2' b2 (by
    intro r hr v hv
    rw [b4] at hv
    exact hph r (b3 r hr) v hv)
  rw [l1] at hl
  simp only [Prod.mk.injEq, and_true] at hl
  subst hl
  have hm2 : rfMethod (h, s.filter p).1 (h, s.filter p).2 a.method = .ok m' := by
    rw [← hm']
    unfold rfMethod requestedMethod
    rw [hm]
  simp only [Prod.mk.injEq] at he
  obtain ⟨he1, he2⟩ := he
  refine ⟨addInfoAll env.infoRf g1' st2'.2, ?_, ?_⟩
  · rw [rf_of_stages env a m' _ _ _ hm2 b1 l2, he2, b2.1]
  · intro r hr hpr
    rw [he1]
    have e1 := (addInfoAll_eqBut env.infoRf g1 st2.2 r).mono' (ks' := ["phase", "processing"]) (by simp)
    have e2 := (addInfoAll_eqBut env.infoRf g1' st2'.2 r).mono' (ks' := ["phase", "processing"]) (by simp)
    exact (e1.trans' ((l3 r hpr).mono' (by simp))).trans' e2.symm'

/-- C130 for a stream with a single phase, explicit or automatic method: also the phases agree. -/
theorem C130_one_phase (env : RfEnv K) (a : RfArgs K)
    (hfunc : a.deconvolve ≠ some "func".toList) (hk : KeepsRecord env)
    (hrot : ∀ x, GroupLocal (env.rotate x)) (hnoise : NoiseLocal env.dec) (hext : KeepsExt env.dec)
    (h h1 : Heap K) (s s1 : List Nat) (x : Str) (hx : x ≠ [])
    (hph : ∀ r ∈ s, (h r).ext.get "phase" = some (.str x)) (p : Nat → Bool)
    (hW : WholeRecords env.timeStr p h s) (hp : ∃ r ∈ s, p r = true)
    (hok : rf env a (h, s) = ((h1, s1), none)) :
    ∃ h2, rf env a (h, s.filter p) = ((h2, s1.filter p), none) ∧
      ∀ r ∈ s1, p r = true → EqBut ["processing"] (h1 r) (h2 r) := by
  obtain ⟨m', st2, st3, hm', hb, hl, he⟩ := rf_stages env a _ _ hok
  have hS : Sim p (h, s) (h, s.filter p) := ⟨rfl, fun r _ => rfl⟩
  obtain ⟨⟨st2', b1, b2⟩, b3, b4⟩ := before_sim env a m' hfunc hk hrot hnoise hext p _ _ st2 hS hW hb
  obtain ⟨g1, g1', l1, l2, l3⟩ := label_sim_uniform m' p st2 st2' b2 x hx (by
    intro r hr
    rw [b4]
    exact hph r (b3 r hr))
  rw [l1] at hl
  simp only [Prod.mk.injEq, and_true] at hl
  subst hl
  have hm2 : rfMethod (h, s.filter p).1 (h, s.filter p).2 a.method = .ok m' := by
    rw [← hm']
    unfold rfMethod requestedMethod
    cases a.method with
    | some m => rfl
    | none =>
      simp only
      obtain ⟨q, hq, hpq⟩ := hp
      rw [streamMethod_const h s x hx (List.ne_nil_of_mem hq) hph,
        streamMethod_const h (s.filter p) x hx (List.ne_nil_of_mem (List.mem_filter.2 ⟨hq, hpq⟩))
          (fun r hr => hph r (List.mem_filter.1 hr).1)]
  simp only [Prod.mk.injEq] at he
  obtain ⟨he1, he2⟩ := he
  refine ⟨addInfoAll env.infoRf g1' st2'.2, ?_, ?_⟩
  · rw [rf_of_stages env a m' _ _ _ hm2 b1 l2, he2, b2.1]
  · intro r hr hpr
    rw [he1]
    have e1 := addInfoAll_eqBut env.infoRf g1 st2.2 r
    have e2 := addInfoAll_eqBut env.infoRf g1' st2'.2 r
    rw [he2] at hr
    rw [l3 r hr hpr] at e1
    exact e1.trans' e2.symm'

end label

section examples

/-- Two stations with three components each; the phase at the second one is PP. -/
def twoRecords : Heap ℚ := fun r =>
  if r < 3 then (dHeap r).put "phase" (.str "P".toList)
  else { dHeap (r - 3) with sta := "B".toList, data := [3, 1, 4, 1, 5] }.put "phase" (.str "PP".toList)

/-- The example environment with a trivial rotation. -/
def iEnv : RfEnv ℚ := { rEnv with
  rotate := fun _ h _ => (h, none)
  dec := dEnv }

theorem iEnv_keeps : KeepsRecord iEnv where
  filter t t' h := by injection (show Except.ok (ε := PyErr) t = Except.ok t' from h) with h; rw [h]
  trim t a b t' h := by injection (show Except.ok (ε := PyErr) t = Except.ok t' from h) with h; rw [h]
  decimate n t t' h := by
    injection (show Except.ok (ε := PyErr) { t with sr := t.sr / n } = Except.ok t' from h) with h
    rw [← h]
    rfl
  rotate _ _ _ _ := rfl

theorem iEnv_rotate (x : Str) : GroupLocal (iEnv.rotate x) := fun _ _ _ hA => ⟨rfl, hA, fun _ _ => rfl⟩

theorem iEnv_noise : NoiseLocal iEnv.dec := fun _ _ _ _ _ _ _ => rfl

theorem twoRecords_whole : WholeRecords iEnv.timeStr (fun r => decide (3 ≤ r)) twoRecords
    [0, 3, 1, 4, 2, 5] := by
  intro q hq r hr hqr
  have h1 : ∀ q ∈ [0, 3, 1, 4, 2, 5], ∀ r ∈ [0, 3, 1, 4, 2, 5],
      (twoRecords q).id.dropLast = (twoRecords r).id.dropLast → decide (3 ≤ q) = decide (3 ≤ r) := by
    decide +kernel
  exact h1 q hq r hr hqr.1

/-- The hypotheses of C130 are met by interleaved records of two stations: the call succeeds. -/
example : (rf iEnv { method := some "P".toList } (twoRecords, [0, 3, 1, 4, 2, 5])).2 = none ∧
    (rf iEnv { method := some "P".toList } (twoRecords, [0, 3, 1, 4, 2, 5])).1.2 = [0, 3, 1, 4, 2, 5] ∧
    ((rf iEnv { method := some "P".toList } (twoRecords, [0, 3, 1, 4, 2, 5])).1.1 4).data
      = [3/2, 1/2, 2, 1/2, 5/2] ∧
    ((rf iEnv { method := some "P".toList } (twoRecords, [3, 4, 5])).1.1 4).data
      = [3/2, 1/2, 2, 1/2, 5/2] := by
  decide +kernel

/-- C130 is false for the phase: the PP record keeps its phase if it is processed alone, and gets the
phase P if it is processed together with a P record. -/
theorem C130_counterexample : ∃ (env : RfEnv ℚ) (h : Heap ℚ) (s : List Nat) (p : Nat → Bool),
    KeepsRecord env ∧ (∀ x, GroupLocal (env.rotate x)) ∧ NoiseLocal env.dec ∧ KeepsExt env.dec ∧
    PhasesOk h s ∧ WholeRecords env.timeStr p h s ∧
    (rf env { method := some "P".toList } (h, s)).2 = none ∧
    (rf env { method := some "P".toList } (h, s.filter p)).2 = none ∧
    ∃ r ∈ s, p r = true ∧
      ((rf env { method := some "P".toList } (h, s)).1.1 r).getStr "phase" = some "P".toList ∧
      ((rf env { method := some "P".toList } (h, s.filter p)).1.1 r).getStr "phase" = some "PP".toList := by
  refine ⟨iEnv, twoRecords, [0, 3, 1, 4, 2, 5], fun r => decide (3 ≤ r), iEnv_keeps, iEnv_rotate,
    iEnv_noise, dEnv_keeps, ?_, twoRecords_whole, by decide +kernel, by decide +kernel, 4, by decide,
    by decide, by decide +kernel, by decide +kernel⟩
  intro r _ v hv
  unfold twoRecords at hv
  split at hv
  · rw [put_get, if_pos rfl] at hv
    exact ⟨"P".toList, by decide, (Option.some.inj hv).symm⟩
  · rw [put_get, if_pos rfl] at hv
    exact ⟨"PP".toList, by decide, (Option.some.inj hv).symm⟩

end examples

end Verif.Props
