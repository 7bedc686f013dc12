import Verif.Spec.KeptHeaders
import Verif.Model.Headers
import Verif.Props.Independent

/-!
# Which header entries matter for `RFStream.rf` and `RFStream.moveout` (C193)
-/

set_option linter.unusedSimpArgs false
set_option linter.unusedSectionVars false

namespace Verif.Props
open Verif.Py Verif.Model Verif.Spec

section basics
variable {K : Type} {ks : String → Prop}

theorem _root_.Verif.Spec.SameKept.refl (t : Trace K) : SameKept ks t t := ⟨rfl, rfl, rfl, rfl, rfl, rfl, rfl, fun _ _ => rfl⟩

theorem _root_.Verif.Spec.SameKept.put {t t' : Trace K} (h : SameKept ks t t') (k : String) (v : Val K) :
    SameKept ks (t.put k v) (t'.put k v) := by
  refine ⟨h.net, h.sta, h.loc, h.cha, h.start, h.sr, h.data, fun j hj => ?_⟩
  show (t.ext.set k v).get j = (t'.ext.set k v).get j
  rw [Dict.get_set, Dict.get_set, h.ext j hj]

theorem _root_.Verif.Spec.SameKept.put_out {t t' : Trace K} (h : SameKept ks t t') (k : String) (hk : ¬ ks k) (v : Val K) :
    SameKept ks (t.put k v) t' := by
  refine ⟨h.net, h.sta, h.loc, h.cha, h.start, h.sr, h.data, fun j hj => ?_⟩
  show (t.ext.set k v).get j = t'.ext.get j
  rw [Dict.get_set_ne _ _ (fun e => hk (by rw [← e]; exact hj)), h.ext j hj]

theorem _root_.Verif.Spec.SameKept.symm {t t' : Trace K} (h : SameKept ks t t') : SameKept ks t' t :=
  ⟨h.net.symm, h.sta.symm, h.loc.symm, h.cha.symm, h.start.symm, h.sr.symm, h.data.symm, fun k hk => (h.ext k hk).symm⟩

theorem _root_.Verif.Spec.SameKept.trans {t t' t'' : Trace K} (h : SameKept ks t t') (g : SameKept ks t' t'') : SameKept ks t t'' :=
  ⟨h.net.trans g.net, h.sta.trans g.sta, h.loc.trans g.loc, h.cha.trans g.cha, h.start.trans g.start,
    h.sr.trans g.sr, h.data.trans g.data, fun k hk => (h.ext k hk).trans (g.ext k hk)⟩

theorem _root_.Verif.Spec.SameKept.setData {t t' : Trace K} (h : SameKept ks t t') (d : List K) :
    SameKept ks ({ t with data := d } : Trace K) ({ t' with data := d } : Trace K) :=
  ⟨h.net, h.sta, h.loc, h.cha, h.start, h.sr, rfl, h.ext⟩

theorem _root_.Verif.Spec.SameKept.id {t t' : Trace K} (h : SameKept ks t t') : t.id = t'.id := by
  unfold Trace.id; rw [h.net, h.sta, h.loc, h.cha]

theorem _root_.Verif.Spec.SameKept.npts {t t' : Trace K} (h : SameKept ks t t') : t.npts = t'.npts := by
  unfold Trace.npts; rw [h.data]

theorem _root_.Verif.Spec.SameKept.endtime [Field K] {t t' : Trace K} (h : SameKept ks t t') : t.endtime = t'.endtime := by
  unfold Trace.endtime Trace.delta; rw [h.data, h.start, h.sr]

theorem _root_.Verif.Spec.SameKept.delta [Field K] {t t' : Trace K} (h : SameKept ks t t') : t.delta = t'.delta := by
  unfold Trace.delta; rw [h.sr]

theorem _root_.Verif.Spec.SameKept.comp {t t' : Trace K} (h : SameKept ks t t') : t.comp = t'.comp := by
  unfold Trace.comp; rw [h.cha]

theorem _root_.Verif.Spec.SameKept.getTime {t t' : Trace K} (h : SameKept ks t t') {k : String} (hk : ks k) :
    t.getTime k = t'.getTime k := by
  unfold Trace.getTime; rw [h.ext k hk]

theorem _root_.Verif.Spec.SameKept.getNum {t t' : Trace K} (h : SameKept ks t t') {k : String} (hk : ks k) :
    t.getNum k = t'.getNum k := by
  unfold Trace.getNum; rw [h.ext k hk]

theorem _root_.Verif.Spec.SameKept.times [Field K] {t t' : Trace K} (h : SameKept ks t t') : times t = times t' := by
  unfold Verif.Model.times; rw [h.npts, h.delta]

theorem _root_.Verif.Spec.KeptH.refl (h : Heap K) : KeptH ks h h := fun _ => SameKept.refl _

theorem _root_.Verif.Spec.KeptH.trans {h h' h'' : Heap K} (a : KeptH ks h h') (b : KeptH ks h' h'') : KeptH ks h h'' :=
  fun r => (a r).trans (b r)

theorem _root_.Verif.Spec.KeptH.symm {h h' : Heap K} (a : KeptH ks h h') : KeptH ks h' h := fun r => (a r).symm

theorem _root_.Verif.Spec.KeptH.set {h h' : Heap K} (hr : KeptH ks h h') (r : Nat) {t t' : Trace K} (ht : SameKept ks t t') :
    KeptH ks (h.set r t) (h'.set r t') := by
  intro q
  by_cases e : q = r
  · subst e; rw [Heap.set_self, Heap.set_self]; exact ht
  · rw [Heap.set_ne _ _ e, Heap.set_ne _ _ e]; exact hr q

/-- A function on traces that respects the relation. -/
def KeepsRel (ks : String → Prop) (f : Trace K → Trace K) : Prop :=
  ∀ t t', SameKept ks t t' → SameKept ks (f t) (f t')

/-- A function on traces which may raise and respects the relation. -/
def KeepsRelE (ks : String → Prop) (f : Trace K → Res (Trace K)) : Prop :=
  ∀ t t', SameKept ks t t' → KeptR ks (f t) (f t')

theorem kept_forEach {f : Trace K → Trace K} (hf : KeepsRel ks f) {h h' : Heap K} (hr : KeptH ks h h')
    (s : List Nat) : KeptH ks (Heap.forEach f h s) (Heap.forEach f h' s) := by
  induction s generalizing h h' with
  | nil => exact hr
  | cons a s ih => exact ih (hr.set a (hf _ _ (hr a)))

theorem kept_forEachE {f : Trace K → Res (Trace K)} (hf : KeepsRelE ks f) {h h' : Heap K} (hr : KeptH ks h h')
    (s : List Nat) : KeptH ks (Heap.forEachE f h s).1 (Heap.forEachE f h' s).1 ∧
      (Heap.forEachE f h s).2 = (Heap.forEachE f h' s).2 := by
  induction s generalizing h h' with
  | nil => exact ⟨hr, rfl⟩
  | cons a s ih =>
    unfold Heap.forEachE
    have := hf _ _ (hr a)
    generalize f (h a) = x at this
    generalize f (h' a) = y at this
    cases this with
    | error e => exact ⟨hr, rfl⟩
    | ok t t' ht => exact ih (hr.set a ht)

theorem addInfo_kept (info : Str) (hp : ¬ ks "processing") (h : Heap K) (s : List Nat) :
    KeptH ks (addInfoAll info h s) h := by
  unfold addInfoAll
  induction s generalizing h with
  | nil => exact KeptH.refl h
  | cons a s ih =>
    unfold Heap.forEachE
    have key : ∀ t, addInfo info (h a) = .ok t → SameKept ks t (h a) := by
      intro t ht
      unfold addInfo at ht
      split at ht
      · cases ht; exact (SameKept.refl _).put_out _ hp _
      · cases ht
        split
        · exact (SameKept.refl _).put_out _ hp _
        · exact SameKept.refl _
      · cases ht
    cases hi : addInfo info (h a) with
    | error e => exact KeptH.refl h
    | ok t =>
      refine (ih (h.set a t)).trans (fun q => ?_)
      by_cases e : q = a
      · subst e; rw [Heap.set_self]; exact key t hi
      · rw [Heap.set_ne _ _ e]; exact SameKept.refl _

theorem kept_addInfo (info : Str) (hp : ¬ ks "processing") {h h' : Heap K} (hr : KeptH ks h h') (s : List Nat) :
    KeptH ks (addInfoAll info h s) (addInfoAll info h' s) :=
  ((addInfo_kept info hp h s).trans hr).trans (addInfo_kept info hp h' s).symm

theorem kept_uniqueHeader [DecidableEq K] {h h' : Heap K} (hr : KeptH ks h h') (s : List Nat) {k : String}
    (hk : ks k) : uniqueHeader h s k = uniqueHeader h' s k := by
  unfold uniqueHeader
  rw [show (fun r => (h r).ext.get k) = fun r => (h' r).ext.get k from funext fun r => (hr r).ext k hk]

theorem kept_streamMethod [DecidableEq K] {h h' : Heap K} (hr : KeptH ks h h') (s : List Nat)
    (hk : ks "phase") : streamMethod h s = streamMethod h' s := by
  unfold streamMethod; rw [kept_uniqueHeader hr s hk]

theorem kept_selectComps {h h' : Heap K} (hr : KeptH ks h h') (c : Str) (s : List Nat) :
    selectComps h c s = selectComps h' c s := by
  induction s with
  | nil => rfl
  | cons r s ih => unfold selectComps; rw [(hr r).comp, ih]

theorem kept_selectRsp {h h' : Heap K} (hr : KeptH ks h h') (c : Option Str) (s : List Nat) :
    selectRsp h c s = selectRsp h' c s := by
  cases c with
  | none => rfl
  | some c => exact kept_selectComps hr c s

/-- If no other response has the channel of the source, the position is that of the object. -/
theorem indexOf?_object [DecidableEq K] (h : Heap K) (src : Nat) (rsp : List Nat)
    (hu : ∀ r ∈ rsp, (h r).cha = (h src).cha → r = src) :
    indexOf? h src rsp = rsp.findIdx? (fun r => decide (r = src)) := by
  unfold indexOf?
  induction rsp with
  | nil => rfl
  | cons a rsp ih =>
    have e : (decide (a = src) || decide (h a = h src)) = decide (a = src) := by
      by_cases ha : a = src
      · simp [ha]
      · have : h a ≠ h src := fun he => ha (hu a List.mem_cons_self (by rw [he]))
        simp [ha, this]
    rw [List.findIdx?_cons, List.findIdx?_cons, e, ih fun r hr => hu r (List.mem_cons_of_mem _ hr)]

theorem kept_writeBack {h h' : Heap K} (hr : KeptH ks h h') (rs : List Nat) (fs : List (Trace K → Trace K))
    (hf : ∀ f ∈ fs, KeepsRel ks f) :
    KeptH ks (writeBack h rs fs).1 (writeBack h' rs fs).1 ∧ (writeBack h rs fs).2 = (writeBack h' rs fs).2 := by
  induction rs generalizing h h' fs with
  | nil => cases fs <;> exact ⟨hr, rfl⟩
  | cons r rs ih =>
    cases fs with
    | nil => exact ⟨hr, rfl⟩
    | cons f fs =>
      exact ih (hr.set r (hf f List.mem_cons_self _ _ (hr r))) fs (fun g hg => hf g (List.mem_cons_of_mem _ hg))

/-- Heap and list of references after a call. -/
def KeptC (ks : String → Prop) (x y : Heap K × Res (List Nat)) : Prop := KeptH ks x.1 y.1 ∧ x.2 = y.2

theorem kept_finish {h h' : Heap K} (hr : KeptH ks h h') (rs : List Nat) (res : Res (List (Trace K → Trace K)))
    (hf : ∀ fs, res = .ok fs → ∀ f ∈ fs, KeepsRel ks f) : KeptC ks (finish h rs res) (finish h' rs res) := by
  unfold finish
  cases res with
  | error e => exact ⟨hr, rfl⟩
  | ok fs =>
    have := kept_writeBack hr rs fs (hf fs rfl)
    simp only
    revert this
    cases writeBack h rs fs with
    | mk a e =>
      cases writeBack h' rs fs with
      | mk b e' =>
        rintro ⟨h1, h2⟩
        simp only at h1 h2
        subst h2
        cases e with
        | none => exact ⟨h1, rfl⟩
        | some e => exact ⟨h1, rfl⟩

end basics

section deconv
variable {K : Type} [Field K] [LinearOrder K] [IsStrictOrderedRing K] [FloorRing K] {ks : String → Prop}

/-- The external functions used by `deconvolve` respect the relation. -/
structure KeptDec (ks : String → Prop) (dec : DeconvEnv K) : Prop where
  trimPad : ∀ a b, KeepsRel ks (fun t => dec.trimPad t a b)
  taper : ∀ l, KeepsRel ks (fun t => dec.taper t l)
  noise : ∀ h h' s rsp rc, KeptH ks h h' → dec.noise h s rsp rc = dec.noise h' s rsp rc
  func : ∀ h h' rsp t t' x n, KeptH ks h h' → SameKept ks t t' →
    KeptC ks (dec.func h rsp t x n) (dec.func h' rsp t' x n)

theorem setData_keeps (d : List K) : KeepsRel ks (setData d) := fun _ _ h => h.setData d

theorem kept_setData_map {res : Res (List (List K))} (fs : List (Trace K → Trace K))
    (h : res.map (·.map setData) = .ok fs) : ∀ f ∈ fs, KeepsRel ks f := by
  cases res with
  | error e => cases h
  | ok l =>
    cases h
    intro f hf
    obtain ⟨d, -, rfl⟩ := List.mem_map.1 hf
    exact setData_keeps d

theorem kept_runKernel {dec : DeconvEnv K} (hk : KeptDec ks dec) (m : DMethod) {h h' : Heap K} (hr : KeptH ks h h')
    (s rsp : List Nat) (rc : Option Str) {t t' : Trace K} (ht : SameKept ks t t') (sr x : K) (n : Option Norm) :
    KeptC ks (runKernel dec m h s rsp rc t sr x n) (runKernel dec m h' s rsp rc t' sr x n) := by
  have hd : rsp.map (fun r => (h r).data) = rsp.map (fun r => (h' r).data) :=
    List.map_congr_left fun r _ => (hr r).data
  unfold runKernel
  cases m with
  | time =>
    simp only [hd, ht.data, ht.npts]
    exact kept_finish hr rsp _ fun fs h => kept_setData_map fs h
  | waterlevel =>
    simp only [hd, ht.data]
    exact kept_finish hr rsp _ fun fs h => kept_setData_map fs h
  | iterative =>
    simp only [hd, ht.data]
    refine kept_finish hr rsp _ fun fs h => ?_
    generalize dec.iter _ _ _ _ _ = res at h
    cases res with
    | error e => cases h
    | ok l =>
      cases h
      intro f hf
      obtain ⟨d, -, rfl⟩ := List.mem_map.1 hf
      exact fun a b hab => (hab.setData d.1).put _ _
  | multitaper =>
    simp only [hd, ht.data, hk.noise h h' s rsp rc hr]
    exact kept_finish hr rsp _ fun fs h => kept_setData_map fs h
  | func => exact hk.func h h' rsp t t' x n hr ht

/-- The source is the only trace of the stream with its channel code. -/
theorem select_unique (h : Heap K) (s : List Nat) (a : DeconvArgs K) (m : DMethod) (src : Nat)
    (rsp : List Nat) (nrm : Option Norm) (hd : deconvSelect h s a = .ok (m, src, rsp, nrm)) :
    ∀ r ∈ rsp, (h r).cha = (h src).cha → r = src := by
  intro r hr he
  have hsub := deconvSelect_sub h s a m src rsp nrm hd
  have hsel := (deconvSelect_ok h s a m src rsp nrm hd).2.1
  have h1 := (mem_selectComps h a.srcComps s _ hsel src).1 List.mem_cons_self
  have h2 := (mem_selectComps h a.srcComps s _ hsel r).2 ⟨hsub.2 r hr, by
    have := h1.2
    unfold OfComp at this ⊢
    rw [he]; exact this⟩
  simpa using h2

theorem kept_normKw {h h' : Heap K} (hr : KeptH ks h h') (n : Option Norm) (src : Nat) (rsp : List Nat)
    (hu : ∀ r ∈ rsp, (h r).cha = (h src).cha → r = src) : normKw h n src rsp = normKw h' n src rsp := by
  unfold normKw
  rw [indexOf?_object h src rsp hu, indexOf?_object h' src rsp fun r hr' e => hu r hr' (by
    rw [(hr r).cha, (hr src).cha, e])]

theorem kept_deconvSelect {h h' : Heap K} (hr : KeptH ks h h') (s : List Nat) (a : DeconvArgs K) :
    deconvSelect h s a = deconvSelect h' s a := by
  cases hd : deconvSelect h s a with
  | ok v =>
    obtain ⟨m, src, rsp, nrm⟩ := v
    have hu := select_unique h s a m src rsp nrm hd
    obtain ⟨h1, h2, h3, h4, h5, h6⟩ := deconvSelect_ok h s a m src rsp nrm hd
    unfold deconvSelect
    rw [← kept_selectComps hr, ← kept_selectRsp hr, h1, h2, h3]
    simp only [h4, h5, and_self, if_true, h6, kept_normKw hr _ _ _ hu]
  | error e =>
    unfold deconvSelect at hd ⊢
    rw [← kept_selectComps hr, ← kept_selectRsp hr]
    cases hm : deconvMethod a.method with
    | none => rw [hm] at hd; exact hd.symm
    | some m =>
      rw [hm] at hd
      simp only at hd ⊢
      cases hc : selectComps h a.srcComps s with
      | error e' => rw [hc] at hd; exact hd.symm
      | ok l =>
        rw [hc] at hd
        match l, hd with
        | [], hd => exact hd.symm
        | _ :: _ :: _, hd => exact hd.symm
        | [src], hd =>
          simp only at hd ⊢
          cases hs : selectRsp h a.rspComps s with
          | error e' => rw [hs] at hd; exact hd.symm
          | ok rsp =>
            rw [hs] at hd
            simp only at hd ⊢
            split at hd
            · cases hd
            · rename_i hn; rw [if_neg hn]; exact hd.symm

/-- `deconvolve` on two streams that agree in the onset and in the other entries of `ks`. -/
theorem kept_deconvolve {dec : DeconvEnv K} (hk : KeptDec ks dec) (ho : ks "onset") (a : DeconvArgs K)
    {h h' : Heap K} (hr : KeptH ks h h') (s : List Nat) :
    KeptC ks (deconvolve dec h s a) (deconvolve dec h' s a) := by
  unfold deconvolve
  rw [← kept_deconvSelect hr s a]
  cases hd : deconvSelect h s a with
  | error e => exact ⟨hr, rfl⟩
  | ok v =>
    obtain ⟨m, src, rsp, nrm⟩ := v
    have hu := select_unique h s a m src rsp nrm hd
    have hs := hr src
    simp only
    rw [← hs.getTime ho]
    cases (h src).getTime "onset" with
    | none => exact ⟨hr, rfl⟩
    | some o =>
      simp only
      rw [← hs.times, ← hs.start, ← hs.delta, ← hs.endtime, ← hs.sr]
      cases findNearest (times (h src)) (o - (h src).start) with
      | error e => exact ⟨hr, rfl⟩
      | ok idx =>
        simp only
        generalize hons : (h src).start + (idx : K) * (h src).delta = onset
        have hr1 : KeptH ks (h.set src ((h src).put "onset" (.time onset)))
            (h'.set src ((h' src).put "onset" (.time onset))) := hr.set src (hs.put _ _)
        have hr2 := kept_forEach (f := fun t : Trace K => t.put "onset" (.time onset))
          (fun t t' ht => ht.put _ _) hr1 rsp
        have hcha : ∀ r, (Heap.forEach (fun t : Trace K => t.put "onset" (.time onset))
            (h.set src ((h src).put "onset" (.time onset))) rsp r).cha = (h r).cha := by
          intro r
          have hi := Heap.forEach_inv (fun t : Trace K => t.cha) (fun t : Trace K => t.put "onset" (.time onset))
            (fun t => rfl) (h.set src ((h src).put "onset" (.time onset))) rsp r
          rw [hi]
          by_cases e : r = src
          · subst e; rw [Heap.set_self]; rfl
          · rw [Heap.set_ne _ _ e]
        generalize Heap.forEach (fun t : Trace K => t.put "onset" (.time onset))
            (h.set src ((h src).put "onset" (.time onset))) rsp = g at hr2 hcha
        generalize Heap.forEach (fun t : Trace K => t.put "onset" (.time onset))
            (h'.set src ((h' src).put "onset" (.time onset))) rsp = g' at hr2
        cases sourceWindow m a.winsrc ((h src).endtime - (h src).start) (onset - (h src).start) with
        | error e => exact ⟨hr2, rfl⟩
        | ok w =>
          obtain ⟨w0, w1, w2⟩ := w
          simp only
          have hT : SameKept ks (dec.taper (dec.trimPad (g src) (onset + w0) (onset + w1)) w2)
              (dec.taper (dec.trimPad (g' src) (onset + w0) (onset + w1)) w2) :=
            hk.taper w2 _ _ (hk.trimPad (onset + w0) (onset + w1) _ _ (hr2 src))
          have hi : indexOf? g src rsp = indexOf? g' src rsp := by
            rw [indexOf?_object g src rsp fun r hr' e => hu r hr' (by rw [← hcha r, ← hcha src, e]),
              indexOf?_object g' src rsp fun r hr' e => hu r hr' (by
                rw [← hcha r, ← hcha src, (hr2 r).cha, (hr2 src).cha, e])]
          rw [hi]
          refine kept_runKernel hk m ?_ s rsp a.rspComps hT _ _ nrm
          split
          · exact hr2
          · exact hr2.set src hT

end deconv

section rf
variable {K : Type} [Field K] [LinearOrder K] [IsStrictOrderedRing K] [FloorRing K] {ks : String → Prop}

/-- ObsPy's filter, trim, decimate, rotate and the functions used by `deconvolve` respect the relation: the entries of
the result among the keys `ks` depend only on these entries, on the codes, on start time, sampling rate and samples. -/
structure KeptEnv (ks : String → Prop) (env : RfEnv K) : Prop where
  filter : KeepsRelE ks env.filter
  trim : ∀ a b, KeepsRelE ks (fun t => env.trim t a b)
  decimate : ∀ n, KeepsRelE ks (env.decimate n)
  rotate : ∀ m h h' g, KeptH ks h h' →
    KeptH ks (env.rotate m h g).1 (env.rotate m h' g).1 ∧ (env.rotate m h g).2 = (env.rotate m h' g).2
  dec : KeptDec ks env.dec

/-- A step that respects the relation. -/
def KeptStep (ks : String → Prop) (F : SState K → SRes K) : Prop :=
  ∀ h h' s, KeptH ks h h' → KeptS ks (F (h, s)) (F (h', s))

theorem kept_andThen {x y : SRes K} (hx : KeptS ks x y) {G : SState K → SRes K} (hG : KeptStep ks G) :
    KeptS ks (x.andThen G) (y.andThen G) := by
  obtain ⟨⟨h, s⟩, e⟩ := x
  obtain ⟨⟨h', s'⟩, e'⟩ := y
  obtain ⟨h1, h2, h3⟩ := hx
  simp only at h1 h2 h3
  subst h2 h3
  cases e with
  | some e => exact ⟨h1, rfl, rfl⟩
  | none => exact hG h h' s h1

theorem kept_id : KeptStep (K := K) ks (fun st => (st, none)) := fun _ _ _ hr => ⟨hr, rfl, rfl⟩

theorem kept_traces {f : Trace K → Res (Trace K)} (hf : KeepsRelE ks f) : KeptStep ks (forTraces f) := by
  intro h h' s hr
  have := kept_forEachE hf hr s
  exact ⟨this.1, rfl, this.2⟩

theorem kept_seconds2utc {t t' : Trace K} (ht : SameKept ks t t') (x : TArg K) {k : String} (hk : ks k) :
    seconds2utc t x (.key k) = seconds2utc t' x (.key k) := by
  have : statsTime t k = statsTime t' k := by
    unfold statsTime; rw [ht.start, ht.endtime, ht.ext k hk]
  cases x with
  | none => rfl
  | utc u => rfl
  | sec d => simp only [seconds2utc, this]

theorem kept_cutTrace {trim : Trace K → TArg K → TArg K → Res (Trace K)} (ht : ∀ a b, KeepsRelE ks (fun t => trim t a b))
    (a b : TArg K) {k : String} (hk : ks k) : KeepsRelE ks (cutTrace trim a b (.key k)) := by
  intro t t' hs
  unfold cutTrace
  rw [kept_seconds2utc hs a hk, kept_seconds2utc hs b hk]
  cases seconds2utc t' a (.key k) with
  | error e => exact .error e
  | ok x =>
    cases seconds2utc t' b (.key k) with
    | error e => exact .error e
    | ok y => exact ht x y t t' hs

theorem kept_trim2 {trim : Trace K → TArg K → TArg K → Res (Trace K)} (ht : ∀ a b, KeepsRelE ks (fun t => trim t a b))
    (a b : TArg K) {k : String} (hk : ks k) : KeptStep ks (trim2 trim a b (.key k)) := by
  intro h h' s hr
  have := kept_forEachE (kept_cutTrace ht a b hk) hr s
  unfold trim2
  revert this
  simp only
  cases Heap.forEachE (cutTrace trim a b (.key k)) h s with
  | mk g e =>
    cases Heap.forEachE (cutTrace trim a b (.key k)) h' s with
    | mk g' e' =>
      rintro ⟨h1, h2⟩
      simp only at h1 h2
      subst h2
      cases e with
      | some e => exact ⟨h1, rfl, rfl⟩
      | none =>
        refine ⟨h1, ?_, rfl⟩
        show s.filter _ = s.filter _
        refine List.filter_congr fun r _ => ?_
        rw [(h1 r).npts]

theorem kept_iter3c (timeStr : K → Str) (ho : ks "onset") {h h' : Heap K} (hr : KeptH ks h h') (s : List Nat) :
    iter3c timeStr h s = iter3c timeStr h' s := by
  have e1 : (fun r => (h r).id) = fun r => (h' r).id := funext fun r => (hr r).id
  have e2 : onsetKey timeStr h = onsetKey timeStr h' := by
    funext r; unfold onsetKey; rw [(hr r).ext "onset" ho]
  unfold iter3c; rw [e1, e2]

theorem kept_groups (timeStr : K → Str) (ho : ks "onset") {f : Heap K → List Nat → Heap K × Option PyErr}
    (hf : ∀ h h' g, KeptH ks h h' → KeptH ks (f h g).1 (f h' g).1 ∧ (f h g).2 = (f h' g).2) :
    KeptStep ks (forGroups timeStr f) := by
  intro h h' s hr
  have hb : ∀ gs, ∀ h h', KeptH ks h h' → KeptH ks (groupBody f h gs).1 (groupBody f h' gs).1 ∧
      (groupBody f h gs).2 = (groupBody f h' gs).2 := by
    intro gs
    induction gs with
    | nil => exact fun h h' hr => ⟨hr, rfl⟩
    | cons g gs ih =>
      intro h h' hr
      have := hf h h' g hr
      unfold groupBody
      revert this
      cases f h g with
      | mk a e =>
        cases f h' g with
        | mk b e' =>
          rintro ⟨h1, h2⟩
          simp only at h1 h2
          subst h2
          cases e with
          | some e => exact ⟨h1, rfl⟩
          | none => exact ih a b h1
  unfold forGroups
  simp only
  rw [← kept_iter3c timeStr ho hr s]
  cases iter3c timeStr h s with
  | error e => exact ⟨hr, rfl, rfl⟩
  | ok gs => exact ⟨(hb gs h h' hr).1, rfl, (hb gs h h' hr).2⟩

theorem kept_negQ : KeepsRel (K := K) ks negQ := by
  intro t t' ht
  have e : t.cha.getLast? = t'.cha.getLast? := by rw [ht.cha]
  unfold negQ
  by_cases hq : t.cha.getLast? = some 'Q'
  · rw [if_pos hq, if_pos (by rw [← e]; exact hq), ht.data]; exact ht.setData _
  · rw [if_neg hq, if_neg (by rw [← e]; exact hq)]; exact ht

theorem kept_deconvolveCall {env : RfEnv K} (hk : KeptDec ks env.dec) (ho : ks "onset") (hp : ¬ ks "processing")
    (da : DeconvArgs K) (h h' : Heap K) (g : List Nat) (hr : KeptH ks h h') :
    KeptH ks (deconvolveCall env da h g).1 (deconvolveCall env da h' g).1 ∧
      (deconvolveCall env da h g).2 = (deconvolveCall env da h' g).2 := by
  have := kept_deconvolve hk ho da hr g
  unfold deconvolveCall
  revert this
  cases deconvolve env.dec h g da with
  | mk a e =>
    cases deconvolve env.dec h' g da with
    | mk b e' =>
      rintro ⟨h1, h2⟩
      simp only at h1 h2
      subst h2
      cases e with
      | error e => exact ⟨h1, rfl⟩
      | ok rsp => exact ⟨kept_addInfo _ hp h1 rsp, rfl⟩

theorem kept_mirrorLoop (ho : ks "onset") {h h' : Heap K} (hr : KeptH ks h h') (s : List Nat) :
    KeptH ks (mirrorLoop h s).1 (mirrorLoop h' s).1 ∧ (mirrorLoop h s).2 = (mirrorLoop h' s).2 := by
  induction s generalizing h h' with
  | nil => exact ⟨hr, rfl⟩
  | cons r s ih =>
    unfold mirrorLoop
    rw [← (hr r).getTime ho]
    cases (h r).getTime "onset" with
    | none =>
      refine ⟨hr.set r ?_, rfl⟩
      rw [(hr r).data]; exact (hr r).setData _
    | some o =>
      refine ih (hr.set r ?_)
      have e : (h r).start + ((h r).endtime - o) = (h' r).start + ((h' r).endtime - o) := by
        rw [(hr r).start, (hr r).endtime]
      unfold mirrorTrace
      rw [e, (hr r).data]
      exact ((hr r).setData _).put _ _

theorem kept_mirrorStage (ho : ks "onset") (m : Str) : KeptStep (K := K) ks (mirrorStage m) := by
  intro h h' s hr
  have := kept_mirrorLoop ho hr s
  unfold mirrorStage
  split
  · exact ⟨this.1, rfl, this.2⟩
  · exact ⟨hr, rfl, rfl⟩

theorem kept_labelStage (hph : ks "phase") (m : Str) : KeptStep (K := K) ks (labelStage m) := by
  intro h h' s hr
  have h1 : KeptH ks (setType "rf".toList h s) (setType "rf".toList h' s) :=
    kept_forEach (fun t t' ht => ht.put _ _) hr s
  unfold labelStage
  simp only
  rw [← kept_streamMethod h1 s hph]
  cases streamMethod (setType "rf".toList h s) s with
  | error e => exact ⟨h1, rfl, rfl⟩
  | ok m' =>
    refine ⟨?_, rfl, rfl⟩
    simp only
    split
    · exact kept_forEach (fun t t' ht => ht.put _ _) h1 s
    · exact h1

theorem kept_prep {env : RfEnv K} (hk : KeptEnv ks env) (ho : ks "onset") (a : RfArgs K) :
    KeptStep ks (rfPrep env a) := by
  intro h h' s hr
  unfold rfPrep
  refine kept_andThen (kept_andThen (kept_andThen ?_ ?_) ?_) ?_
  · unfold filterStage
    split
    · exact kept_traces hk.filter h h' s hr
    · exact ⟨hr, rfl, rfl⟩
  · intro h h' s hr
    unfold trimStage
    cases a.trim with
    | none => exact ⟨hr, rfl, rfl⟩
    | some x => exact kept_trim2 hk.trim x.1 x.2 ho h h' s hr
  · intro h h' s hr
    unfold decimateStage
    cases a.downsample with
    | none => exact ⟨hr, rfl, rfl⟩
    | some d =>
      refine kept_traces (f := decimateTrace env d) (fun t t' ht => ?_) h h' s hr
      unfold decimateTrace
      rw [ht.sr]
      split
      · exact hk.decimate _ t t' ht
      · exact .ok t t' ht
  · intro h h' s hr
    unfold rotateStage
    cases a.rotate with
    | none => exact ⟨hr, rfl, rfl⟩
    | some m => exact kept_groups env.timeStr ho (hk.rotate m) h h' s hr

/-- C193, receiver functions.  Two streams with the same codes, start times, sampling rates and samples that agree in
the header entries `ks`, among them onset and phase, give the same exception or receiver functions that agree in codes,
start times, sampling rates, samples and these entries.  The other entries, e.g. the list of processing steps, have no
influence. -/
theorem C193_rf (env : RfEnv K) (a : RfArgs K) (hk : KeptEnv ks env) (ho : ks "onset") (hph : ks "phase")
    (hp : ¬ ks "processing") : KeptStep ks (rf env a) := by
  intro h h' s hr
  unfold rf
  refine kept_andThen ?_ (fun h h' s hr => ⟨kept_addInfo _ hp hr s, rfl, rfl⟩)
  unfold rfBody
  have hm : rfMethod h s a.method = rfMethod h' s a.method := by
    unfold rfMethod requestedMethod
    rw [kept_streamMethod hr s hph]
  simp only
  rw [← hm]
  cases rfMethod h s a.method with
  | error e => exact ⟨hr, rfl, rfl⟩
  | ok m =>
    refine kept_andThen (kept_andThen ?_ (kept_mirrorStage ho m)) (kept_labelStage hph m)
    unfold rfBefore
    refine kept_andThen (kept_andThen (kept_prep hk ho a h h' s hr) ?_) ?_
    · exact fun h h' s hr => ⟨kept_forEach kept_negQ hr s, rfl, rfl⟩
    · intro h h' s hr
      unfold deconvolveStage
      cases a.deconvolve with
      | none => exact ⟨hr, rfl, rfl⟩
      | some d => exact kept_groups env.timeStr ho (kept_deconvolveCall hk.dec ho hp _) h h' s hr

end rf

section moveout
variable {K : Type} [Field K] [LinearOrder K] [IsStrictOrderedRing K] [FloorRing K] {ks : String → Prop}

theorem kept_moveoutData (find : List K → K → Nat) {t t' : Trace K} (ht : SameKept ks t t') (o : K) (phase : Str)
    (t0 t1 : List K) : Simple.moveoutData find t o phase t0 t1 = Simple.moveoutData find t' o phase t0 t1 := by
  unfold Simple.moveoutData Simple.moveoutS Simple.moveoutP Simple.index0
  rw [ht.start, ht.sr, ht.data, ht.delta, ht.npts]

theorem kept_moveoutStep (sqrt : K → K) (find : List K → K → Nat) {nanCase : Trace K → Res (List K)}
    (hn : ∀ t t', SameKept ks t t' → nanCase t = nanCase t') (ho : ks "onset") (hs : ks "slowness")
    (phase : Str) (ref : K) (m : Simple.SimpleModel K) {t t' : Trace K} (ht : SameKept ks t t') :
    (Simple.moveoutStep sqrt find nanCase phase ref m t).1 = (Simple.moveoutStep sqrt find nanCase phase ref m t').1 ∧
    KeptR ks (Simple.moveoutStep sqrt find nanCase phase ref m t).2
      (Simple.moveoutStep sqrt find nanCase phase ref m t').2 := by
  unfold Simple.moveoutStep
  rw [← ht.getTime ho, ← ht.getNum hs, ← hn t t' ht]
  cases t.getTime "onset" with
  | none => exact ⟨rfl, .error _⟩
  | some o =>
    have hc : (t.start ≤ o ∧ o ≤ t.endtime) = (t'.start ≤ o ∧ o ≤ t'.endtime) := by rw [ht.start, ht.endtime]
    simp only [← hc]
    split
    · exact ⟨rfl, .error _⟩
    · cases t.getNum "slowness" with
      | none => exact ⟨rfl, .error _⟩
      | some sl =>
        simp only
        cases Simple.stretch sqrt m sl phase ref with
        | mk m' r =>
          cases r with
          | error e => exact ⟨rfl, .error _⟩
          | ok tt =>
            obtain ⟨t0, t1⟩ := tt
            simp only [← kept_moveoutData find ht]
            have key : ∀ x : Res (List K),
                ((match x with
                  | .error e => (m', .error e)
                  | .ok d => (m', .ok { t with data := d }) : Simple.SimpleModel K × Res (Trace K)).1
                = (match x with
                  | .error e => (m', .error e)
                  | .ok d => (m', .ok { t' with data := d }) : Simple.SimpleModel K × Res (Trace K)).1) ∧
                KeptR ks (match x with
                  | .error e => (m', .error e)
                  | .ok d => (m', .ok { t with data := d }) : Simple.SimpleModel K × Res (Trace K)).2
                (match x with
                  | .error e => (m', .error e)
                  | .ok d => (m', .ok { t' with data := d }) : Simple.SimpleModel K × Res (Trace K)).2 := by
              intro x
              cases x with
              | error e => exact ⟨rfl, .error _⟩
              | ok d => exact ⟨rfl, .ok _ _ (ht.setData d)⟩
            cases Simple.allSome t0 with
            | none => exact key _
            | some a =>
              cases Simple.allSome t1 with
              | none => exact key _
              | some b => exact key _

theorem kept_moveout (sqrt : K → K) (find : List K → K → Nat) {nanCase : Trace K → Res (List K)}
    (hn : ∀ t t', SameKept ks t t' → nanCase t = nanCase t') (ho : ks "onset") (hs : ks "slowness")
    (phase : Str) (ref : K) (m : Simple.SimpleModel K) {h h' : Heap K} (hr : KeptH ks h h') (s : List Nat) :
    (Simple.moveout sqrt find nanCase phase ref m h s).1 = (Simple.moveout sqrt find nanCase phase ref m h' s).1 ∧
    KeptH ks (Simple.moveout sqrt find nanCase phase ref m h s).2.1
      (Simple.moveout sqrt find nanCase phase ref m h' s).2.1 ∧
    (Simple.moveout sqrt find nanCase phase ref m h s).2.2
      = (Simple.moveout sqrt find nanCase phase ref m h' s).2.2 := by
  induction s generalizing m h h' with
  | nil => exact ⟨rfl, hr, rfl⟩
  | cons r s ih =>
    unfold Simple.moveout
    have := kept_moveoutStep sqrt find hn ho hs phase ref m (hr r)
    revert this
    cases Simple.moveoutStep sqrt find nanCase phase ref m (h r) with
    | mk m1 x =>
      cases Simple.moveoutStep sqrt find nanCase phase ref m (h' r) with
      | mk m2 y =>
        rintro ⟨h1, h2⟩
        simp only at h1 h2
        subst h1
        cases h2 with
        | error e => exact ⟨rfl, hr, rfl⟩
        | ok t t' ht => exact ih m1 (hr.set r ht)

/-- C193, move out correction: onset, phase and slowness are needed. -/
theorem C193_moveout (sqrt : K → K) (find : List K → K → Nat) (nanCase : Trace K → Res (List K))
    (hn : ∀ t t', SameKept ks t t' → nanCase t = nanCase t') (ho : ks "onset") (hph : ks "phase") (hs : ks "slowness")
    (hp : ¬ ks "processing") (info : Str) (phase : Option Str) (ref : K) (m : Simple.SimpleModel K) (h h' : Heap K)
    (hr : KeptH ks h h') (s : List Nat) :
    (streamMoveout sqrt find nanCase info phase ref m (h, s)).1
      = (streamMoveout sqrt find nanCase info phase ref m (h', s)).1 ∧
    KeptS ks (streamMoveout sqrt find nanCase info phase ref m (h, s)).2
      (streamMoveout sqrt find nanCase info phase ref m (h', s)).2 := by
  unfold streamMoveout
  have hph' : moveoutPhase h s phase = moveoutPhase h' s phase := by
    unfold moveoutPhase; rw [kept_streamMethod hr s hph]
  simp only
  rw [← hph']
  cases moveoutPhase h s phase with
  | error e => exact ⟨rfl, hr, rfl, rfl⟩
  | ok p =>
    simp only
    have := kept_moveout sqrt find hn ho hs p ref m hr s
    revert this
    cases Simple.moveout sqrt find nanCase p ref m h s with
    | mk m1 x =>
      obtain ⟨g, e⟩ := x
      cases Simple.moveout sqrt find nanCase p ref m h' s with
      | mk m2 y =>
        obtain ⟨g', e'⟩ := y
        rintro ⟨h1, h2, h3⟩
        simp only at h1 h2 h3
        subst h1 h3
        cases e with
        | some e => exact ⟨rfl, h2, rfl, rfl⟩
        | none =>
          simp only
          have hl : KeepsRelE ks (moveoutLabel (K := K) p ref) := by
            intro t t' ht
            have h1 := ht.put "moveout" (.str p)
            unfold moveoutLabel
            rw [← h1.ext "slowness" hs]
            cases (t.put "moveout" (.str p)).ext.get "slowness" with
            | none => exact .error _
            | some v => exact .ok _ _ ((h1.put _ _).put _ _)
          have := kept_forEachE hl h2 s
          revert this
          cases Heap.forEachE (moveoutLabel p ref) g s with
          | mk a e =>
            cases Heap.forEachE (moveoutLabel p ref) g' s with
            | mk b e' =>
              rintro ⟨h3, h4⟩
              simp only at h3 h4
              subst h4
              cases e with
              | some e => exact ⟨rfl, h3, rfl, rfl⟩
              | none => exact ⟨rfl, kept_addInfo _ hp h3 s, rfl, rfl⟩

end moveout

section stack
variable {K : Type} [Field K] [LinearOrder K] {ks : String → Prop}

theorem kept_copied_get (keys : List String) (d : Dict (Val K)) (k : String) :
    Dict.get (keys.filterMap fun j => (d.get j).map fun v => (j, v)) k = if k ∈ keys then d.get k else none := by
  induction keys with
  | nil => rfl
  | cons j keys ih =>
    rw [List.filterMap_cons]
    cases hj : d.get j with
    | none =>
      simp only [Option.map_none]
      rw [ih]
      by_cases e : k = j
      · subst e; simp [hj]
      · simp [e]
    | some v =>
      simp only [Option.map_some]
      by_cases e : k = j
      · subst e; simp [Dict.get, hj]
      · have : Dict.get ((j, v) :: keys.filterMap fun j => (d.get j).map fun v => (j, v)) k
            = Dict.get (keys.filterMap fun j => (d.get j).map fun v => (j, v)) k := by
          simp [Dict.get, Ne.symm e]
        rw [this, ih]
        simp [e]

/-- C193, stack. -/
theorem C193_stack (order : List Str → List Str) (ho : ks "onset") (h h' : Heap K) (hr : KeptH ks h h') (s : List Nat) :
    KeptL ks (stack order h s) (stack order h' s) := by
  unfold stack
  cases s with
  | nil => exact .error _
  | cons r0 s =>
    simp only
    have hid : (fun r => (h r).id) = fun r => (h' r).id := funext fun r => (hr r).id
    have hone : ∀ i, KeptR ks (stackOne h (r0 :: s) (h r0) i) (stackOne h' (r0 :: s) (h' r0) i) := by
      intro i
      unfold stackOne
      rw [show (fun r => (h r).data) = fun r => (h' r).data from funext fun r => (hr r).data,
        show (fun r => decide ((h r).id = i)) = fun r => decide ((h' r).id = i) from
          funext fun r => by rw [(hr r).id]]
      split
      · cases npMean (((r0 :: s).filter fun r => decide ((h' r).id = i)).map fun r => (h' r).data) with
        | error e => exact .error _
        | ok d =>
          simp only
          rw [← (hr r0).ext "onset" ho, ← (hr r0).start, ← (hr r0).sr]
          have hb : ∀ a b c e : Str, SameKept ks
              ({ net := a, sta := b, loc := c, cha := e, start := 0, sr := (h r0).sr, data := d,
                 ext := stackEntries.filterMap fun k => ((h r0).ext.get k).map fun v => (k, v) } : Trace K)
              ({ net := a, sta := b, loc := c, cha := e, start := 0, sr := (h r0).sr, data := d,
                 ext := stackEntries.filterMap fun k => ((h' r0).ext.get k).map fun v => (k, v) } : Trace K) := by
            intro a b c e
            refine ⟨rfl, rfl, rfl, rfl, rfl, rfl, rfl, fun k hk => ?_⟩
            show Dict.get _ k = Dict.get _ k
            rw [kept_copied_get, kept_copied_get, (hr r0).ext k hk]
          cases (h r0).ext.get "onset" with
          | none => exact .ok _ _ (hb _ _ _ _)
          | some v =>
            cases v with
            | time o => exact .ok _ _ ((hb _ _ _ _).put _ _)
            | _ => exact .error _
      · exact .error _
    rw [hid]
    generalize order ((r0 :: s).map fun r => (h' r).id) = l
    induction l with
    | nil => exact .ok _ _ .nil
    | cons i l ih =>
      rw [List.mapM_cons, List.mapM_cons]
      have h1 := hone i
      generalize stackOne h (r0 :: s) (h r0) i = x at h1
      generalize stackOne h' (r0 :: s) (h' r0) i = y at h1
      cases h1 with
      | error e => exact .error e
      | ok t t' ht =>
        simp only [bind, Except.bind, pure, Except.pure]
        generalize List.mapM (stackOne h (r0 :: s) (h r0)) l = x at ih
        generalize List.mapM (stackOne h' (r0 :: s) (h' r0)) l = y at ih
        cases ih with
        | error e => exact .error e
        | ok l l' hl => exact .ok _ _ (.cons ht hl)

end stack

/-- C193: the headers written to SAC and SH files suffice; the list of processing steps is not among them. -/
theorem C193_saved : ("onset" ∈ Headers.headers ∧ "phase" ∈ Headers.headers ∧ "slowness" ∈ Headers.headers) ∧
    "processing" ∉ Headers.headers ∧ "num" ∉ Headers.headers := by decide

end Verif.Props
