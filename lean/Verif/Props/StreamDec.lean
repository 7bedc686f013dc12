import Verif.Props.StreamRf

/-!
# Sign convention (C43) and coverage of the deconvolution (C45) in `RFStream.rf`
-/

set_option linter.unusedSimpArgs false
set_option linter.unusedSectionVars false

namespace Verif.Props
open Verif.Py Verif.Model Verif.Spec

section sign
variable {K : Type} [Field K] [LinearOrder K] [FloorRing K]

/-- C43.  Without deconvolution and for method P the result of `rf` is the prepared (filtered, trimmed,
downsampled, rotated) data, where exactly the traces with a channel ending in Q are multiplied
by -1. -/
theorem C43_sign (env : RfEnv K) (a : RfArgs K) (hm : a.method = some "P".toList)
    (hd : a.deconvolve = none) (st st1 st' : SState K) (hn : st1.2.Nodup)
    (hprep : rfPrep env a st = (st1, none)) (hok : rf env a st = (st', none)) :
    st'.2 = st1.2 ∧ ∀ r,
      (r ∈ st1.2 → (∃ p, (st1.1 r).cha = p ++ ['Q']) →
        (st'.1 r).data = (st1.1 r).data.map (fun (x : K) => -x)) ∧
      ((r ∉ st1.2 ∨ ¬ ∃ p, (st1.1 r).cha = p ++ ['Q']) → (st'.1 r).data = (st1.1 r).data) := by
  obtain ⟨sta, stb, stc, h1, h2, h3, h4⟩ := rf_ok env a "P".toList hm st st' hok
  have h1' : sta = (Heap.forEach negQ st1.1 st1.2, st1.2) := by
    unfold rfBefore at h1
    rw [hprep] at h1
    simp only [SRes.andThen, qStage, deconvolveStage, hd, Prod.mk.injEq, and_true] at h1
    exact h1.symm
  have h2' : stb = sta := by
    unfold mirrorStage at h2
    rw [if_neg (by decide)] at h2
    simpa using h2.symm
  have hs : stc.2 = st1.2 := by
    have := labelStage_traces "P".toList stb
    rw [h3, h2', h1'] at this
    exact this
  refine ⟨by rw [h4]; exact hs, fun r => ?_⟩
  have hdata : (st'.1 r).data = (Heap.forEach negQ st1.1 st1.2 r).data := by
    rw [h4]
    show (addInfoAll env.infoRf stc.1 stc.2 r).data = _
    rw [(addInfoAll_rest env.infoRf stc.1 stc.2 r).1, (labelStage_rest _ _ _ h3 r).1, h2', h1']
  have hlast : (st1.1 r).cha.getLast? = some 'Q' ↔ ∃ p, (st1.1 r).cha = p ++ ['Q'] := by
    constructor
    · intro h; exact ⟨_, (List.getLast?_eq_some_iff.1 h).choose_spec⟩
    · rintro ⟨p, hp⟩; rw [hp]; simp
  rw [hdata, Heap.forEach_apply _ _ _ _ hn]
  constructor
  · intro hr hq
    rw [if_pos hr, negQ_data, if_pos (hlast.2 hq)]
  · rintro (hr | hq)
    · rw [if_neg hr]
    · split
      · rw [negQ_data, if_neg (fun h => hq (hlast.1 h))]
      · rfl

/-- C43, order of the steps: the deconvolution works on what `rf(deconvolve=None)` would have produced
before mirroring and labelling, i.e. on data with the sign already changed. -/
theorem C43_before_deconvolution (env : RfEnv K) (a : RfArgs K) (m d : Str) (st : SState K)
    (hd : a.deconvolve = some d) : rfBefore env a m st =
      (rfBefore env { a with deconvolve := none } m st).andThen
        (forGroups env.timeStr (deconvolveCall env (rfDeconvArgs a m d))) := by
  unfold rfBefore deconvolveStage
  simp only [hd]
  show ((rfPrep env a st).andThen qStage).andThen _
    = SRes.andThen (((rfPrep env a st).andThen qStage).andThen fun st => (st, none)) _
  generalize (rfPrep env a st).andThen qStage = x
  obtain ⟨z, e⟩ := x
  cases e <;> rfl

end sign

section cover
variable {K : Type} [Field K] [LinearOrder K] [IsStrictOrderedRing K] [FloorRing K]

/-- Every array returned by one of the four deconvolution kernels satisfies `D`. -/
def KernelsGive (env : DeconvEnv K) (D : List K → Prop) : Prop :=
  (∀ rd s sh n out, env.time rd s sh n = .ok out → ∀ d ∈ out, D d) ∧
  (∀ rd s sr ts n out, env.water rd s sr ts n = .ok out → ∀ d ∈ out, D d) ∧
  (∀ rd s sr ts n out, env.iter rd s sr ts n = .ok out → ∀ d ∈ out, D d.1) ∧
  (∀ rd s ns sr ts n out, env.mt rd s ns sr ts n = .ok out → ∀ d ∈ out, D d)

theorem writeBack_estab (P : Trace K → Prop) (h h' : Heap K) (rs : List Nat)
    (fs : List (Trace K → Trace K)) (hf : ∀ f ∈ fs, ∀ t, P (f t))
    (hw : writeBack h rs fs = (h', none)) (r : Nat) (hr : r ∈ rs) : P (h' r) := by
  induction rs generalizing h fs with
  | nil => simp at hr
  | cons a rs ih =>
    cases fs with
    | nil => simp [writeBack] at hw
    | cons f fs =>
      unfold writeBack at hw
      by_cases hrs : r ∈ rs
      · exact ih _ fs (fun g hg => hf g (List.mem_cons_of_mem _ hg)) hw hrs
      · have hra : r = a := by simpa [hrs] using hr
        subst hra
        have := writeBack_frame (h.set r (f (h r))) rs fs r hrs
        rw [hw] at this
        simp only [] at this
        rw [this, Heap.set_self]
        exact hf f List.mem_cons_self _

theorem finish_estab (P : Trace K → Prop) (h h' : Heap K) (rsp l : List Nat)
    (res : Res (List (Trace K → Trace K)))
    (hf : ∀ fs, res = .ok fs → ∀ f ∈ fs, ∀ t, P (f t))
    (hd : finish h rsp res = (h', .ok l)) : ∀ r ∈ rsp, P (h' r) := by
  unfold finish at hd
  cases res with
  | error e => simp at hd
  | ok fs =>
    simp only [] at hd
    cases hw : writeBack h rsp fs with
    | mk h2 e =>
      rw [hw] at hd
      cases e with
      | some e => simp at hd
      | none =>
        simp only [Prod.mk.injEq] at hd
        rw [← hd.1]
        exact fun r hr => writeBack_estab P h h2 rsp fs (hf fs rfl) hw r hr

theorem runKernel_estab (env : DeconvEnv K) (D : List K → Prop) (hD : KernelsGive env D) (m : DMethod)
    (h h' : Heap K) (s rsp l : List Nat) (rc : Option Str) (srcT : Trace K) (sr ts : K)
    (nrm : Option Norm) (hfunc : m ≠ .func)
    (hk : runKernel env m h s rsp rc srcT sr ts nrm = (h', .ok l)) : ∀ r ∈ rsp, D (h' r).data := by
  have key : ∀ (x : Res (List (List K))), (∀ out, x = .ok out → ∀ d ∈ out, D d) →
      ∀ fs, x.map (·.map setData) = .ok fs → ∀ f ∈ fs, ∀ t, D (f t).data := by
    intro x hx fs hfs f hf t
    cases x with
    | error e => simp [Except.map] at hfs
    | ok y =>
      simp only [Except.map, Except.ok.injEq] at hfs
      subst hfs
      obtain ⟨d, hd, rfl⟩ := List.mem_map.1 hf
      exact hx y rfl d hd
  obtain ⟨D1, D2, D3, D4⟩ := hD
  cases m with
  | func => exact absurd rfl hfunc
  | time => exact finish_estab (fun t => D t.data) _ _ _ _ _ (key _ (fun out => D1 _ _ _ _ out)) hk
  | waterlevel => exact finish_estab (fun t => D t.data) _ _ _ _ _ (key _ (fun out => D2 _ _ _ _ _ out)) hk
  | multitaper =>
    refine finish_estab (fun t => D t.data) _ _ _ _ ((Except.bind _ _).map _) (key _ fun out hout => ?_) hk
    cases hn : env.noise h s rsp rc with
    | error e => rw [hn] at hout; cases hout
    | ok nse =>
      rw [hn] at hout
      exact D4 _ _ _ _ _ _ out hout
  | iterative =>
    refine finish_estab (fun t => D t.data) _ _ _ _ _ ?_ hk
    intro fs hfs f hf t
    cases hy : env.iter (rsp.map fun r => (h r).data) srcT.data sr ts nrm with
    | error e => simp [Except.map, hy] at hfs
    | ok y =>
      simp only [Except.map, hy, Except.ok.injEq] at hfs
      subst hfs
      obtain ⟨d, hd, rfl⟩ := List.mem_map.1 hf
      exact D3 _ _ _ _ _ y hy d hd

/-- A successful deconvolution without selection of responses replaces the data of every trace of the
stream by the output of a kernel. -/
theorem deconvolve_covers (env : DeconvEnv K) (D : List K → Prop) (hD : KernelsGive env D)
    (h h' : Heap K) (s l : List Nat) (a : DeconvArgs K) (hfunc : a.method ≠ "func".toList)
    (hrc : a.rspComps = none) (hd : deconvolve env h s a = (h', .ok l)) :
    l = s ∧ ∀ r ∈ s, D (h' r).data := by
  rcases deconvolve_cases env h h' s a _ hd with ⟨_, e, he⟩ | ⟨m, src, rsp, nrm, o, idx, onset, hsel, ho, hf, hon, hc⟩
  · exact absurd he (by simp)
  obtain ⟨s1, s2, s3, s4, s5, s6⟩ := deconvSelect_ok h s a m src rsp nrm hsel
  have hrsp : rsp = s := by
    rw [hrc] at s3
    unfold selectRsp at s3
    injection s3 with s3
    exact s3.symm
  subst hrsp
  have hmf : m ≠ .func := by rintro rfl; exact hfunc (deconvMethod_func _ s1)
  rcases hc with ⟨_, e, he⟩ | ⟨w0, w1, w2, srcT, h2, hw, hT, h2e, hk⟩
  · exact absurd he (by simp)
  refine ⟨?_, runKernel_estab env D hD m h2 h' rsp rsp l _ _ _ _ _ hmf hk⟩
  have := runKernel_result env m h2 rsp rsp a.rspComps srcT (h src).sr (-w0) nrm l hmf (by rw [hk])
  exact this

/-- Deconvolving one group changes no trace outside of it. -/
theorem deconvolveCall_frame (env : RfEnv K) (da : DeconvArgs K) (hfunc : da.method ≠ "func".toList)
    (hrc : da.rspComps = none) (h : Heap K) (g : List Nat) (r : Nat) (hr : r ∉ g) :
    (deconvolveCall env da h g).1 r = h r := by
  have hsub : ∀ c, r ∉ onComps h g c := by
    intro c hc
    apply hr
    unfold onComps at hc
    split at hc
    · exact hc
    · exact (List.mem_filter.1 hc).1
  unfold deconvolveCall
  cases hd : deconvolve env.dec h g da with
  | mk h' res =>
    have hfr := C07_frame_partial env.dec h h' g da res (fun e => absurd e hfunc) hd r (hsub _) (hsub _)
    cases res with
    | error e => exact hfr
    | ok rsp =>
      simp only []
      unfold addInfoAll
      rw [forEachE_not_mem, hfr]
      obtain ⟨hl, -⟩ := deconvolve_covers env.dec (fun _ => True)
        ⟨fun _ _ _ _ _ _ _ _ => trivial, fun _ _ _ _ _ _ _ _ _ => trivial,
          fun _ _ _ _ _ _ _ _ _ => trivial, fun _ _ _ _ _ _ _ _ _ _ => trivial⟩ h h' g rsp da hfunc hrc hd
      rw [hl]
      exact hr

theorem groupBody_covers (P : Trace K → Prop) (f : Heap K → List Nat → Heap K × Option PyErr)
    (hframe : ∀ h g r, r ∉ g → (f h g).1 r = h r)
    (hest : ∀ h h' g, f h g = (h', none) → ∀ r ∈ g, P (h' r))
    (h h' : Heap K) (gs : List (List Nat)) (hdis : gs.Pairwise List.Disjoint)
    (hok : groupBody f h gs = (h', none)) :
    (∀ g ∈ gs, ∀ r ∈ g, P (h' r)) ∧ ∀ r, (∀ g ∈ gs, r ∉ g) → h' r = h r := by
  induction gs generalizing h with
  | nil =>
    simp only [groupBody, Prod.mk.injEq, and_true] at hok
    subst hok
    exact ⟨fun g hg => by simp at hg, fun _ _ => rfl⟩
  | cons g gs ih =>
    rw [List.pairwise_cons] at hdis
    unfold groupBody at hok
    cases hf : f h g with
    | mk h1 e =>
      rw [hf] at hok
      cases e with
      | some e => simp at hok
      | none =>
        obtain ⟨i1, i2⟩ := ih h1 hdis.2 hok
        constructor
        · intro g' hg' r hr
          rcases List.mem_cons.1 hg' with rfl | hg'
          · rw [i2 r (fun g'' hg'' hr'' => hdis.1 g'' hg'' hr hr'')]
            exact hest h h1 g' hf r hr
          · exact i1 g' hg' r hr
        · intro r hr
          rw [i2 r (fun g' hg' => hr g' (List.mem_cons_of_mem _ hg'))]
          have := hframe h g r (hr g List.mem_cons_self)
          rw [hf] at this
          exact this

/-- Two traces belong to the same record: same id up to the component and same onset (as printed). -/
def SameRecord (timeStr : K → Str) (h : Heap K) (q r : Nat) : Prop :=
  (h q).id.dropLast = (h r).id.dropLast ∧
    ∃ x y, (h q).getTime "onset" = some x ∧ (h r).getTime "onset" = some y ∧ timeStr x = timeStr y

omit [IsStrictOrderedRing K] [FloorRing K] in
theorem onsetKey_ok (timeStr : K → Str) (h : Heap K) (r : Nat) (s : Str) :
    onsetKey timeStr h r = .ok s ↔ ∃ x, (h r).getTime "onset" = some x ∧ timeStr x = s := by
  unfold onsetKey Trace.getTime
  cases (h r).ext.get "onset" with
  | none => simp
  | some v => cases v <;> simp

/-- The groups of `iter3c`: pairwise disjoint, and a trace whose record has 2 or 3 traces is in one. -/
theorem iter3c_groups (timeStr : K → Str) (h : Heap K) (s : List Nat) (hn : s.Nodup)
    (gs : List (List Nat)) (hgs : iter3c timeStr h s = .ok gs) :
    gs.Pairwise List.Disjoint ∧ (∀ g ∈ gs, ∀ r ∈ g, r ∈ s) ∧
    ∀ r ∈ s, (∃ l : List Nat, l.Nodup ∧ (∀ q, q ∈ l ↔ q ∈ s ∧ SameRecord timeStr h q r) ∧
      (l.length = 2 ∨ l.length = 3)) → ∃ g ∈ gs, r ∈ g := by
  classical
  unfold iter3c at hgs
  have hfail : ∀ r ∈ s, ∃ x, (h r).getTime "onset" = some x := by
    intro r hr
    by_contra hno
    have : ∃ e, onsetKey timeStr h r = .error e := by
      cases hk : onsetKey timeStr h r with
      | error e => exact ⟨e, rfl⟩
      | ok y =>
        obtain ⟨x, hx, _⟩ := (onsetKey_ok timeStr h r y).1 hk
        exact absurd ⟨x, hx⟩ hno
    obtain ⟨e, he⟩ := (C03_fails_iff (fun r => (h r).id) (onsetKey timeStr h) (.tuple [2, 3]) s).2
      ⟨r, hr, this⟩
    rw [hgs] at he
    simp at he
  have hsort := C03_sorted _ _ _ _ _ hgs
  rw [C03_number_components] at hgs
  cases hall : iterMultipleComponents (fun r => (h r).id) (some (onsetKey timeStr h)) .none s with
  | error e => rw [hall] at hgs; simp [Except.map] at hgs
  | ok gs0 =>
    rw [hall] at hgs
    simp only [Except.map, Except.ok.injEq] at hgs
    have hpart := C02_same_group _ _ s gs0 hall
      (fun a b => decide ((h a).id.dropLast = (h b).id.dropLast ∧
        ∀ f, some (onsetKey timeStr h) = some f → f a = f b)) (fun a b => by simp)
    obtain ⟨p1, p2, -⟩ := hpart
    refine ⟨?_, ?_, ?_⟩
    · refine List.Pairwise.imp ?_ hsort
      intro g g' hlt r hr hr'
      rcases hlt r hr r hr' with h1 | ⟨_, f, sa, sb, hf, h2, h3, h4⟩
      · exact lt_irrefl _ h1
      · rw [h2] at h3
        injection h3 with h3
        rw [h3] at h4
        exact lt_irrefl _ h4
    · intro g hg r hr
      rw [← hgs] at hg
      obtain ⟨t, _, rfl⟩ := p1 g (List.mem_filter.1 hg).1
      exact (List.mem_filter.1 hr).1
    · rintro r hr ⟨l, hl1, hl2, hl3⟩
      set g := s.filter (fun b => decide ((h r).id.dropLast = (h b).id.dropLast ∧
        ∀ f, some (onsetKey timeStr h) = some f → f r = f b)) with hgdef
      have hmem : ∀ q, q ∈ g ↔ q ∈ l := by
        intro q
        rw [hl2, hgdef, List.mem_filter]
        simp only [Option.some.injEq, forall_eq', decide_eq_true_eq]
        refine and_congr_right fun hq => ?_
        obtain ⟨x, hx⟩ := hfail q hq
        obtain ⟨y, hy⟩ := hfail r hr
        have kx := (onsetKey_ok timeStr h q (timeStr x)).2 ⟨x, hx, rfl⟩
        have ky := (onsetKey_ok timeStr h r (timeStr y)).2 ⟨y, hy, rfl⟩
        unfold SameRecord
        rw [kx, ky, hx, hy]
        simp only [Except.ok.injEq, Option.some.injEq]
        constructor
        · rintro ⟨e1, e2⟩
          exact ⟨e1.symm, x, y, rfl, rfl, e2.symm⟩
        · rintro ⟨e1, x', y', rfl, rfl, e2⟩
          exact ⟨e1.symm, e2.symm⟩
      have hperm : g.Perm l := (List.perm_ext_iff_of_nodup (hn.filter _) hl1).2 hmem
      refine ⟨g, ?_, ?_⟩
      · rw [← hgs, List.mem_filter]
        refine ⟨p2 r hr, ?_⟩
        rw [hperm.length_eq]
        simpa using hl3
      · rw [hgdef, List.mem_filter]
        exact ⟨hr, by simp⟩

/-- If the call on one record changes no other trace and leaves data with the property `D` in each of
its traces, a successful `rf` leaves such data (possibly mirrored) in all traces, provided that the
records have two or three components. -/
theorem rf_covers (env : RfEnv K) (a : RfArgs K) (m d : Str)
    (hm : a.method = some m) (hdec : a.deconvolve = some d) (D : List K → Prop)
    (hframe : ∀ h g r, r ∉ g → (deconvolveCall env (rfDeconvArgs a m d) h g).1 r = h r)
    (hest : ∀ h h' g, deconvolveCall env (rfDeconvArgs a m d) h g = (h', none) → ∀ r ∈ g, D (h' r).data)
    (hrev : ∀ l, D l → D l.reverse) (st st1 st' : SState K) (hn : st1.2.Nodup)
    (hprep : rfPrep env a st = (st1, none)) (hok : rf env a st = (st', none))
    (hgrp : ∀ r ∈ st1.2, ∃ l : List Nat, l.Nodup ∧
      (∀ q, q ∈ l ↔ q ∈ st1.2 ∧ SameRecord env.timeStr st1.1 q r) ∧ (l.length = 2 ∨ l.length = 3)) :
    st'.2 = st1.2 ∧ ∀ r ∈ st'.2, (st'.1 r).ext.get "type" = some (.str "rf".toList) ∧
      D (st'.1 r).data := by
  have hlab := (C44_labels env a st st' hok).1
  obtain ⟨sta, stb, stc, h1, h2, h3, h4⟩ := rf_ok env a m hm st st' hok
  unfold rfBefore at h1
  rw [hprep] at h1
  simp only [SRes.andThen, qStage, deconvolveStage, hdec] at h1
  unfold forGroups at h1
  cases hg : iter3c env.timeStr (Heap.forEach negQ st1.1 st1.2) st1.2 with
  | error e => simp only [hg] at h1; simp at h1
  | ok gs =>
    simp only [hg, Prod.mk.injEq] at h1
    obtain ⟨h1a, h1b⟩ := h1
    have hid : ∀ r, (Heap.forEach negQ st1.1 st1.2 r).id = (st1.1 r).id :=
      Heap.forEach_inv (fun t => t.id) _ (fun t => (negQ_get t).2.2.2.2.2) _ _
    have hon : ∀ r, (Heap.forEach negQ st1.1 st1.2 r).getTime "onset" = (st1.1 r).getTime "onset" :=
      Heap.forEach_inv (fun t => t.getTime "onset") _ (fun t => by
        unfold Trace.getTime; rw [(negQ_get t).1]) _ _
    obtain ⟨g1, g2, g3⟩ := iter3c_groups env.timeStr _ st1.2 hn gs hg
    have hcov := groupBody_covers (fun t => D t.data)
      (deconvolveCall env (rfDeconvArgs a m d))
      hframe hest
      (Heap.forEach negQ st1.1 st1.2) sta.1 gs g1 (by
        rw [← h1a]
        exact Prod.ext rfl h1b)
    have hsta : sta.2 = st1.2 := by rw [← h1a]
    have hall : ∀ r ∈ st1.2, D (sta.1 r).data := by
      intro r hr
      obtain ⟨g, hg', hrg⟩ := g3 r hr (by
        obtain ⟨l, l1, l2, l3⟩ := hgrp r hr
        refine ⟨l, l1, fun q => ?_, l3⟩
        rw [l2 q]
        unfold SameRecord
        rw [hid, hid, hon, hon])
      exact hcov.1 g hg' r hrg
    -- mirroring
    have hmir : stb.2 = st1.2 ∧ ∀ r ∈ st1.2, D (stb.1 r).data := by
      unfold mirrorStage at h2
      split at h2
      · simp only [Prod.mk.injEq] at h2
        obtain ⟨h2a, h2b⟩ := h2
        refine ⟨by rw [← h2a]; exact hsta, ?_⟩
        have hkeep : ∀ (s : List Nat) (h : Heap K), (∀ r ∈ st1.2, D (h r).data) →
            ∀ r ∈ st1.2, D ((mirrorLoop h s).1 r).data := by
          intro s
          induction s with
          | nil => exact fun h hh => hh
          | cons b s ih =>
            intro h hh r hr
            have hset : ∀ t : Trace K, t.data = (h b).data.reverse →
                ∀ q ∈ st1.2, D ((h.set b t) q).data := by
              intro t ht q hq
              by_cases e : q = b
              · subst e; rw [Heap.set_self, ht]; exact hrev _ (hh q hq)
              · rw [Heap.set_ne _ _ e]; exact hh q hq
            unfold mirrorLoop
            cases (h b).getTime "onset" with
            | some o => exact ih _ (hset _ rfl) r hr
            | none => exact hset _ rfl r hr
        rw [← h2a]
        exact hkeep sta.2 sta.1 hall
      · simp only [Prod.mk.injEq, and_true] at h2
        rw [← h2]
        exact ⟨hsta, hall⟩
    have hs : stc.2 = st1.2 := by
      have := labelStage_traces m stb
      rw [h3] at this
      exact this.trans hmir.1
    have hst' : st'.2 = st1.2 := by rw [h4]; exact hs
    refine ⟨hst', fun r hr => ⟨hlab r hr, ?_⟩⟩
    rw [h4]
    show D (addInfoAll env.infoRf stc.1 stc.2 r).data
    rw [(addInfoAll_rest env.infoRf stc.1 stc.2 r).1, (labelStage_rest _ _ _ h3 r).1]
    exact hmir.2 r (hst' ▸ hr)

/-- C45.  If all traces are responses and every record of the prepared stream has two or three components,
then after a successful `rf` with one of the four built-in methods the data of every trace come from a
deconvolution kernel (possibly mirrored).  The missing part - other group sizes and
`response_components` - is false, see `C45_counterexample`. -/
theorem C45_deconvolved_partial (env : RfEnv K) (a : RfArgs K) (m d : Str)
    (hm : a.method = some m) (hdec : a.deconvolve = some d) (hfunc : d ≠ "func".toList)
    (hrc : a.rspComps = none) (D : List K → Prop) (hD : KernelsGive env.dec D)
    (hrev : ∀ l, D l → D l.reverse) (st st1 st' : SState K) (hn : st1.2.Nodup)
    (hprep : rfPrep env a st = (st1, none)) (hok : rf env a st = (st', none))
    (hgrp : ∀ r ∈ st1.2, ∃ l : List Nat, l.Nodup ∧
      (∀ q, q ∈ l ↔ q ∈ st1.2 ∧ SameRecord env.timeStr st1.1 q r) ∧ (l.length = 2 ∨ l.length = 3)) :
    st'.2 = st1.2 ∧ ∀ r ∈ st'.2, (st'.1 r).ext.get "type" = some (.str "rf".toList) ∧
      D (st'.1 r).data := by
  refine rf_covers env a m d hm hdec D
    (fun h g r hr => deconvolveCall_frame env _ hfunc hrc h g r hr) ?_ hrev st st1 st' hn hprep hok hgrp
  intro h h' g hf r hr
  unfold deconvolveCall at hf
  cases hd : deconvolve env.dec h g (rfDeconvArgs a m d) with
  | mk h2 res =>
    rw [hd] at hf
    cases res with
    | error e => simp at hf
    | ok rsp =>
      simp only [Prod.mk.injEq, and_true] at hf
      rw [← hf, (addInfoAll_rest _ _ _ _).1]
      exact (deconvolve_covers env.dec D hD h h2 g rsp _ hfunc hrc hd).2 r hr

end cover

/-! ### Concrete cases -/

section examples

/-- Environment with trivial external functions: the rotation renames N to Q and E to T, the
kernels return zeros. -/
def rEnv : RfEnv ℚ where
  filter t := .ok t
  trim t _ _ := .ok t
  decimate f t := .ok { t with sr := t.sr / f }
  rotate _ h g := (Heap.forEach (fun t => { t with cha :=
    if t.cha = "BHN".toList then "BHQ".toList else if t.cha = "BHE".toList then "BHT".toList
    else "BHL".toList }) h g, none)
  timeStr _ := []
  dec := { dEnv with
    time := fun r _ _ _ => .ok (r.map (·.map fun _ => 0))
    water := fun r _ _ _ _ => .ok (r.map (·.map fun _ => 0))
    iter := fun r _ _ _ _ => .ok (r.map fun d => (d.map fun _ => 0, 1))
    mt := fun r _ _ _ _ _ => .ok (r.map (·.map fun _ => 0)) }
  infoDec := "d".toList
  infoRf := "rf".toList

theorem rEnv_kernels : KernelsGive rEnv.dec (fun l => ∀ x ∈ l, x = 0) := by
  refine ⟨?_, ?_, ?_, ?_⟩
  · intro rd s sh n out h d hd x hx
    have h : Except.ok (rd.map (·.map fun _ => (0 : ℚ))) = Except.ok (ε := PyErr) out := h
    injection h with h; subst h
    obtain ⟨a, -, rfl⟩ := List.mem_map.1 hd
    obtain ⟨b, -, rfl⟩ := List.mem_map.1 hx
    rfl
  · intro rd s sr ts n out h d hd x hx
    have h : Except.ok (rd.map (·.map fun _ => (0 : ℚ))) = Except.ok (ε := PyErr) out := h
    injection h with h; subst h
    obtain ⟨a, -, rfl⟩ := List.mem_map.1 hd
    obtain ⟨b, -, rfl⟩ := List.mem_map.1 hx
    rfl
  · intro rd s sr ts n out h d hd x hx
    have h : Except.ok (rd.map fun d => (d.map fun _ => (0 : ℚ), 1)) = Except.ok (ε := PyErr) out := h
    injection h with h; subst h
    obtain ⟨a, -, rfl⟩ := List.mem_map.1 hd
    obtain ⟨b, -, rfl⟩ := List.mem_map.1 hx
    rfl
  · intro rd s ns sr ts n out h d hd x hx
    have h : Except.ok (rd.map (·.map fun _ => (0 : ℚ))) = Except.ok (ε := PyErr) out := h
    injection h with h; subst h
    obtain ⟨a, -, rfl⟩ := List.mem_map.1 hd
    obtain ⟨b, -, rfl⟩ := List.mem_map.1 hx
    rfl

/-- P receiver functions of a three component record: the call succeeds, the Q component is renamed,
everything is deconvolved and labelled. -/
example : (rf rEnv { method := some "P".toList } (dHeap, [0, 1, 2])).2 = none ∧
    (rf rEnv { method := some "P".toList } (dHeap, [0, 1, 2])).1.2 = [0, 1, 2] ∧
    ((rf rEnv { method := some "P".toList } (dHeap, [0, 1, 2])).1.1 1).data = [0, 0, 0, 0, 0] ∧
    ((rf rEnv { method := some "P".toList } (dHeap, [0, 1, 2])).1.1 1).ext.get "processing"
      = some (.list ["d".toList, "rf".toList]) := by
  decide +kernel

/-- Without deconvolution (C43): only the Q component changes its sign. -/
example : ((rf rEnv { method := some "P".toList, deconvolve := none } (dHeap, [0, 1, 2])).1.1 1).data
      = [-1, -2, -3, -4, -5] ∧
    ((rf rEnv { method := some "P".toList, deconvolve := none } (dHeap, [0, 1, 2])).1.1 2).data
      = [1, 2, 3, 4, 5] := by
  decide +kernel

/-- C42: an S receiver function, onset 100.8 with data from 100 to 102 s becomes 101.2. -/
example : (rf rEnv (plainArgs "S".toList) (dHeap, [0, 1, 2])).2 = none ∧
    ((rf rEnv (plainArgs "S".toList) (dHeap, [0, 1, 2])).1.1 0).data = [5, 4, 3, 2, 1] ∧
    ((rf rEnv (plainArgs "S".toList) (dHeap, [0, 1, 2])).1.1 0).getTime "onset" = some (1012/10) := by
  decide +kernel

/-- The example record meets the grouping hypothesis of C45. -/
example : ∀ r ∈ [0, 1, 2], ∃ l : List Nat, l.Nodup ∧
    (∀ q, q ∈ l ↔ q ∈ [0, 1, 2] ∧ SameRecord rEnv.timeStr dHeap q r) ∧
    (l.length = 2 ∨ l.length = 3) := by
  intro r hr
  refine ⟨[0, 1, 2], by decide, fun q => ⟨fun hq => ⟨hq, ?_⟩, fun h => h.1⟩, Or.inr rfl⟩
  have hq' : ∀ q ∈ [0, 1, 2], (dHeap q).id.dropLast = "XX.A..BH".toList ∧
      (dHeap q).getTime "onset" = some (1008/10) := by decide +kernel
  exact ⟨by rw [(hq' q hq).1, (hq' r hr).1], _, _, (hq' q hq).2, (hq' r hr).2, rfl⟩

/-- C41 is false for two strings: '' and 'PS' pass the test `method not in 'PS'`; the call
succeeds and labels the traces with this "method". -/
theorem C41_counterexample : ∃ (env : RfEnv ℚ) (st : SState ℚ), ∀ m ∈ [[], "PS".toList],
    (rf env (plainArgs m) st).2 = none ∧
      ((rf env (plainArgs m) st).1.1 0).getStr "phase" = some m :=
  ⟨rEnv, (dHeap, [0, 1, 2]), by decide +kernel⟩

/-- C45 is false in general: a single vertical trace is never deconvolved, but labelled 'rf';
with `response_components='NE'` the vertical trace of a complete record is not deconvolved either. -/
theorem C45_counterexample : ∃ (env : RfEnv ℚ) (D : List ℚ → Prop), KernelsGive env.dec D ∧
    (∃ st : SState ℚ, (rf env { method := some "P".toList } st).2 = none ∧
      ∃ r ∈ (rf env { method := some "P".toList } st).1.2,
        ((rf env { method := some "P".toList } st).1.1 r).getStr "type" = some "rf".toList ∧
        ¬ D ((rf env { method := some "P".toList } st).1.1 r).data) ∧
    (∃ (st : SState ℚ) (a : RfArgs ℚ), (rf env a st).2 = none ∧ st.2.length = 3 ∧
      ∃ r ∈ (rf env a st).1.2, ((rf env a st).1.1 r).getStr "type" = some "rf".toList ∧
        ¬ D ((rf env a st).1.1 r).data) := by
  refine ⟨rEnv, fun l => ∀ x ∈ l, x = 0, rEnv_kernels, ⟨(dHeap, [0]), by decide +kernel, 0, ?_⟩,
    ⟨(dHeap, [0, 1, 2]), { method := some "P".toList, rspComps := some "QT".toList }, by decide +kernel,
      rfl, 0, ?_⟩⟩ <;> decide +kernel

end examples

end Verif.Props
