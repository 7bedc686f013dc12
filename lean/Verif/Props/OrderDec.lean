import Verif.Props.IndependentRf
import Verif.Spec.Order

/-!
# `deconvolve` does not depend on the order of the traces (C144)
-/

set_option linter.unusedSimpArgs false
set_option linter.unusedSectionVars false

namespace Verif.Props
open Verif.Py Verif.Model Verif.Spec

section loops
variable {K : Type} [Field K] [LinearOrder K] [IsStrictOrderedRing K] [FloorRing K]

theorem forEach_perm (f : Trace K → Trace K) (h : Heap K) (s s' : List Nat) (hn : s.Nodup) (hp : s.Perm s') :
    Heap.forEach f h s = Heap.forEach f h s' := by
  funext r
  rw [Heap.forEach_apply _ _ _ _ hn, Heap.forEach_apply _ _ _ _ (hp.nodup_iff.1 hn)]
  simp only [hp.mem_iff]

theorem forEachE_ok_iff (f : Trace K → Res (Trace K)) (h h1 : Heap K) (s : List Nat) (hn : s.Nodup) :
    Heap.forEachE f h s = (h1, none) ↔ (∀ r ∈ s, f (h r) = .ok (h1 r)) ∧ ∀ r, r ∉ s → h1 r = h r := by
  induction s generalizing h with
  | nil =>
    simp only [Heap.forEachE, Prod.mk.injEq, and_true, List.not_mem_nil, not_false_eq_true, forall_true_left]
    constructor
    · rintro rfl; exact ⟨fun r hr => hr.elim, fun r => rfl⟩
    · rintro ⟨-, hr⟩; exact (funext hr).symm
  | cons a s ih =>
    rw [List.nodup_cons] at hn
    unfold Heap.forEachE
    cases hf : f (h a) with
    | error e =>
      simp only [Prod.mk.injEq, reduceCtorEq, and_false, false_iff]
      rintro ⟨h1', -⟩
      have := h1' a List.mem_cons_self
      rw [hf] at this
      cases this
    | ok t =>
      simp only
      rw [ih _ hn.2]
      constructor
      · rintro ⟨b1, b2⟩
        refine ⟨fun r hr => ?_, fun r hr => ?_⟩
        · rcases List.mem_cons.1 hr with rfl | hr
          · rw [hf, b2 r hn.1, Heap.set_self]
          · have hne : r ≠ a := fun e => hn.1 (e ▸ hr)
            rw [← b1 r hr, Heap.set_ne _ _ hne]
        · simp only [List.mem_cons, not_or] at hr
          rw [b2 r hr.2, Heap.set_ne _ _ hr.1]
      · rintro ⟨b1, b2⟩
        refine ⟨fun r hr => ?_, fun r hr => ?_⟩
        · have hne : r ≠ a := fun e => hn.1 (e ▸ hr)
          rw [Heap.set_ne _ _ hne]
          exact b1 r (List.mem_cons_of_mem _ hr)
        · by_cases hra : r = a
          · subst hra
            have := b1 r List.mem_cons_self
            rw [hf] at this
            rw [Heap.set_self]
            exact (Except.ok.inj this).symm
          · rw [Heap.set_ne _ _ hra]
            exact b2 r (by simp [hra, hr])

theorem forEachE_perm (f : Trace K → Res (Trace K)) (h h1 : Heap K) (s s' : List Nat) (hn : s.Nodup)
    (hp : s.Perm s') (hok : Heap.forEachE f h s = (h1, none)) : Heap.forEachE f h s' = (h1, none) := by
  rw [forEachE_ok_iff f h h1 s hn] at hok
  rw [forEachE_ok_iff f h h1 s' (hp.nodup_iff.1 hn)]
  exact ⟨fun r hr => hok.1 r (hp.mem_iff.2 hr), fun r hr => hok.2 r fun h' => hr (hp.mem_iff.1 h')⟩

theorem addInfo_procOk (info : Str) (t : Trace K) (ht : ProcOk t) : ∃ t', addInfo info t = .ok t' ∧ ProcOk t' := by
  unfold addInfo
  cases hg : t.ext.get "processing" with
  | none =>
    refine ⟨_, rfl, fun v hv => ?_⟩
    rw [put_get, if_pos rfl] at hv
    exact ⟨_, (Option.some.inj hv).symm⟩
  | some v =>
    obtain ⟨l, rfl⟩ := ht v hg
    refine ⟨_, rfl, fun v hv => ?_⟩
    split at hv
    · rw [put_get, if_pos rfl] at hv
      exact ⟨_, (Option.some.inj hv).symm⟩
    · exact ht v hv

theorem addInfoAll_perm (info : Str) (h : Heap K) (s s' : List Nat) (hn : s.Nodup) (hp : s.Perm s')
    (hI : ∀ r, ProcOk (h r)) :
    addInfoAll info h s = addInfoAll info h s' ∧ ∀ r, ProcOk (addInfoAll info h s r) := by
  have key : ∀ s : List Nat, s.Nodup → ∃ h1, Heap.forEachE (addInfo info) h s = (h1, none) := by
    intro s hs
    choose t ht _ using fun r => addInfo_procOk info (h r) (hI r)
    refine ⟨fun r => if r ∈ s then t r else h r, ?_⟩
    rw [forEachE_ok_iff _ _ _ _ hs]
    refine ⟨fun r hr => ?_, fun r hr => if_neg hr⟩
    simp only [hr, if_true]
    exact ht r
  obtain ⟨h1, e1⟩ := key s hn
  have e2 := forEachE_perm _ _ _ _ _ hn hp e1
  unfold addInfoAll
  rw [e1, e2]
  refine ⟨rfl, fun r => ?_⟩
  rw [forEachE_ok_iff _ _ _ _ hn] at e1
  by_cases hr : r ∈ s
  · obtain ⟨t', a1, a2⟩ := addInfo_procOk info (h r) (hI r)
    rw [e1.1 r hr] at a1
    show ProcOk (h1 r)
    rw [Except.ok.inj a1]
    exact a2
  · show ProcOk (h1 r)
    rw [e1.2 r hr]
    exact hI r

/-- Writing back one result per response. -/
theorem writeBack_map (G : Nat → Trace K → Trace K) (h : Heap K) (l : List Nat) (hn : l.Nodup) :
    writeBack h l (l.map G) = (fun r => if r ∈ l then G r (h r) else h r, none) := by
  induction l generalizing h with
  | nil => simp [writeBack]
  | cons a l ih =>
    rw [List.nodup_cons] at hn
    show writeBack (h.set a (G a (h a))) l (l.map G) = _
    rw [ih _ hn.2]
    congr 1
    funext r
    by_cases hra : r = a
    · subst hra
      simp [hn.1]
    · simp only [List.mem_cons, hra, false_or, Heap.set_ne _ _ hra]

theorem finish_map (G : Nat → Trace K → Trace K) (h : Heap K) (l : List Nat) (hn : l.Nodup) :
    finish h l (.ok (l.map G)) = (fun r => if r ∈ l then G r (h r) else h r, .ok l) := by
  unfold finish
  simp only [writeBack_map G h l hn]

end loops

section kernels
variable {K : Type} [Field K] [LinearOrder K] [IsStrictOrderedRing K] [FloorRing K]

/-- The keyword `normalize` means the same for two orders of the responses. -/
def SameNorm (l l' : List Nat) (n n' : Option Norm) : Prop :=
  (n' = n ∧ (n = some .src ∨ n = some .none)) ∨
    ∃ (i i' r : Nat), l[i]? = some r ∧ l'[i']? = some r ∧ n = some (.idx i) ∧ n' = some (.idx i')

/-- A kernel gives the same results for the responses in another order (`d r` are the data of response `r`),
if they have the same length. -/
def KernelPerm {β : Type} (k : List (List K) → Option Norm → Res (List β)) : Prop :=
  ∀ (l l' : List Nat) (d : Nat → List K) (n n' : Option Norm), l.Nodup → l.Perm l' →
    (∀ r ∈ l, ∀ q ∈ l, (d r).length = (d q).length) → SameNorm l l' n n' →
    ∀ out, k (l.map d) n = .ok out → ∃ F : Nat → β, out = l.map F ∧ k (l'.map d) n' = .ok (l'.map F)

/-- The kernels do not depend on the order of the responses.  The noise of the multitaper method is cut from the
traces of the stream, which all cover the same time span. -/
structure PermKernels (dec : DeconvEnv K) : Prop where
  time : ∀ src sh, KernelPerm fun rd n => dec.time rd src sh n
  water : ∀ src sr ts, KernelPerm fun rd n => dec.water rd src sr ts n
  iter : ∀ src sr ts, KernelPerm fun rd n => dec.iter rd src sr ts n
  mt : ∀ src sr ts (ν : Nat → List K) (l l' : List Nat) (d : Nat → List K) (n n' : Option Norm), l.Nodup →
    l.Perm l' → (∀ r ∈ l, ∀ q ∈ l, (d r).length = (d q).length) →
    (∀ r ∈ l, ∀ q ∈ l, (ν r).length = (ν q).length) → SameNorm l l' n n' → ∀ out,
    dec.mt (l.map d) src (l.map ν) sr ts n = .ok out →
    ∃ F : Nat → List K, out = l.map F ∧ dec.mt (l'.map d) src (l'.map ν) sr ts n' = .ok (l'.map F)
  mtNil : ∀ rd src sr ts n out, dec.mt rd src [] sr ts n ≠ .ok out
  noise : ∀ (h : Heap K) (s s' : List Nat) (c : Option Str), s.Nodup → s.Perm s' → SameSpan h (onComps h s c) →
    (∃ o, ∀ r ∈ onComps h s c, (h r).getTime "onset" = some o) → ∀ out, dec.noise h s (onComps h s c) c = .ok out →
    out = [] ∨ ∃ ν : Nat → List K, out = (onComps h s c).map ν ∧
      dec.noise h s' (onComps h s' c) c = .ok ((onComps h s' c).map ν) ∧
      ∀ r ∈ onComps h s c, ∀ q ∈ onComps h s c, (ν r).length = (ν q).length
  cha : ∀ t a b x, (dec.taper (dec.trimPad t a b) x).cha = t.cha

theorem onComps_perm (h : Heap K) (s s' : List Nat) (c : Option Str) (hp : s.Perm s') :
    (onComps h s c).Perm (onComps h s' c) := by
  cases c with
  | none => exact hp
  | some c => exact hp.filter _

theorem onComps_sublist (h : Heap K) (s : List Nat) (c : Option Str) : (onComps h s c).Sublist s := by
  cases c with
  | none => exact List.Sublist.refl _
  | some c => exact List.filter_sublist

theorem onComps_congr (h h' : Heap K) (s : List Nat) (c : Option Str) (hc : ∀ r ∈ s, (h' r).cha = (h r).cha) :
    onComps h' s c = onComps h s c := by
  cases c with
  | none => rfl
  | some c =>
    unfold onComps
    refine List.filter_congr fun r hr => ?_
    rw [Bool.eq_iff_iff, decide_eq_true_iff, decide_eq_true_iff]
    unfold OfComp
    rw [hc r hr]

/-- Selection of source and responses in another order. -/
theorem select_perm (h : Heap K) (s s' : List Nat) (a : DeconvArgs K) (hp : s.Perm s')
    (hnrm : a.normalize = some .src ∨ a.normalize = some .none ∨
      (a.normalize = none ∧ ∀ rc, a.rspComps = some rc → ∀ c ∈ a.srcComps, c ∈ rc))
    (m : DMethod) (src : Nat) (rsp : List Nat) (nrm : Option Norm)
    (hsel : deconvSelect h s a = .ok (m, src, rsp, nrm)) :
    rsp = onComps h s a.rspComps ∧
    ∃ nrm', deconvSelect h s' a = .ok (m, src, onComps h s' a.rspComps, nrm') ∧
      SameNorm (onComps h s a.rspComps) (onComps h s' a.rspComps) nrm nrm' := by
  obtain ⟨d1, d2, d3, d4, d5, d6⟩ := deconvSelect_ok h s a m src rsp nrm hsel
  have hcha := (selectComps_ok h _ _ _ d2).1
  have hcha' : ∀ r ∈ s', (h r).cha ≠ [] := fun r hr => hcha r (hp.mem_iff.2 hr)
  rw [selectRsp_eq h _ _ hcha] at d3
  have d3 := Except.ok.inj d3
  refine ⟨d3.symm, ?_⟩
  have hs2 : selectComps h a.srcComps s' = .ok [src] := by
    rw [selectComps_eq h _ _ hcha'] 
    have e := selectComps_eq h a.srcComps s hcha
    rw [d2] at e
    have e := Except.ok.inj e
    have := onComps_perm h s s' (some a.srcComps) hp
    rw [← e] at this
    rw [List.singleton_perm.1 this]
  have hpr := onComps_perm h s s' a.rspComps hp
  subst d3
  refine ⟨normKw h a.normalize src (onComps h s' a.rspComps), ?_, ?_⟩
  · unfold deconvSelect
    rw [d1, hs2, selectRsp_eq h _ _ hcha']
    simp only
    rw [if_pos ⟨by rw [← hpr.length_eq]; exact d4, by rw [← hpr.length_eq]; exact d5⟩]
  · subst d6
    rcases hnrm with e | e | ⟨e, hsub⟩
    · rw [e]; exact Or.inl ⟨rfl, Or.inl rfl⟩
    · rw [e]; exact Or.inl ⟨rfl, Or.inr rfl⟩
    · right
      rw [e]
      have hsrc : src ∈ s ∧ OfComp a.srcComps (h src) := (mem_selectComps h _ _ _ d2 src).1 (by simp)
      have hmem : src ∈ onComps h s a.rspComps := by
        cases hrc : a.rspComps with
        | none => exact hsrc.1
        | some rc =>
          refine List.mem_filter.2 ⟨hsrc.1, decide_eq_true ?_⟩
          obtain ⟨c, hc1, hc2⟩ := hsrc.2
          exact ⟨c, hc1, hsub rc hrc c hc2⟩
      have hfind : ∀ (t : List Nat), (∀ r ∈ t, r ∈ s) → src ∈ t →
          ∃ i : Nat, indexOf? h src t = some i ∧ t[i]? = some src := by
        intro t ht hm
        rw [indexOf?_eq h s a.srcComps src t d2 ht]
        cases hf : t.findIdx? (fun r => decide (r = src)) with
        | none =>
          rw [List.findIdx?_eq_none_iff] at hf
          have := hf src hm
          simp at this
        | some i =>
          refine ⟨i, rfl, ?_⟩
          rw [List.findIdx?_eq_some_iff_getElem] at hf
          obtain ⟨hi, hv, -⟩ := hf
          rw [List.getElem?_eq_getElem hi]
          simpa using hv
      obtain ⟨i, i1, i2⟩ := hfind _ (fun r hr => (onComps_sublist h s _).subset hr) hmem
      obtain ⟨j, j1, j2⟩ := hfind (onComps h s' a.rspComps) (fun r hr =>
        (onComps_sublist h s _).subset (hpr.mem_iff.2 hr)) (hpr.mem_iff.1 hmem)
      refine ⟨i, j, src, i2, j2, ?_, ?_⟩
      · unfold normKw; rw [i1]; rfl
      · unfold normKw; rw [j1]; rfl

/-- Lines 126-161 for the responses in another order. -/
theorem runKernel_perm (env : DeconvEnv K) (hk : PermKernels env) (m : DMethod) (hm : m ≠ .func) (h h' : Heap K)
    (s s' : List Nat) (rc : Option Str) (hn : s.Nodup) (hp : s.Perm s') (hspan : SameSpan h (onComps h s rc))
    (hons : ∃ o, ∀ r ∈ onComps h s rc, (h r).getTime "onset" = some o) (srcT : Trace K) (sr ts : K) (nrm nrm' : Option Norm) (l : List Nat)
    (hsn : SameNorm (onComps h s rc) (onComps h s' rc) nrm nrm')
    (hr : runKernel env m h s (onComps h s rc) rc srcT sr ts nrm = (h', .ok l)) :
    runKernel env m h s' (onComps h s' rc) rc srcT sr ts nrm' = (h', .ok (onComps h s' rc)) ∧ l = onComps h s rc := by
  have hpr := onComps_perm h s s' rc hp
  have hnr : (onComps h s rc).Nodup := (onComps_sublist h s rc).nodup hn
  have hnr' : (onComps h s' rc).Nodup := hpr.nodup_iff.1 hnr
  have hlen : ∀ r ∈ onComps h s rc, ∀ q ∈ onComps h s rc, (h r).data.length = (h q).data.length :=
    fun r hr q hq => (hspan r hr q hq).1
  have hfin : ∀ {β : Type} (F : Nat → β) (w : β → Trace K → Trace K),
      finish h (onComps h s rc) ((Except.ok ((onComps h s rc).map F) : Res (List β)).map (·.map w)) = (h', .ok l) →
      finish h (onComps h s' rc) ((Except.ok ((onComps h s' rc).map F) : Res (List β)).map (·.map w)) =
        (h', .ok (onComps h s' rc)) ∧ l = onComps h s rc := by
    intro β F w hf
    simp only [Except.map, List.map_map] at hf ⊢
    rw [show (w ∘ F) = (fun r => w (F r)) from rfl] at hf ⊢
    rw [finish_map (fun r => w (F r)) h _ hnr] at hf
    rw [finish_map (fun r => w (F r)) h _ hnr']
    simp only [Prod.mk.injEq, Except.ok.injEq] at hf
    refine ⟨?_, hf.2.symm⟩
    rw [← hf.1]
    simp only [hpr.mem_iff]
  unfold runKernel at hr ⊢
  simp only at hr ⊢
  cases m with
  | func => exact absurd rfl hm
  | time =>
    simp only at hr ⊢
    cases ho : env.time ((onComps h s rc).map fun r => (h r).data) srcT.data
        (pyRound (ts * sr - ((srcT.npts / 2 : Nat) : K))) nrm with
    | error e => rw [ho] at hr; simp [finish, Except.map] at hr
    | ok out =>
      obtain ⟨F, rfl, hF⟩ := hk.time _ _ _ _ _ _ _ hnr hpr hlen hsn out ho
      rw [ho] at hr
      simp only at hF
      rw [hF]
      exact hfin F _ hr
  | waterlevel =>
    simp only at hr ⊢
    cases ho : env.water ((onComps h s rc).map fun r => (h r).data) srcT.data sr ts nrm with
    | error e => rw [ho] at hr; simp [finish, Except.map] at hr
    | ok out =>
      obtain ⟨F, rfl, hF⟩ := hk.water _ _ _ _ _ _ _ _ hnr hpr hlen hsn out ho
      rw [ho] at hr
      simp only at hF
      rw [hF]
      exact hfin F _ hr
  | iterative =>
    simp only at hr ⊢
    cases ho : env.iter ((onComps h s rc).map fun r => (h r).data) srcT.data sr ts nrm with
    | error e => rw [ho] at hr; simp [finish, Except.map] at hr
    | ok out =>
      obtain ⟨F, rfl, hF⟩ := hk.iter _ _ _ _ _ _ _ _ hnr hpr hlen hsn out ho
      rw [ho] at hr
      simp only at hF
      rw [hF]
      exact hfin F _ hr
  | multitaper =>
    simp only at hr ⊢
    cases hnoi : env.noise h s (onComps h s rc) rc with
    | error e => rw [hnoi] at hr; simp [finish, Except.map, Except.bind] at hr
    | ok nse =>
    rw [hnoi] at hr
    simp only [Except.bind] at hr
    rcases hk.noise h s s' rc hn hp hspan hons nse hnoi with e | ⟨ν, n1, n2, n3⟩
    · rw [e] at hr
      cases ho : env.mt ((onComps h s rc).map fun r => (h r).data) srcT.data [] sr (-ts) nrm with
      | error e => rw [ho] at hr; simp [finish, Except.map] at hr
      | ok out => exact absurd ho (hk.mtNil _ _ _ _ _ _)
    · rw [n1] at hr
      rw [n2]
      simp only [Except.bind]
      cases ho : env.mt ((onComps h s rc).map fun r => (h r).data) srcT.data ((onComps h s rc).map ν) sr (-ts) nrm with
      | error e => rw [ho] at hr; simp [finish, Except.map] at hr
      | ok out =>
        obtain ⟨F, rfl, hF⟩ := hk.mt _ _ _ _ _ _ _ _ _ hnr hpr hlen n3 hsn out ho
        rw [ho] at hr
        rw [hF]
        exact hfin F _ hr

theorem snapped_perm (h : Heap K) (src : Nat) (rsp rsp' : List Nat) (onset : K) (hn : rsp.Nodup)
    (hp : rsp.Perm rsp') : snapped h src rsp onset = snapped h src rsp' onset :=
  forEach_perm _ _ _ _ hn hp

/-- `deconvolve` for the traces of a record in another order. -/
theorem deconvolve_perm (env : DeconvEnv K) (hk : PermKernels env) (h h' : Heap K) (s s' : List Nat)
    (a : DeconvArgs K) (hfunc : a.method ≠ "func".toList) (hn : s.Nodup) (hp : s.Perm s') (hspan : SameSpan h s)
    (hnrm : a.normalize = some .src ∨ a.normalize = some .none ∨
      (a.normalize = none ∧ ∀ rc, a.rspComps = some rc → ∀ c ∈ a.srcComps, c ∈ rc))
    (l : List Nat) (hd : deconvolve env h s a = (h', .ok l)) :
    l = onComps h s a.rspComps ∧ deconvolve env h s' a = (h', .ok (onComps h s' a.rspComps)) := by
  rcases deconvolve_cases env h h' s a _ hd with ⟨-, e, he⟩ | ⟨m, src, rsp, nrm, o, idx, onset, c1, c2, c3, c4, c5⟩
  · cases he
  rcases c5 with ⟨-, e, he⟩ | ⟨w0, w1, w2, srcT, h2, c5, c6, c7, c8⟩
  · cases he
  have hmf := deconvSelect_builtin h s a hfunc m src rsp nrm c1
  obtain ⟨hrsp, nrm', hsel', hsn⟩ := select_perm h s s' a hp hnrm m src rsp nrm c1
  obtain ⟨d1, d2, -, -, -, -⟩ := deconvSelect_ok h s a m src rsp nrm c1
  obtain ⟨-, d2', -, -, -, -⟩ := deconvSelect_ok h s' a m src _ nrm' hsel'
  have hpr := onComps_perm h s s' a.rspComps hp
  have hnr : (onComps h s a.rspComps).Nodup := (onComps_sublist h s _).nodup hn
  have hsnap := snapped_perm h src _ _ onset hnr hpr
  have hsub : ∀ r ∈ onComps h s a.rspComps, r ∈ s := fun r hr => (onComps_sublist h s _).subset hr
  subst hrsp
  -- the selection on the heap after the onset has been set
  have hcha1 : ∀ r, (snapped h src (onComps h s a.rspComps) onset r).cha = (h r).cha := fun r =>
    snapped_inv (fun t => t.cha) (fun _ _ => rfl) h src _ onset r
  have hidx : (indexOf? (snapped h src (onComps h s a.rspComps) onset) src (onComps h s a.rspComps)).isSome ↔
      src ∈ onComps h s a.rspComps := by
    have hc : ∀ r ∈ s, ((snapped h src (onComps h s a.rspComps) onset) r).cha = (h r).cha := fun r _ => hcha1 r
    refine indexOf?_isSome _ s a.srcComps src _ ?_ hsub
    have hcha := (selectComps_ok h _ _ _ d2).1
    rw [selectComps_eq _ _ _ (fun r hr => by rw [hcha1]; exact hcha r hr), onComps_congr _ _ _ _ hc,
      ← selectComps_eq h _ _ hcha, d2]
  have hidx' : (indexOf? (snapped h src (onComps h s a.rspComps) onset) src (onComps h s' a.rspComps)).isSome ↔
      src ∈ onComps h s' a.rspComps := by
    have hc : ∀ r ∈ s', ((snapped h src (onComps h s a.rspComps) onset) r).cha = (h r).cha := fun r _ => hcha1 r
    refine indexOf?_isSome _ s' a.srcComps src _ ?_ (fun r hr => (onComps_sublist h s' _).subset hr)
    have hcha := (selectComps_ok h _ _ _ d2').1
    rw [selectComps_eq _ _ _ (fun r hr => by rw [hcha1]; exact hcha r hr), onComps_congr _ _ _ _ hc,
      ← selectComps_eq h _ _ hcha, d2']
  have hcha2 : ∀ r, (h2 r).cha = (h r).cha := by
    intro r
    rw [c7]
    split
    · exact hcha1 r
    · by_cases hr : r = src
      · subst hr; rw [Heap.set_self, c6, hk.cha]; exact hcha1 r
      · rw [Heap.set_ne _ _ hr]; exact hcha1 r
  have hon : ∀ t, onComps h2 t a.rspComps = onComps h t a.rspComps := fun t =>
    onComps_congr h h2 t _ fun r _ => hcha2 r
  have hspan2 : SameSpan h2 (onComps h s a.rspComps) := by
    have hval : ∀ r ∈ onComps h s a.rspComps, (h2 r).data.length = (h r).data.length ∧ (h2 r).start = (h r).start ∧
        (h2 r).sr = (h r).sr := by
      intro r hr
      have hs1 : ∀ r, (snapped h src (onComps h s a.rspComps) onset r).data.length = (h r).data.length ∧
          (snapped h src (onComps h s a.rspComps) onset r).start = (h r).start ∧
          (snapped h src (onComps h s a.rspComps) onset r).sr = (h r).sr := fun r =>
        ⟨snapped_inv (fun t => t.data.length) (fun _ _ => rfl) h src _ onset r,
          snapped_inv (fun t => t.start) (fun _ _ => rfl) h src _ onset r,
          snapped_inv (fun t => t.sr) (fun _ _ => rfl) h src _ onset r⟩
      rw [c7]
      split
      · exact hs1 r
      · rename_i hnot
        have hne : r ≠ src := by
          rintro rfl
          exact hnot (hidx.2 hr)
        rw [Heap.set_ne _ _ hne]
        exact hs1 r
    intro r hr q hq
    obtain ⟨a1, a2, a3⟩ := hval r hr
    obtain ⟨b1, b2, b3⟩ := hval q hq
    obtain ⟨e1, e2, e3⟩ := hspan r (hsub r hr) q (hsub q hq)
    exact ⟨by rw [a1, b1, e1], by rw [a2, b2, e2], by rw [a3, b3, e3]⟩
  have hons2 : ∃ o, ∀ r ∈ onComps h2 s a.rspComps, (h2 r).getTime "onset" = some o := by
    refine ⟨onset, fun r hr => ?_⟩
    rw [hon] at hr
    have hsn := snapped_onset h src (onComps h s a.rspComps) onset r (Or.inr hr)
    rw [c7]
    split
    · exact hsn
    · rename_i hnot
      have hne : r ≠ src := by
        rintro rfl
        exact hnot (hidx.2 hr)
      rw [Heap.set_ne _ _ hne]
      exact hsn
  rw [← hon s] at c8 hspan2
  rw [← hon s, ← hon s'] at hsn
  obtain ⟨k1, k2⟩ := runKernel_perm env hk m hmf h2 h' s s' a.rspComps hn hp hspan2 hons2 srcT (h src).sr (-w0) nrm nrm' l
    hsn c8
  rw [hon] at k2
  refine ⟨k2, ?_⟩
  rw [hon] at k1
  unfold deconvolve
  rw [hsel']
  simp only
  rw [c2]
  simp only
  rw [c3]
  simp only
  rw [← c4, c5]
  simp only
  rw [← k1]
  have h2eq : h2 = if (indexOf? (snapped h src (onComps h s' a.rspComps) onset) src (onComps h s' a.rspComps)).isSome
      then snapped h src (onComps h s' a.rspComps) onset
      else (snapped h src (onComps h s' a.rspComps) onset).set src srcT := by
    rw [← hsnap, c7]
    by_cases hin : src ∈ onComps h s a.rspComps
    · rw [if_pos (hidx.2 hin), if_pos (hidx'.2 (hpr.mem_iff.1 hin))]
    · rw [if_neg (fun e => hin (hidx.1 e)), if_neg (fun e => hin (hpr.mem_iff.2 (hidx'.1 e)))]
  have hsT : srcT = env.taper (env.trimPad (snapped h src (onComps h s' a.rspComps) onset src) (onset + w0) (onset + w1)) w2 := by
    rw [c6, hsnap]
  rw [h2eq, hsT]
  rfl

end kernels
end Verif.Props
