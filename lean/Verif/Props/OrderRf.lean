import Verif.Props.OrderDec

/-!
# `RFStream.rf` does not depend on the order of the traces in the stream (C144)
-/

set_option linter.unusedSimpArgs false
set_option linter.unusedSectionVars false

namespace Verif.Props
open Verif.Py Verif.Model Verif.Spec

section stages
variable {K : Type} [Field K] [LinearOrder K] [IsStrictOrderedRing K] [FloorRing K]

/-- ObsPy's functions keep the processing information a list (they append to it), and the rotation picks the traces
by their component. -/
structure OrderEnv (env : RfEnv K) : Prop where
  filter : ∀ t t', env.filter t = .ok t' → ProcOk t → ProcOk t'
  trim : ∀ t a b t', env.trim t a b = .ok t' → ProcOk t → ProcOk t'
  decimate : ∀ n t t', env.decimate n t = .ok t' → ProcOk t → ProcOk t'
  rotate : ∀ m h g, (∀ r, ProcOk (h r)) → ∀ r, ProcOk ((env.rotate m h g).1 r)
  rotatePerm : ∀ m h g g', g.Nodup → g.Perm g' → env.rotate m h g = env.rotate m h g'

/-- A step of `rf` whose effect on the traces does not depend on their order. -/
def StepPerm (F : SState K → SRes K) : Prop :=
  ∀ (h : Heap K) (s s' : List Nat) (st1 : SState K), s.Nodup → s.Perm s' → (∀ r, ProcOk (h r)) →
    F (h, s) = (st1, none) → ∃ s1', F (h, s') = ((st1.1, s1'), none) ∧ st1.2.Perm s1' ∧ st1.2.Nodup ∧
      ∀ r, ProcOk (st1.1 r)

theorem stepPerm_id : StepPerm (K := K) fun st => (st, none) := by
  intro h s s' st1 hn hp hI hok
  simp only [Prod.mk.injEq, and_true] at hok
  subst hok
  exact ⟨s', rfl, hp, hn, hI⟩

theorem stepPerm_andThen (F G : SState K → SRes K) (hF : StepPerm F) (hG : StepPerm G) :
    StepPerm fun st => (F st).andThen G := by
  intro h s s' st2 hn hp hI hok
  obtain ⟨⟨h1, s1⟩, e1, e2⟩ := andThen_ok hok
  obtain ⟨s1', a1, a2, a3, a4⟩ := hF h s s' _ hn hp hI e1
  obtain ⟨s2', b1, b2, b3, b4⟩ := hG h1 s1 s1' st2 a3 a2 a4 e2
  refine ⟨s2', ?_, b2, b3, b4⟩
  simp only [a1, SRes.andThen, b1]

theorem forEachE_procOk (f : Trace K → Res (Trace K)) (hf : ∀ t t', f t = .ok t' → ProcOk t → ProcOk t')
    (h h1 : Heap K) (s : List Nat) (hn : s.Nodup) (hI : ∀ r, ProcOk (h r))
    (hok : Heap.forEachE f h s = (h1, none)) : ∀ r, ProcOk (h1 r) := by
  rw [forEachE_ok_iff _ _ _ _ hn] at hok
  intro r
  by_cases hr : r ∈ s
  · exact hf _ _ (hok.1 r hr) (hI r)
  · rw [hok.2 r hr]; exact hI r

theorem stepPerm_traces (f : Trace K → Res (Trace K)) (hf : ∀ t t', f t = .ok t' → ProcOk t → ProcOk t') :
    StepPerm (forTraces f) := by
  intro h s s' st1 hn hp hI hok
  unfold forTraces at hok ⊢
  simp only [Prod.mk.injEq] at hok ⊢
  obtain ⟨e1, e2⟩ := hok
  have e : Heap.forEachE f h s = ((Heap.forEachE f h s).1, none) := Prod.ext rfl e2
  have e' := forEachE_perm f h _ s s' hn hp e
  subst e1
  refine ⟨s', ⟨⟨?_, rfl⟩, ?_⟩, hp, hn, forEachE_procOk f hf h _ s hn hI e⟩
  · rw [e']
  · rw [e']

theorem stepPerm_trim2 (trim : Trace K → TArg K → TArg K → Res (Trace K))
    (ht : ∀ t a b t', trim t a b = .ok t' → ProcOk t → ProcOk t') (x y : TArg K) (ref : RefTime K) :
    StepPerm (trim2 trim x y ref) := by
  intro h s s' st1 hn hp hI hok
  unfold trim2 at hok ⊢
  cases hf : Heap.forEachE (cutTrace trim x y ref) h s with
  | mk h1 e =>
    rw [hf] at hok
    cases e with
    | some e => simp at hok
    | none =>
      simp only [Prod.mk.injEq, and_true] at hok
      subst hok
      rw [forEachE_perm _ _ _ _ _ hn hp hf]
      refine ⟨_, rfl, hp.filter _, hn.filter _, forEachE_procOk _ (fun t t' hc h0 => ?_) h h1 s hn hI hf⟩
      unfold cutTrace at hc
      split at hc
      · cases hc
      · split at hc
        · cases hc
        · exact ht _ _ _ _ hc h0

theorem iter3c_same (timeStr : K → Str) (h : Heap K) (s : List Nat) (hn : s.Nodup)
    (gs : List (List Nat)) (hgs : iter3c timeStr h s = .ok gs) :
    ∀ g ∈ gs, g.Nodup ∧ ∀ q ∈ g, ∀ r ∈ g, SameRecord timeStr h q r := by
  classical
  unfold iter3c at hgs
  have hfail : ∀ r ∈ s, ∃ y, onsetKey timeStr h r = .ok y := by
    intro r hr
    cases hk : onsetKey timeStr h r with
    | ok y => exact ⟨y, rfl⟩
    | error e =>
      obtain ⟨e, he⟩ := (C03_fails_iff (fun r => (h r).id) (onsetKey timeStr h) (.tuple [2, 3]) s).2 ⟨r, hr, e, hk⟩
      rw [hgs] at he
      simp at he
  rw [C03_number_components] at hgs
  cases hall : iterMultipleComponents (fun r => (h r).id) (some (onsetKey timeStr h)) .none s with
  | error e => rw [hall] at hgs; simp [Except.map] at hgs
  | ok gs0 =>
    rw [hall] at hgs
    simp only [Except.map, Except.ok.injEq] at hgs
    obtain ⟨p1, -, -⟩ := C02_same_group _ _ s gs0 hall
      (fun a b => decide ((h a).id.dropLast = (h b).id.dropLast ∧
        ∀ f, some (onsetKey timeStr h) = some f → f a = f b)) (fun a b => by simp)
    intro g hg
    rw [← hgs] at hg
    obtain ⟨t, ht, rfl⟩ := p1 g (List.mem_filter.1 hg).1
    refine ⟨hn.filter _, fun q hq r hr => ?_⟩
    simp only [List.mem_filter, decide_eq_true_eq] at hq hr
    obtain ⟨y, hy⟩ := hfail q hq.1
    have e1 := hq.2.2 _ rfl
    have e2 := hr.2.2 _ rfl
    have e3 : onsetKey timeStr h r = .ok y := by rw [← e2, e1, hy]
    obtain ⟨x1, a1, a2⟩ := (onsetKey_ok timeStr h q y).1 hy
    obtain ⟨x2, b1, b2⟩ := (onsetKey_ok timeStr h r y).1 e3
    exact ⟨hq.2.1.symm.trans hr.2.1, x1, x2, a1, b1, by rw [a2, b2]⟩

/-- A loop over groups which are in another order inside. -/
theorem groupBody_perm (f : Heap K → List Nat → Heap K × Option PyErr) (Good : Heap K → List Nat → Prop)
    (P : Heap K → Prop) (hPf : ∀ h h1 g, Good h g → g.Nodup → P h → f h g = (h1, none) → P h1)
    (hf : ∀ h h1 g g', g.Nodup → g.Perm g' → Good h g → f h g = (h1, none) → f h g' = (h1, none))
    (hkeep : ∀ h h1 g, Good h g → g.Nodup → f h g = (h1, none) → ∀ g2, g.Disjoint g2 → Good h g2 → Good h1 g2)
    (h h1 : Heap K) (gs gs' : List (List Nat)) (hF : List.Forall₂ List.Perm gs gs')
    (hdis : gs.Pairwise List.Disjoint) (hn : ∀ g ∈ gs, g.Nodup) (hG : ∀ g ∈ gs, Good h g)
    (hP : P h) (hok : groupBody f h gs = (h1, none)) : groupBody f h gs' = (h1, none) ∧ P h1 := by
  induction hF generalizing h with
  | nil =>
    have e : h = h1 := congrArg Prod.fst hok
    exact ⟨hok, e ▸ hP⟩
  | @cons g g' gs gs' hp hF ih =>
    rw [List.pairwise_cons] at hdis
    unfold groupBody at hok ⊢
    cases hfg : f h g with
    | mk h2 e =>
      rw [hfg] at hok
      cases e with
      | some e => simp at hok
      | none =>
        have hg := hG g List.mem_cons_self
        have hgn := hn g List.mem_cons_self
        rw [hf h h2 g g' hgn hp hg hfg]
        exact ih h2 hdis.2 (fun q hq => hn q (List.mem_cons_of_mem _ hq)) (fun q hq =>
          hkeep h h2 g hg hgn hfg q (hdis.1 q hq) (hG q (List.mem_cons_of_mem _ hq))) (hPf h h2 g hg hgn hP hfg) hok

theorem stepPerm_rotate (env : RfEnv K) (hE : OrderEnv env) (m : Str) :
    StepPerm (forGroups env.timeStr (env.rotate m)) := by
  intro h s s' st1 hn hp hI hok
  unfold forGroups at hok ⊢
  cases hi : iter3c env.timeStr h s with
  | error e => simp only [hi] at hok; simp at hok
  | ok gs =>
    simp only [hi, Prod.mk.injEq] at hok
    obtain ⟨e1, e2⟩ := hok
    obtain ⟨gs', i1, i2⟩ := C03_order_independent _ _ _ s s' hp gs hi
    have i1 : iter3c env.timeStr h s' = .ok gs' := i1
    have hg := iter3c_same _ _ _ hn _ hi
    have hb : groupBody (env.rotate m) h gs = ((groupBody (env.rotate m) h gs).1, none) := Prod.ext rfl e2
    have hb' := groupBody_perm (env.rotate m) (fun _ _ => True) (fun h => ∀ r, ProcOk (h r))
      (fun h h1 g _ _ hP hf => by
        have := hE.rotate m h g hP
        rw [hf] at this
        exact this)
      (fun h h1 g g' hn hp _ hf => by rw [← hE.rotatePerm m h g g' hn hp]; exact hf)
      (fun _ _ _ _ _ _ _ _ _ => trivial) h _ gs gs' i2 (iter3c_groups _ _ _ hn _ hi).1 (fun g hgm => (hg g hgm).1)
      (fun _ _ => trivial) hI hb
    subst e1
    refine ⟨s', ?_, hp, hn, ?_⟩
    · simp only [i1, hb'.1]
    · exact hb'.2

theorem stepPerm_forEach (f : Trace K → Trace K) (hf : ∀ t, ProcOk t → ProcOk (f t)) :
    StepPerm fun st => ((Heap.forEach f st.1 st.2, st.2), none) := by
  intro h s s' st1 hn hp hI hok
  simp only [Prod.mk.injEq, and_true] at hok
  subst hok
  refine ⟨s', ?_, hp, hn, fun r => ?_⟩
  · simp only [forEach_perm f h s s' hn hp]
  · show ProcOk (Heap.forEach f h s r)
    rw [Heap.forEach_apply _ _ _ _ hn]
    split
    · exact hf _ (hI r)
    · exact hI r

/-- Filter, trim, decimation, rotation and the sign of Q. -/
theorem stepPerm_prep (env : RfEnv K) (a : RfArgs K) (hE : OrderEnv env) :
    StepPerm fun st => (rfPrep env a st).andThen qStage := by
  have h1 : StepPerm (filterStage env a) := by
    unfold filterStage
    by_cases hf : a.filter = true
    · simp only [hf, if_true]; exact stepPerm_traces _ hE.filter
    · simp only [hf, if_false]; exact stepPerm_id
  have h2 : StepPerm (trimStage env a) := by
    unfold trimStage
    cases a.trim with
    | none => exact stepPerm_id
    | some w => exact stepPerm_trim2 _ hE.trim _ _ _
  have h3 : StepPerm (decimateStage env a) := by
    unfold decimateStage
    cases a.downsample with
    | none => exact stepPerm_id
    | some d =>
      refine stepPerm_traces _ (fun t t' ht => ?_)
      unfold decimateTrace at ht
      split at ht
      · exact hE.decimate _ _ _ ht
      · simp only [Except.ok.injEq] at ht; rw [ht]; exact id
  have h4 : StepPerm (rotateStage env a) := by
    unfold rotateStage
    cases a.rotate with
    | none => exact stepPerm_id
    | some m => exact stepPerm_rotate env hE m
  have h5 : StepPerm (K := K) qStage := stepPerm_forEach negQ (fun t ht => by
    unfold negQ
    split
    · exact ht
    · exact ht)
  exact stepPerm_andThen _ _ (stepPerm_andThen _ _ (stepPerm_andThen _ _ (stepPerm_andThen _ _ h1 h2) h3) h4) h5

/-- `deconvolve` keeps the processing entry (the decorator adds to it afterwards). -/
theorem deconvolve_proc (env : DeconvEnv K) (hk : KeepsExt env) (a : DeconvArgs K)
    (hm : a.method ≠ "func".toList) (h : Heap K) (s : List Nat) (r : Nat) :
    ((deconvolve env h s a).1 r).ext.get "processing" = (h r).ext.get "processing" := by
  have hput : ∀ (k : String), k ≠ "processing" → ∀ (x : Val K) (t : Trace K),
      (t.put k x).ext.get "processing" = t.ext.get "processing" := fun k hk x t => by
    rw [put_get, if_neg (fun e => hk e.symm)]
  unfold deconvolve
  cases hsel : deconvSelect h s a with
  | error e => rfl
  | ok q =>
    obtain ⟨m, src, rsp, nrm⟩ := q
    have hmf := deconvSelect_builtin h s a hm m src rsp nrm hsel
    simp only
    split
    · rfl
    · split
      · rfl
      · rename_i o _ idx _
        have hsn : ∀ r, (snapped h src rsp ((h src).start + (idx : K) * (h src).delta) r).ext.get "processing" =
            (h r).ext.get "processing" := fun r =>
          snapped_inv (fun t => t.ext.get "processing") (fun x t => hput "onset" (by decide) x t) h src rsp _ r
        split
        · exact hsn r
        · rw [runKernel_inv (fun t => t.ext.get "processing") (fun d t => rfl)
            (fun x t => hput "iterations" (by decide) x t) _ _ _ _ _ _ _ _ _ _ hmf]
          split
          · exact hsn r
          · by_cases hr : r = src
            · subst hr
              rw [Heap.set_self, hk.2, hk.1]
              exact hsn r
            · rw [Heap.set_ne _ _ hr]
              exact hsn r

theorem deconvolve_procOk (env : DeconvEnv K) (hk : KeepsExt env) (a : DeconvArgs K)
    (hm : a.method ≠ "func".toList) (h : Heap K) (s : List Nat) (hI : ∀ r, ProcOk (h r)) (r : Nat) :
    ProcOk ((deconvolve env h s a).1 r) := by
  intro v hv
  rw [deconvolve_proc env hk a hm h s r] at hv
  exact hI r v hv

theorem deconvolveCall_perm (env : RfEnv K) (hk : PermKernels env.dec) (hx : KeepsExt env.dec) (a : DeconvArgs K)
    (hfunc : a.method ≠ "func".toList)
    (hnrm : a.normalize = some .src ∨ a.normalize = some .none ∨
      (a.normalize = none ∧ ∀ rc, a.rspComps = some rc → ∀ c ∈ a.srcComps, c ∈ rc))
    (h h1 : Heap K) (g g' : List Nat) (hn : g.Nodup) (hp : g.Perm g') (hI : ∀ r, ProcOk (h r)) (hs : SameSpan h g)
    (hok : deconvolveCall env a h g = (h1, none)) :
    deconvolveCall env a h g' = (h1, none) ∧ ∀ r, ProcOk (h1 r) := by
  unfold deconvolveCall at hok ⊢
  have hP := deconvolve_procOk env.dec hx a hfunc h g hI
  cases hd : deconvolve env.dec h g a with
  | mk h2 res =>
    rw [hd] at hok hP
    cases res with
    | error e => simp at hok
    | ok l =>
      obtain ⟨rfl, d2⟩ := deconvolve_perm env.dec hk h h2 g g' a hfunc hn hp hs hnrm l hd
      rw [d2]
      simp only [Prod.mk.injEq, and_true] at hok ⊢
      obtain ⟨q1, q2⟩ := addInfoAll_perm env.infoDec h2 _ _ ((onComps_sublist h g _).nodup hn)
        (onComps_perm h g g' a.rspComps hp) hP
      rw [← q1, ← hok]
      exact ⟨rfl, q2⟩

theorem deconvolveStage_perm (env : RfEnv K) (hk : PermKernels env.dec) (hx : KeepsExt env.dec) (a : RfArgs K)
    (m : Str) (hfunc : a.deconvolve ≠ some "func".toList)
    (hnrm : a.normalize = some .src ∨ a.normalize = some .none ∨
      (a.normalize = none ∧ ∀ rc, a.rspComps = some rc → ∀ c ∈ rfSource a m, c ∈ rc))
    (h : Heap K) (s s' : List Nat) (st1 : SState K) (hn : s.Nodup) (hp : s.Perm s') (hI : ∀ r, ProcOk (h r))
    (hspan : ∀ q ∈ s, ∀ r ∈ s, SameRecord env.timeStr h q r → SameSpan h [q, r])
    (hok : deconvolveStage env a m (h, s) = (st1, none)) :
    ∃ s1', deconvolveStage env a m (h, s') = ((st1.1, s1'), none) ∧ st1.2.Perm s1' ∧ st1.2.Nodup ∧
      ∀ r, ProcOk (st1.1 r) := by
  unfold deconvolveStage at hok ⊢
  cases had : a.deconvolve with
  | none =>
    rw [had] at hok
    exact stepPerm_id h s s' st1 hn hp hI hok
  | some d =>
    rw [had] at hok
    simp only at hok ⊢
    have hfd : (rfDeconvArgs a m d).method ≠ "func".toList := by
      intro e
      exact hfunc (by rw [had]; exact congrArg some e)
    unfold forGroups at hok ⊢
    cases hi : iter3c env.timeStr h s with
    | error e => simp only [hi] at hok; simp at hok
    | ok gs =>
      simp only [hi, Prod.mk.injEq] at hok
      obtain ⟨e1, e2⟩ := hok
      obtain ⟨gs', i1, i2⟩ := C03_order_independent _ _ _ s s' hp gs hi
      have i1 : iter3c env.timeStr h s' = .ok gs' := i1
      have hg := iter3c_same _ _ _ hn _ hi
      obtain ⟨hdis, hsub, -⟩ := iter3c_groups _ _ _ hn _ hi
      have hb : groupBody (deconvolveCall env (rfDeconvArgs a m d)) h gs =
        ((groupBody (deconvolveCall env (rfDeconvArgs a m d)) h gs).1, none) := Prod.ext rfl e2
      have hb' := groupBody_perm (deconvolveCall env (rfDeconvArgs a m d))
        (fun h g => (∀ r, ProcOk (h r)) ∧ SameSpan h g) (fun h => ∀ r, ProcOk (h r))
        (fun h h1 g hG hgn _ hf =>
          (deconvolveCall_perm env hk hx _ hfd hnrm h h1 g g hgn (List.Perm.refl _) hG.1 hG.2 hf).2)
        (fun h h1 g g' hn hp hG hf => (deconvolveCall_perm env hk hx _ hfd hnrm h h1 g g' hn hp hG.1 hG.2 hf).1)
        (fun h h1 g hG hgn hf g2 hd hG2 => by
          refine ⟨(deconvolveCall_perm env hk hx _ hfd hnrm h h1 g g hgn (List.Perm.refl _) hG.1 hG.2 hf).2, ?_⟩
          have hfr : ∀ r ∈ g2, h1 r = h r := fun r hr => by
            have := deconvolveCall_frame' env (rfDeconvArgs a m d) hfd h g r (fun hrg => hd hrg hr)
            rw [hf] at this
            exact this
          intro r hr q hq
          rw [hfr r hr, hfr q hq]
          exact hG2.2 r hr q hq)
        h _ gs gs' i2 hdis (fun g hgm => (hg g hgm).1)
        (fun g hgm => ⟨hI, fun r hr q hq => hspan r (hsub g hgm r hr) q (hsub g hgm q hq)
          ((hg g hgm).2 r hr q hq) r (by simp) q (by simp)⟩) hI hb
      subst e1
      refine ⟨s', ?_, hp, hn, ?_⟩
      · simp only [i1, hb'.1]
      · exact hb'.2

/-- The mirroring of one trace. -/
def mirrorE (t : Trace K) : Res (Trace K) :=
  match t.getTime "onset" with
  | some o => .ok (mirrorTrace o t)
  | none => .error .attributeError

theorem mirrorLoop_forEachE (h h1 : Heap K) (s : List Nat) :
    mirrorLoop h s = (h1, none) ↔ Heap.forEachE mirrorE h s = (h1, none) := by
  induction s generalizing h with
  | nil => rfl
  | cons r s ih =>
    unfold mirrorLoop Heap.forEachE mirrorE
    cases ho : (h r).getTime "onset" with
    | some o => simp only; exact ih _
    | none => simp

theorem stepPerm_mirror (m : Str) : StepPerm (K := K) (mirrorStage m) := by
  intro h s s' st1 hn hp hI hok
  unfold mirrorStage at hok ⊢
  by_cases hm : m = "S".toList
  · rw [if_pos hm] at hok ⊢
    simp only [Prod.mk.injEq] at hok ⊢
    obtain ⟨e1, e2⟩ := hok
    have e : mirrorLoop h s = ((mirrorLoop h s).1, none) := Prod.ext rfl e2
    have e' := (mirrorLoop_forEachE h _ s).1 e
    have e'' := (mirrorLoop_forEachE h _ s').2 (forEachE_perm _ h _ s s' hn hp e')
    subst e1
    refine ⟨s', ⟨⟨?_, rfl⟩, ?_⟩, hp, hn, forEachE_procOk mirrorE (fun t t' ht h0 => ?_) h _ s hn hI e'⟩
    · rw [e'']
    · rw [e'']
    · unfold mirrorE at ht
      split at ht
      · simp only [Except.ok.injEq] at ht
        subst ht
        intro v hv
        rw [mirrorTrace, put_get, if_neg (by decide)] at hv
        exact h0 v hv
      · cases ht
  · rw [if_neg hm] at hok ⊢
    exact stepPerm_id h s s' st1 hn hp hI hok

theorem uniqueHeader_perm (h : Heap K) (s s' : List Nat) (k : String) (hp : s.Perm s') :
    uniqueHeader h s k = uniqueHeader h s' k := by
  unfold uniqueHeader
  have hp := hp.filterMap (fun r => (h r).ext.get k)
  generalize s.filterMap (fun r => (h r).ext.get k) = l at hp
  generalize s'.filterMap (fun r => (h r).ext.get k) = l' at hp
  have key : ∀ (v w : Val K) (vs ws : List (Val K)), (v :: vs).Perm (w :: ws) →
      vs.all (fun x => decide (x = v)) = true → w = v ∧ ws.all (fun x => decide (x = w)) = true := by
    intro v w vs ws hp hall
    simp only [List.all_eq_true, decide_eq_true_eq] at hall ⊢
    have hm : ∀ x ∈ w :: ws, x = v := fun x hx => by
      rcases List.mem_cons.1 (hp.mem_iff.2 hx) with e | e
      · exact e
      · exact hall x e
    have hw := hm w List.mem_cons_self
    exact ⟨hw, fun x hx => by rw [hw]; exact hm x (List.mem_cons_of_mem _ hx)⟩
  cases l with
  | nil => rw [hp.nil_eq]
  | cons v vs =>
    cases l' with
    | nil => exact absurd hp.symm.nil_eq (by simp)
    | cons w ws =>
      simp only
      by_cases h1 : vs.all (fun x => decide (x = v)) = true
      · obtain ⟨rfl, k2⟩ := key v w vs ws hp h1
        rw [if_pos h1, if_pos k2]
      · by_cases h2 : ws.all (fun x => decide (x = w)) = true
        · exact absurd (key w v ws vs hp.symm h2).2 h1
        · rw [if_neg h1, if_neg h2]

theorem streamMethod_perm (h : Heap K) (s s' : List Nat) (hp : s.Perm s') :
    streamMethod h s = streamMethod h s' := by
  unfold streamMethod
  rw [uniqueHeader_perm h s s' "phase" hp]

theorem put_procOk (k : String) (hk : k ≠ "processing") (x : Val K) (t : Trace K) (ht : ProcOk t) :
    ProcOk (t.put k x) := by
  intro v hv
  rw [put_get, if_neg (fun e => hk e.symm)] at hv
  exact ht v hv

theorem forEach_procOk (f : Trace K → Trace K) (hf : ∀ t, ProcOk t → ProcOk (f t)) (h : Heap K) (s : List Nat)
    (hn : s.Nodup) (hI : ∀ r, ProcOk (h r)) : ∀ r, ProcOk (Heap.forEach f h s r) := by
  intro r
  rw [Heap.forEach_apply _ _ _ _ hn]
  split
  · exact hf _ (hI r)
  · exact hI r

theorem stepPerm_label (m : Str) : StepPerm (K := K) (labelStage m) := by
  intro h s s' st1 hn hp hI hok
  unfold labelStage at hok ⊢
  have e1 : setType "rf".toList h s' = setType "rf".toList h s :=
    (forEach_perm _ h s s' hn hp).symm
  have hI1 : ∀ r, ProcOk (setType "rf".toList h s r) :=
    forEach_procOk _ (fun t => put_procOk "type" (by decide) _ t) h s hn hI
  simp only [e1] at hok ⊢
  rw [← streamMethod_perm _ s s' hp]
  generalize setType "rf".toList h s = h1 at *
  cases hm : streamMethod h1 s with
  | error e => rw [hm] at hok; simp at hok
  | ok m' =>
    rw [hm] at hok
    simp only [Prod.mk.injEq, and_true] at hok ⊢
    subst hok
    refine ⟨s', ⟨?_, rfl⟩, hp, hn, ?_⟩
    · split
      · exact (forEach_perm _ h1 s s' hn hp).symm
      · rfl
    · show ∀ r, ProcOk ((if m' ≠ some m then setMethod m h1 s else h1) r)
      split
      · exact forEach_procOk _ (fun t => put_procOk "phase" (by decide) _ t) h1 s hn hI1
      · exact hI1

/-- C144.  If `rf` succeeds for a stream, it succeeds for the stream with its traces in another order: every trace
gets the same data and the same header, and the stream then consists of the same traces.  Preconditions: one of the
built-in deconvolutions or none; the traces of a record have the same span when they are deconvolved; the
normalisation is not given as a number of a response and the source component is one of the response components
(which holds for the default `response_components`).  Without the last one it is false, see
`C144_counterexample`. -/
theorem C144_order_partial (env : RfEnv K) (a : RfArgs K) (hE : OrderEnv env) (hk : PermKernels env.dec)
    (hx : KeepsExt env.dec) (hfunc : a.deconvolve ≠ some "func".toList)
    (h h1 : Heap K) (s s' s1 : List Nat) (hn : s.Nodup) (hp : s.Perm s') (hI : ∀ r, ProcOk (h r))
    (hnrm : a.normalize = some .src ∨ a.normalize = some .none ∨
      (a.normalize = none ∧ ∀ m rc, rfMethod h s a.method = .ok m → a.rspComps = some rc →
        ∀ c ∈ rfSource a m, c ∈ rc))
    (hspan : ∀ st, ((rfPrep env a (h, s)).andThen qStage) = (st, none) → ∀ q ∈ st.2, ∀ r ∈ st.2,
      SameRecord env.timeStr st.1 q r → SameSpan st.1 [q, r])
    (hok : rf env a (h, s) = ((h1, s1), none)) :
    ∃ s1', rf env a (h, s') = ((h1, s1'), none) ∧ s1.Perm s1' := by
  obtain ⟨m, st2, st3, hm, hb, hl, he⟩ := rf_stages env a _ _ hok
  have hm' : rfMethod h s' a.method = .ok m := by
    rw [← hm]
    unfold rfMethod requestedMethod
    simp only [streamMethod_perm h s s' hp]
  obtain ⟨⟨h4, s4⟩, hb1, hb2⟩ := andThen_ok hb
  unfold rfBefore at hb1
  obtain ⟨⟨h5, s5⟩, hq, hdec⟩ := andThen_ok hb1
  obtain ⟨s5', a1, a2, a3, a4⟩ := stepPerm_prep env a hE h s s' _ hn hp hI hq
  obtain ⟨s4', b1, b2, b3, b4⟩ := deconvolveStage_perm env hk hx a m hfunc
    (by
      rcases hnrm with e | e | ⟨e, e'⟩
      · exact Or.inl e
      · exact Or.inr (Or.inl e)
      · exact Or.inr (Or.inr ⟨e, fun rc hrc => e' m rc hm hrc⟩))
    h5 s5 s5' _ a3 a2 a4 (hspan _ hq) hdec
  obtain ⟨s2', c1, c2, c3, c4⟩ := stepPerm_mirror m h4 s4 s4' _ b3 b2 b4 hb2
  obtain ⟨s3', d1, d2, d3, d4⟩ := stepPerm_label m st2.1 st2.2 s2' _ c3 c2 c4 hl
  obtain ⟨q1, q2⟩ := addInfoAll_perm env.infoRf st3.1 st3.2 s3' d3 d2 d4
  simp only [Prod.mk.injEq] at he
  refine ⟨s3', ?_, by rw [he.2]; exact d2⟩
  rw [rf_of_stages env a m (h, s') (st2.1, s2') (st3.1, s3') hm' ?_ d1, he.1, ← q1]
  unfold rfBefore
  simp only at a1
  rw [a1]
  simp only [SRes.andThen]
  rw [b1]
  exact c1

end stages
end Verif.Props
