import Verif.Props.Stream
import Verif.Props.DeconvolveProps
import Verif.Props.Iter

/-!
# Mirroring, sign convention and deconvolution in `RFStream.rf` (C42, C43, C45)
-/

set_option linter.unusedSimpArgs false
set_option linter.unusedSectionVars false

namespace Verif.Props
open Verif.Py Verif.Model Verif.Spec

section mirror
variable {K : Type} [Field K] [LinearOrder K] [FloorRing K]

/-- With distinct traces that all have an onset the loop mirrors each of them. -/
theorem mirrorLoop_ok (h : Heap K) (s : List Nat) (hn : s.Nodup)
    (ho : ∀ r ∈ s, ∃ o, (h r).getTime "onset" = some o) :
    ∃ h', mirrorLoop h s = (h', none) ∧ (∀ r, r ∉ s → h' r = h r) ∧
      ∀ r ∈ s, ∀ o, (h r).getTime "onset" = some o → h' r = mirrorTrace o (h r) := by
  induction s generalizing h with
  | nil => exact ⟨h, rfl, fun _ _ => rfl, fun r hr => by simp at hr⟩
  | cons a s ih =>
    rw [List.nodup_cons] at hn
    obtain ⟨o, hoa⟩ := ho a List.mem_cons_self
    have hne : ∀ q ∈ s, q ≠ a := fun q hq e => hn.1 (e ▸ hq)
    obtain ⟨h', e1, e2, e3⟩ := ih (h.set a (mirrorTrace o (h a))) hn.2 (fun r hr => by
      rw [Heap.set_ne _ _ (hne r hr)]; exact ho r (List.mem_cons_of_mem _ hr))
    refine ⟨h', ?_, ?_, ?_⟩
    · unfold mirrorLoop
      rw [hoa]
      exact e1
    · intro r hr
      simp only [List.mem_cons, not_or] at hr
      rw [e2 r hr.2, Heap.set_ne _ _ hr.1]
    · intro r hr o' ho'
      rcases List.mem_cons.1 hr with rfl | hr'
      · rw [e2 r hn.1, Heap.set_self]
        rw [hoa] at ho'
        injection ho' with ho'
        rw [ho']
      · have := e3 r hr' o'
        rw [Heap.set_ne _ _ (hne r hr')] at this
        exact this ho'

theorem mirrorTrace_onset (o : K) (t : Trace K) :
    (mirrorTrace o t).getTime "onset" = some (t.start + (t.endtime - o)) := by
  unfold Trace.getTime mirrorTrace
  rw [put_get, if_pos rfl]

theorem mirrorTrace_get (o : K) (t : Trace K) (k : String) (hk : k ≠ "onset") :
    (mirrorTrace o t).ext.get k = t.ext.get k := by
  unfold mirrorTrace
  rw [put_get, if_neg hk]

theorem mirrorTrace_endtime (o : K) (t : Trace K) : (mirrorTrace o t).endtime = t.endtime := by
  unfold Trace.endtime mirrorTrace Trace.put Trace.delta
  simp

/-- The labels change only the entries type and phase. -/
theorem labelStage_rest (m : Str) (st st' : SState K) (h : labelStage m st = (st', none)) (r : Nat) :
    (st'.1 r).data = (st.1 r).data ∧ (st'.1 r).start = (st.1 r).start ∧ (st'.1 r).sr = (st.1 r).sr ∧
      (st'.1 r).id = (st.1 r).id ∧ (st'.1 r).cha = (st.1 r).cha ∧
      (∀ k, k ≠ "type" → k ≠ "phase" → (st'.1 r).ext.get k = (st.1 r).ext.get k) ∧
      (r ∉ st.2 → st'.1 r = st.1 r) := by
  unfold labelStage at h
  simp only [] at h
  cases hsm : streamMethod (setType "rf".toList st.1 st.2) st.2 with
  | error e => rw [hsm] at h; simp at h
  | ok m' =>
    rw [hsm] at h
    simp only [Prod.mk.injEq, and_true] at h
    subst h
    have hT : ∀ {β : Type} (g : Trace K → β), (∀ t v, g (Trace.put t "type" v) = g t) →
        ∀ r, g (setType "rf".toList st.1 st.2 r) = g (st.1 r) := fun g hg r =>
      Heap.forEach_inv g _ (fun t => hg t _) _ _ r
    have hM : ∀ {β : Type} (g : Trace K → β) (h : Heap K), (∀ t v, g (Trace.put t "phase" v) = g t) →
        ∀ r, g (setMethod m h st.2 r) = g (h r) := fun g h hg r =>
      Heap.forEach_inv g _ (fun t => hg t _) _ _ r
    have hboth : ∀ {β : Type} (g : Trace K → β), (∀ t v, g (Trace.put t "type" v) = g t) →
        (∀ t v, g (Trace.put t "phase" v) = g t) →
        g ((if m' ≠ some m then setMethod m (setType "rf".toList st.1 st.2) st.2
          else setType "rf".toList st.1 st.2) r) = g (st.1 r) := by
      intro β g h1 h2
      split
      · rw [hM g _ h2, hT g h1]
      · exact hT g h1 r
    refine ⟨hboth (fun t => t.data) (fun _ _ => rfl) (fun _ _ => rfl),
      hboth (fun t => t.start) (fun _ _ => rfl) (fun _ _ => rfl),
      hboth (fun t => t.sr) (fun _ _ => rfl) (fun _ _ => rfl),
      hboth (fun t => t.id) (fun _ _ => rfl) (fun _ _ => rfl),
      hboth (fun t => t.cha) (fun _ _ => rfl) (fun _ _ => rfl), ?_, ?_⟩
    · intro k h1 h2
      exact hboth (fun t => t.ext.get k) (fun t v => by rw [put_get, if_neg h1])
        (fun t v => by rw [put_get, if_neg h2])
    · intro hr
      show (if m' ≠ some m then setMethod m (setType "rf".toList st.1 st.2) st.2
          else setType "rf".toList st.1 st.2) r = st.1 r
      split
      · unfold setMethod setType
        rw [Heap.forEach_not_mem _ _ _ _ hr, Heap.forEach_not_mem _ _ _ _ hr]
      · unfold setType
        rw [Heap.forEach_not_mem _ _ _ _ hr]

theorem labelStage_ok (m : Str) (st : SState K) (m' : Option Str)
    (h : streamMethod st.1 st.2 = .ok m') : ∃ st', labelStage m st = (st', none) := by
  have : streamMethod (setType "rf".toList st.1 st.2) st.2 = .ok m' := by
    rw [← h]
    exact streamMethod_congr _ _ _ (fun r => Heap.forEach_inv (fun t => t.ext.get "phase") _
      (fun t => by rw [put_get, if_neg (by decide)]) _ _ r)
  unfold labelStage
  simp only [this]
  exact ⟨_, rfl⟩

theorem labelStage_method (m : Str) (st st' : SState K) (h : labelStage m st = (st', none)) :
    ∃ m', streamMethod st.1 st.2 = .ok m' := by
  have : streamMethod (setType "rf".toList st.1 st.2) st.2 = streamMethod st.1 st.2 :=
    streamMethod_congr _ _ _ (fun r => Heap.forEach_inv (fun t => t.ext.get "phase") _
      (fun t => by rw [put_get, if_neg (by decide)]) _ _ r)
  unfold labelStage at h
  rw [← this]
  cases hsm : streamMethod (setType "rf".toList st.1 st.2) st.2 with
  | error e => simp only [] at h; rw [hsm] at h; simp at h
  | ok m' => exact ⟨m', rfl⟩

/-- The parts of a successful call with an accepted method. -/
theorem rf_ok (env : RfEnv K) (a : RfArgs K) (m : Str) (hm : a.method = some m) (st st' : SState K)
    (h : rf env a st = (st', none)) :
    ∃ st1 st2 st3, rfBefore env a m st = (st1, none) ∧ mirrorStage m st1 = (st2, none) ∧
      labelStage m st2 = (st3, none) ∧ st' = (addInfoAll env.infoRf st3.1 st3.2, st3.2) := by
  unfold rf at h
  obtain ⟨st3, hb, hfin⟩ := andThen_ok h
  unfold rfBody rfMethod requestedMethod at hb
  rw [hm] at hb
  simp only [] at hb
  split at hb
  · simp at hb
  · rename_i m0 hm0
    split at hm0
    · injection hm0 with hm0
      subst hm0
      obtain ⟨st2, h2, h3⟩ := andThen_ok hb
      obtain ⟨st1, h1, h2⟩ := andThen_ok h2
      simp only [Prod.mk.injEq, and_true] at hfin
      exact ⟨st1, st2, st3, h1, h2, h3, hfin.symm⟩
    · simp at hm0

theorem rf_intro (env : RfEnv K) (a : RfArgs K) (m : Str) (hm : a.method = some m)
    (hPS : m = "P".toList ∨ m = "S".toList) (st st1 st2 st3 : SState K)
    (h1 : rfBefore env a m st = (st1, none)) (h2 : mirrorStage m st1 = (st2, none))
    (h3 : labelStage m st2 = (st3, none)) :
    rf env a st = ((addInfoAll env.infoRf st3.1 st3.2, st3.2), none) := by
  have hsub : isSubstr m "PS".toList = true := (isSubstr_PS m).2 (by tauto)
  unfold rf rfBody rfMethod requestedMethod
  simp only [hm, hsub, if_true]
  rw [h1]
  simp only [SRes.andThen, h2, h3]

/-- Reversing the samples of a trace and moving the onset accordingly mirrors the lags. -/
theorem sampleAtLag_mirror [CharZero K] (t t' : Trace K) (o : K) (hd : t'.data = t.data.reverse)
    (hs : t'.start = t.start) (hr : t'.sr = t.sr) (tau x : K) :
    SampleAtLag t o tau x ↔ SampleAtLag t' (t.start + (t.endtime - o)) (-tau) x := by
  have key : ∀ k : Nat, k < t.data.length → ∀ y : K,
      t.start + ((t.data.length - 1 - k : Nat) : K) * t.delta - (t.start + (t.endtime - o)) = y ↔
      t.start + (k : K) * t.delta - o = -y := by
    intro k hk y
    have hne : t.data.length ≠ 0 := by omega
    unfold Trace.endtime
    rw [if_neg hne]
    have hcast : ((t.data.length - 1 - k : Nat) : K) = ((t.data.length - 1 : Nat) : K) - (k : K) := by
      rw [Nat.cast_sub (by omega)]
    rw [hcast]
    constructor
    · intro h; rw [← h]; ring
    · intro h
      have : y = -(t.start + (k : K) * t.delta - o) := by rw [h]; ring
      rw [this]; ring
  have hdel : t'.delta = t.delta := by unfold Trace.delta; rw [hr]
  unfold SampleAtLag
  rw [hd, hs, hdel]
  constructor
  · rintro ⟨k, hk, e⟩
    have hlt : k < t.data.length := (List.getElem?_eq_some_iff.1 hk).1
    refine ⟨t.data.length - 1 - k, ?_, ?_⟩
    · rw [List.getElem?_reverse (by omega), ← hk]
      congr 1; omega
    · rw [key k hlt, neg_neg]; exact e
  · rintro ⟨k, hk, e⟩
    have hlt : k < t.data.length := by
      have := (List.getElem?_eq_some_iff.1 hk).1
      simpa using this
    refine ⟨t.data.length - 1 - k, ?_, ?_⟩
    · rw [List.getElem?_reverse hlt] at hk
      exact hk
    · have := (key (t.data.length - 1 - k) (by omega) (-tau)).1 (by
        rw [← e]; congr 3
        have : t.data.length - 1 - (t.data.length - 1 - k) = k := by omega
        rw [this])
      rwa [neg_neg] at this

/-- C42.  With the same source components and source window, the S receiver functions are the P
receiver functions mirrored at the onset: a sample at lag tau relative to the onset of the one is
found at lag -tau relative to the onset of the other.  Start and end time, codes and all other entries
but onset, type, phase are the same.  (`C42_twice` treats mirroring twice.) -/
theorem C42_mirrored [CharZero K] (env : RfEnv K) (a : RfArgs K) (c : Str) (w : Win K)
    (hc : a.srcComps = some c) (hw : a.winsrc = some w) (st stP : SState K) (hn : st.2.Nodup)
    (hP : rf env { a with method := some "P".toList } st = (stP, none))
    (hon : ∀ r ∈ stP.2, ∃ o, (stP.1 r).getTime "onset" = some o) :
    ∃ stS, rf env { a with method := some "S".toList } st = (stS, none) ∧ stS.2 = stP.2 ∧
      ∀ r ∈ stP.2, (stS.1 r).start = (stP.1 r).start ∧ (stS.1 r).endtime = (stP.1 r).endtime ∧
        (stS.1 r).sr = (stP.1 r).sr ∧ (stS.1 r).id = (stP.1 r).id ∧
        (∀ k, k ∉ ["onset", "phase", "processing", "type"] →
          (stS.1 r).ext.get k = (stP.1 r).ext.get k) ∧
        ∃ o o', (stP.1 r).getTime "onset" = some o ∧ (stS.1 r).getTime "onset" = some o' ∧
          ∀ tau x, SampleAtLag (stP.1 r) o tau x ↔ SampleAtLag (stS.1 r) o' (-tau) x := by
  have hmemb := (C46_membership env { a with method := some "P".toList } st).1
  rw [hP] at hmemb
  have hnP : stP.2.Nodup := hmemb.nodup hn
  obtain ⟨st1, st2, st3, h1, h2, h3, h4⟩ := rf_ok env _ "P".toList rfl st stP hP
  have h12 : st2 = st1 := by
    unfold mirrorStage at h2
    rw [if_neg (by decide)] at h2
    simpa using h2.symm
  subst h12
  have hs3 : st3.2 = st2.2 := by
    have := labelStage_traces "P".toList st2
    rw [h3] at this; exact this
  have hsP : stP.2 = st2.2 := by rw [h4]; exact hs3
  have hPget : ∀ r k, k ≠ "type" → k ≠ "phase" → k ≠ "processing" →
      (stP.1 r).ext.get k = (st2.1 r).ext.get k := by
    intro r k k1 k2 k3
    rw [h4]
    show (addInfoAll env.infoRf st3.1 st3.2 r).ext.get k = _
    rw [addInfoAll_get _ _ _ _ _ k3, (labelStage_rest _ _ _ h3 r).2.2.2.2.2.1 k k1 k2]
  have hPon : ∀ r, (stP.1 r).getTime "onset" = (st2.1 r).getTime "onset" := by
    intro r
    unfold Trace.getTime
    rw [hPget r "onset" (by decide) (by decide) (by decide)]
  have hPrest : ∀ r, (stP.1 r).data = (st2.1 r).data ∧ (stP.1 r).start = (st2.1 r).start ∧
      (stP.1 r).sr = (st2.1 r).sr ∧ (stP.1 r).id = (st2.1 r).id := by
    intro r
    obtain ⟨e1, e2, e3, e4, e5⟩ := addInfoAll_rest env.infoRf st3.1 st3.2 r
    obtain ⟨f1, f2, f3, f4, -⟩ := labelStage_rest _ _ _ h3 r
    rw [h4]
    exact ⟨e1.trans f1, e2.trans f2, e3.trans f3, e5.trans f4⟩
  -- the same preparation for S
  have hb : rfBefore env { a with method := some "S".toList } "S".toList st = (st2, none) := by
    rw [← h1]
    unfold rfBefore
    have : rfDeconvArgs { a with method := some "S".toList } "S".toList
        = rfDeconvArgs { a with method := some "P".toList } "P".toList := by
      funext d
      unfold rfDeconvArgs rfSource
      simp only [hc, hw]
    unfold deconvolveStage
    simp only [this]
    rfl
  obtain ⟨hm, m1, m2, m3⟩ := mirrorLoop_ok st2.1 st2.2 (hsP ▸ hnP) (fun r hr => by
    rw [← hPon]; exact hon r (hsP ▸ hr))
  have hmir : mirrorStage "S".toList st2 = ((hm, st2.2), none) := by
    unfold mirrorStage
    rw [if_pos rfl, m1]
  have hmget : ∀ r k, k ≠ "onset" → (hm r).ext.get k = (st2.1 r).ext.get k := by
    intro r k hk
    by_cases hr : r ∈ st2.2
    · obtain ⟨o, ho⟩ := hon r (hsP ▸ hr)
      rw [m3 r hr o (by rw [← hPon]; exact ho), mirrorTrace_get _ _ _ hk]
    · rw [m2 r hr]
  obtain ⟨m', hm'⟩ := labelStage_method _ _ _ h3
  obtain ⟨st4, h5⟩ := labelStage_ok "S".toList (hm, st2.2) m' (by
    rw [← hm']
    exact streamMethod_congr _ _ _ (fun r => hmget r "phase" (by decide)))
  have hs4 : st4.2 = st2.2 := by
    have := labelStage_traces "S".toList (hm, st2.2)
    rw [h5] at this; exact this
  refine ⟨_, rf_intro env _ "S".toList rfl (Or.inr rfl) st st2 _ st4 hb hmir h5, ?_, ?_⟩
  · show st4.2 = _
    rw [hs4, hsP]
  · intro r hr
    obtain ⟨e1, e2, e3, e4, e5⟩ := addInfoAll_rest env.infoRf st4.1 st4.2 r
    obtain ⟨f1, f2, f3, f4, -, f6, -⟩ := labelStage_rest _ _ _ h5 r
    obtain ⟨p1, p2, p3, p4⟩ := hPrest r
    obtain ⟨o, ho⟩ := hon r hr
    have hmr := m3 r (hsP ▸ hr) o (by rw [← hPon]; exact ho)
    simp only [] at f1 f2 f3 f4 f6
    rw [hmr] at f1 f2 f3 f4
    have g1 : (addInfoAll env.infoRf st4.1 st4.2 r).data = (stP.1 r).data.reverse := by
      rw [e1, f1, p1]; rfl
    have g2 : (addInfoAll env.infoRf st4.1 st4.2 r).start = (stP.1 r).start := by
      rw [e2, f2, p2]; rfl
    have g3 : (addInfoAll env.infoRf st4.1 st4.2 r).sr = (stP.1 r).sr := by rw [e3, f3, p3]; rfl
    have g4 : (addInfoAll env.infoRf st4.1 st4.2 r).id = (stP.1 r).id := by rw [e5, f4, p4]; rfl
    have hend : (stP.1 r).endtime = (st2.1 r).endtime := by
      unfold Trace.endtime Trace.delta; rw [p1, p2, p3]
    refine ⟨g2, ?_, g3, g4, ?_, o, (stP.1 r).start + ((stP.1 r).endtime - o), ho, ?_, ?_⟩
    · unfold Trace.endtime Trace.delta
      simp only [g1, g2, g3, List.length_reverse]
    · intro k hk
      simp only [List.mem_cons, List.not_mem_nil, or_false, not_or] at hk
      rw [hPget r k hk.2.2.2 hk.2.1 hk.2.2.1]
      show (addInfoAll env.infoRf st4.1 st4.2 r).ext.get k = _
      rw [addInfoAll_get _ _ _ _ _ hk.2.2.1, f6 k hk.2.2.2 hk.2.1, hmget r k hk.1]
    · unfold Trace.getTime
      show (match (addInfoAll env.infoRf st4.1 st4.2 r).ext.get "onset" with
        | some (.time x) => some x | _ => none) = _
      rw [addInfoAll_get _ _ _ _ _ (by decide), f6 "onset" (by decide) (by decide), hmr, hend, p2]
      exact mirrorTrace_onset o (st2.1 r)
    · intro tau x
      exact sampleAtLag_mirror (stP.1 r) _ o g1 g2 g3 tau x

/-- `rf(method=m, rotate=None, deconvolve=None)` and no other option. -/
def plainArgs (m : Str) : RfArgs K :=
  { method := some m, rotate := none, deconvolve := none }

theorem plain_before (env : RfEnv K) (m m' : Str) (st : SState K) :
    rfBefore env (plainArgs m) m' st = ((Heap.forEach negQ st.1 st.2, st.2), none) := rfl

theorem negQ_get (t : Trace K) : (negQ t).ext = t.ext ∧ (negQ t).start = t.start ∧
    (negQ t).sr = t.sr ∧ (negQ t).cha = t.cha ∧ (negQ t).data.length = t.data.length ∧
    (negQ t).id = t.id := by
  unfold negQ; split <;> simp [Trace.id]

theorem negQ_data (t : Trace K) : (negQ t).data =
    if t.cha.getLast? = some 'Q' then t.data.map (fun (x : K) => -x) else t.data := by
  unfold negQ; split <;> rfl

theorem getTime_congr {t t' : Trace K} {k : String} (h : t.ext.get k = t'.ext.get k) :
    t.getTime k = t'.getTime k := by
  unfold Trace.getTime; rw [h]

/-- The effect of a plain call on one trace. -/
theorem plain_S (env : RfEnv K) (st st' : SState K) (hn : st.2.Nodup)
    (hon : ∀ r ∈ st.2, ∃ o, (st.1 r).getTime "onset" = some o)
    (h : rf env (plainArgs "S".toList) st = (st', none)) :
    st'.2 = st.2 ∧ ∀ r ∈ st.2, ∀ o, (st.1 r).getTime "onset" = some o →
      (st'.1 r).data = (negQ (st.1 r)).data.reverse ∧ (st'.1 r).start = (st.1 r).start ∧
      (st'.1 r).sr = (st.1 r).sr ∧ (st'.1 r).cha = (st.1 r).cha ∧
      (st'.1 r).getTime "onset" = some ((st.1 r).start + ((st.1 r).endtime - o)) := by
  obtain ⟨st1, st2, st3, h1, h2, h3, h4⟩ := rf_ok env _ "S".toList rfl st st' h
  rw [plain_before] at h1
  simp only [Prod.mk.injEq, and_true] at h1
  subst h1
  have hq : ∀ r ∈ st.2, Heap.forEach negQ st.1 st.2 r = negQ (st.1 r) := fun r hr =>
    Heap.forEach_mem _ _ _ _ hn hr
  have hqo : ∀ r ∈ st.2, (Heap.forEach negQ st.1 st.2 r).getTime "onset" = (st.1 r).getTime "onset" := by
    intro r hr
    rw [hq r hr]
    unfold Trace.getTime
    rw [(negQ_get (st.1 r)).1]
  obtain ⟨hm, m1, m2, m3⟩ := mirrorLoop_ok (Heap.forEach negQ st.1 st.2) st.2 hn (fun r hr => by
    rw [hqo r hr]; exact hon r hr)
  unfold mirrorStage at h2
  rw [if_pos rfl] at h2
  simp only [m1, Prod.mk.injEq, and_true] at h2
  subst h2
  have hs3 : st3.2 = st.2 := by
    have := labelStage_traces "S".toList (hm, st.2)
    rw [h3] at this; exact this
  subst h4
  refine ⟨hs3, fun r hr o ho => ?_⟩
  obtain ⟨e1, e2, e3, e4, e5⟩ := addInfoAll_rest env.infoRf st3.1 st3.2 r
  obtain ⟨f1, f2, f3, f4, f5, f6, -⟩ := labelStage_rest _ _ _ h3 r
  obtain ⟨q1, q2, q3, q4, q5, q6⟩ := negQ_get (st.1 r)
  have hmr := m3 r hr o (by rw [hqo r hr]; exact ho)
  rw [hq r hr] at hmr
  simp only [] at f1 f2 f3 f4 f5 f6
  rw [hmr] at f1 f2 f3 f5
  refine ⟨e1.trans f1, e2.trans (f2.trans q2), e3.trans (f3.trans q3), e4.trans (f5.trans q4), ?_⟩
  have hg : (addInfoAll env.infoRf st3.1 st3.2 r).ext.get "onset"
      = (mirrorTrace o (negQ (st.1 r))).ext.get "onset" := by
    rw [addInfoAll_get _ _ _ _ _ (by decide), f6 "onset" (by decide) (by decide), hmr]
  show (addInfoAll env.infoRf st3.1 st3.2 r).getTime "onset" = _
  rw [getTime_congr hg, mirrorTrace_onset]
  unfold Trace.endtime Trace.delta
  rw [q2, q3, q5]

/-- C42, mirroring twice restores samples, start time and onset (the sign change of the Q
component, C43, is undone as well). -/
theorem C42_twice (env : RfEnv K) (st st1 : SState K) (hn : st.2.Nodup)
    (hon : ∀ r ∈ st.2, ∃ o, (st.1 r).getTime "onset" = some o)
    (h : rf env (plainArgs "S".toList) st = (st1, none)) :
    ∃ st2, rf env (plainArgs "S".toList) st1 = (st2, none) ∧ st2.2 = st.2 ∧
      ∀ r ∈ st.2, (st2.1 r).data = (st.1 r).data ∧ (st2.1 r).start = (st.1 r).start ∧
        (st2.1 r).getTime "onset" = (st.1 r).getTime "onset" := by
  obtain ⟨a1, a2⟩ := plain_S env st st1 hn hon h
  have hon1 : ∀ r ∈ st1.2, ∃ o, (st1.1 r).getTime "onset" = some o := by
    intro r hr
    rw [a1] at hr
    obtain ⟨o, ho⟩ := hon r hr
    exact ⟨_, (a2 r hr o ho).2.2.2.2⟩
  -- the second call succeeds
  have hsm : ∃ m', streamMethod st1.1 st1.2 = .ok m' := by
    by_cases hs : st1.2 = []
    · rw [hs]; exact ⟨none, rfl⟩
    · exact ⟨_, (C44_labels env _ st st1 h).2 "S".toList (Or.inr rfl) hs (Or.inl rfl)⟩
  obtain ⟨m', hm'⟩ := hsm
  obtain ⟨hm, m1, m2, m3⟩ := mirrorLoop_ok (Heap.forEach negQ st1.1 st1.2) st1.2 (a1 ▸ hn)
    (fun r hr => by
      rw [Heap.forEach_mem _ _ _ _ (a1 ▸ hn) hr]
      unfold Trace.getTime
      rw [(negQ_get (st1.1 r)).1]
      exact hon1 r hr)
  have hphase : ∀ r, (hm r).ext.get "phase" = (st1.1 r).ext.get "phase" := by
    intro r
    by_cases hr : r ∈ st1.2
    · obtain ⟨o, ho⟩ := hon1 r hr
      have hf := Heap.forEach_mem negQ st1.1 st1.2 r (a1 ▸ hn) hr
      rw [m3 r hr o (by rw [hf]; unfold Trace.getTime; rw [(negQ_get (st1.1 r)).1]; exact ho),
        mirrorTrace_get _ _ _ (by decide), hf, (negQ_get (st1.1 r)).1]
    · rw [m2 r hr, Heap.forEach_not_mem _ _ _ _ hr]
  obtain ⟨st3, h3⟩ := labelStage_ok "S".toList (hm, st1.2) m' (by
    rw [← hm']; exact streamMethod_congr _ _ _ hphase)
  have hok := rf_intro env (plainArgs "S".toList) "S".toList rfl (Or.inr rfl) st1 _ (hm, st1.2) st3
    (plain_before env _ _ st1) (by unfold mirrorStage; rw [if_pos rfl]; simp only [m1]) h3
  obtain ⟨b1, b2⟩ := plain_S env st1 _ (a1 ▸ hn) hon1 hok
  refine ⟨_, hok, b1.trans a1, fun r hr => ?_⟩
  obtain ⟨o, ho⟩ := hon r hr
  obtain ⟨c1, c2, c3, c4, c5⟩ := a2 r hr o ho
  obtain ⟨d1, d2, d3, d4, d5⟩ := b2 r (a1 ▸ hr) _ c5
  refine ⟨?_, d2.trans c2, ?_⟩
  · rw [d1]
    rw [negQ_data, c4, c1, negQ_data]
    by_cases hc : (st.1 r).cha.getLast? = some 'Q'
    · simp [hc, Function.comp_def]
    · simp [hc]
  · rw [d5, ho]
    have hend : (st1.1 r).endtime = (st.1 r).endtime := by
      unfold Trace.endtime Trace.delta
      rw [c1, c2, c3, List.length_reverse, (negQ_get (st.1 r)).2.2.2.2.1]
    rw [hend, c2]
    congr 1
    ring

end mirror

end Verif.Props
