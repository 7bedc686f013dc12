import Verif.Model.Noise
import Verif.Props.OrderKernels
import Verif.Props.GainKernels
import Verif.Props.GainRf
import Verif.Props.LaterRf
import Verif.Props.TrimMoveout
import Verif.Props.NanData

/-!
# C190: the noise of the multitaper method, cut from the record itself
-/

set_option linter.unusedSimpArgs false
set_option linter.unusedSectionVars false

namespace Verif.Props
open Verif.Py Verif.Model Verif.Spec

section
variable {K : Type} [Field K] [LinearOrder K] [IsStrictOrderedRing K] [FloorRing K]
  (trim : Trace K → TArg K → TArg K → Res (Trace K))

theorem selectRsp_ok (h : Heap K) (c : Option Str) (s l : List Nat) (hl : selectRsp h c s = .ok l) :
    l = onComps h s c ∧ (c = none ∨ ∀ r ∈ s, (h r).cha ≠ []) := by
  cases c with
  | none => exact ⟨(Except.ok.inj hl).symm, .inl rfl⟩
  | some c =>
    have h1 := (selectComps_ok h c s l hl).1
    have h2 := selectComps_eq h c s h1
    rw [show selectComps h c s = .ok l from hl] at h2
    exact ⟨Except.ok.inj h2, .inr h1⟩

theorem onComps_filter (h : Heap K) (s : List Nat) (c : Option Str) (p : Nat → Bool) :
    onComps h (s.filter p) c = (onComps h s c).filter p := by
  cases c with
  | none => rfl
  | some c => simp only [onComps, List.filter_filter, Bool.and_comm]

/-- What a successful selection of the noise means. -/
theorem noise_ok (h : Heap K) (s : List Nat) (r0 : Nat) (rest : List Nat) (rc : Option Str) (nse : List (List K))
    (hn : s.Nodup) (hok : preEventNoise trim h s (r0 :: rest) rc = .ok nse) :
    ∃ o h1, (h r0).getTime "onset" = some o ∧
      Heap.forEachE (cutTrace trim (.sec (-(o - (h r0).start))) (.sec (-5)) (.key "onset")) h s = (h1, none) ∧
      (∀ r ∈ s, cutTrace trim (.sec (-(o - (h r0).start))) (.sec (-5)) (.key "onset") (h r) = .ok (h1 r)) ∧
      (rc = none ∨ ∀ r ∈ s.filter (fun r => (h1 r).npts ≠ 0), (h1 r).cha ≠ []) ∧
      nse = (onComps h1 (s.filter fun r => (h1 r).npts ≠ 0) rc).map fun r => (h1 r).data := by
  unfold preEventNoise trim2 at hok
  simp only at hok
  cases ho : (h r0).getTime "onset" with
  | none => rw [ho] at hok; cases hok
  | some o =>
    rw [ho] at hok
    simp only at hok
    rcases hf : Heap.forEachE (cutTrace trim (.sec (-(o - (h r0).start))) (.sec (-5)) (.key "onset")) h s with ⟨h1, e⟩
    rw [hf] at hok
    cases e with
    | some e => simp at hok
    | none =>
      simp only at hok
      cases hl : selectRsp h1 rc (s.filter fun r => (h1 r).npts ≠ 0) with
      | error e => rw [hl] at hok; cases hok
      | ok l =>
        rw [hl] at hok
        obtain ⟨e1, e2⟩ := selectRsp_ok h1 rc _ l hl
        refine ⟨o, h1, rfl, hf, ((forEachE_ok_iff _ _ _ _ hn).1 hf).1, e2, ?_⟩
        rw [← e1]
        exact (Except.ok.inj hok).symm

/-- The noise depends only on the traces of the stream. -/
theorem C190_local (dec : DeconvEnv K) : NoiseLocal (withNoise trim dec) := by
  intro h h' s rsp c hA hs
  show preEventNoise trim h s rsp c = preEventNoise trim h' s rsp c
  cases rsp with
  | nil => rfl
  | cons r0 rest =>
    unfold preEventNoise trim2
    simp only
    rw [hA r0 (hs r0 List.mem_cons_self)]
    cases (h' r0).getTime "onset" with
    | none => rfl
    | some o =>
      simp only
      obtain ⟨e1, e2⟩ := hA.forEachE (cutTrace trim (.sec (-(o - (h' r0).start))) (.sec (-5)) (.key "onset")) s fun r hr => hr
      rcases hf : Heap.forEachE (cutTrace trim (.sec (-(o - (h' r0).start))) (.sec (-5)) (.key "onset")) h s with ⟨h1, e⟩
      rcases hf' : Heap.forEachE (cutTrace trim (.sec (-(o - (h' r0).start))) (.sec (-5)) (.key "onset")) h' s with ⟨h1', e'⟩
      rw [hf, hf'] at e1 e2
      simp only at e1 e2
      subst e1
      cases e with
      | some e => rfl
      | none =>
        simp only
        have hfil : s.filter (fun r => (h1 r).npts ≠ 0) = s.filter (fun r => (h1' r).npts ≠ 0) :=
          List.filter_congr fun r hr => by rw [e2 r hr]
        rw [hfil]
        have hsub : ∀ r ∈ s.filter (fun r => (h1' r).npts ≠ 0), r ∈ s := fun r hr => (List.mem_filter.1 hr).1
        have hsel : selectRsp h1 c (s.filter fun r => (h1' r).npts ≠ 0) = selectRsp h1' c (s.filter fun r => (h1' r).npts ≠ 0) := by
          cases c with
          | none => rfl
          | some c => exact selectComps_congr s h1 h1' e2 c _ hsub
        rw [hsel]
        cases hl : selectRsp h1' c (s.filter fun r => (h1' r).npts ≠ 0) with
        | error e => rfl
        | ok l =>
          simp only [Except.map]
          congr 1
          refine List.map_congr_left fun r hr => ?_
          rw [e2 r (hsub r (selectRsp_sub h1' c _ l hl r hr))]

/-- The noise is that of a record at another time. -/
theorem C190_later (d : K)
    (ht : ∀ t a b, trim (later d t) (laterArg d a) (laterArg d b) = (trim t a b).map (later d)) (h : Heap K)
    (s rsp : List Nat) (rc : Option Str) : preEventNoise trim (laterH d h) s rsp rc = preEventNoise trim h s rsp rc := by
  cases rsp with
  | nil => rfl
  | cons r0 rest =>
    unfold preEventNoise
    simp only
    have hg : (laterH d h r0).getTime "onset" = ((h r0).getTime "onset").map (· + d) := by
      unfold laterH Trace.getTime
      rw [later_get]
      cases (h r0).ext.get "onset" with
      | none => rfl
      | some v => cases v <;> rfl
    rw [hg]
    cases (h r0).getTime "onset" with
    | none => rfl
    | some o =>
      simp only [Option.map]
      have e : o + d - (laterH d h r0).start = o - (h r0).start := by
        show o + d - ((h r0).start + d) = _
        ring
      rw [e]
      have := trim2_later trim d ht (.sec (-(o - (h r0).start))) (.sec (-5)) "onset" h s
      simp only [laterArg] at this
      rw [this]
      unfold laterS
      rcases trim2 trim (.sec (-(o - (h r0).start))) (.sec (-5)) (.key "onset") (h, s) with ⟨⟨h1, s1⟩, e⟩
      cases e with
      | some e => rfl
      | none =>
        simp only
        have hsel : selectRsp (laterH d h1) rc s1 = selectRsp h1 rc s1 := by
          cases rc with
          | none => rfl
          | some c => exact selectComps_later d h1 c s1
        rw [hsel]
        rfl

/-- The noise of records with another gain factor is multiplied with it. -/
theorem C190_gain (ht : ∀ k, 0 < k → ∀ t a b, trim (gain k t) a b = (trim t a b).map (gain k)) (c : Nat → K) (k : K)
    (h : Heap K) (s rsp : List Nat) (rc : Option Str) (hk : 0 < k) (hc : ∀ r ∈ s, c r = k) (hs : ∀ r ∈ rsp, r ∈ s) :
    preEventNoise trim (gainH c h) s rsp rc = (preEventNoise trim h s rsp rc).map (gainL k) := by
  cases rsp with
  | nil => rfl
  | cons r0 rest =>
    unfold preEventNoise trim2
    simp only
    rw [show (gainH c h r0).getTime "onset" = (h r0).getTime "onset" from rfl]
    cases (h r0).getTime "onset" with
    | none => rfl
    | some o =>
      simp only
      rw [show (gainH c h r0).start = (h r0).start from rfl, gainH_eq, forEachE_mapH _ _ h s (fun r hr t => by
        rw [hc r hr]; exact cutTrace_gain trim k (ht k hk) _ _ t _)]
      rcases Heap.forEachE (cutTrace trim (.sec (-(o - (h r0).start))) (.sec (-5)) (.key "onset")) h s with ⟨h1, e⟩
      cases e with
      | some e => rfl
      | none =>
        simp only
        rw [← gainH_eq]
        have hfil : s.filter (fun r => (gainH c h1 r).npts ≠ 0) = s.filter (fun r => (h1 r).npts ≠ 0) :=
          List.filter_congr fun r hr => by rw [show (gainH c h1 r).npts = (h1 r).npts from gain_npts _ _]
        rw [hfil]
        have hsel : selectRsp (gainH c h1) rc (s.filter fun r => (h1 r).npts ≠ 0) =
            selectRsp h1 rc (s.filter fun r => (h1 r).npts ≠ 0) := by
          cases rc with
          | none => rfl
          | some x => exact selectComps_gain c h1 x _
        rw [hsel]
        cases hl : selectRsp h1 rc (s.filter fun r => (h1 r).npts ≠ 0) with
        | error e => rfl
        | ok l =>
          simp only [Except.map]
          congr 1
          exact data_gain c k h1 l fun r hr => hc r (List.mem_filter.1 (selectRsp_sub h1 rc _ l hl r hr)).1

/-- The noise of responses over the same time span and with the same onset does not depend on the order of the
traces. -/
theorem C190_perm (hcut : CutsSamples trim) (hcha : ∀ t a b t', trim t a b = .ok t' → t'.cha = t.cha)
    (h : Heap K) (s s' : List Nat) (c : Option Str) (hn : s.Nodup) (hp : s.Perm s') (hspan : SameSpan h (onComps h s c))
    (hons : ∃ o, ∀ r ∈ onComps h s c, (h r).getTime "onset" = some o) (out : List (List K))
    (hok : preEventNoise trim h s (onComps h s c) c = .ok out) :
    out = [] ∨ ∃ ν : Nat → List K, out = (onComps h s c).map ν ∧
      preEventNoise trim h s' (onComps h s' c) c = .ok ((onComps h s' c).map ν) ∧
      ∀ r ∈ onComps h s c, ∀ q ∈ onComps h s c, (ν r).length = (ν q).length := by
  have hperm := onComps_perm h s s' c hp
  have hsub := (onComps_sublist h s c).subset
  obtain ⟨o, hons⟩ := hons
  cases hl : onComps h s c with
  | nil => rw [hl] at hok; cases hok
  | cons r0 rest =>
    rw [hl] at hok
    obtain ⟨o', h1, ho', hf, hcutr, hc1, rfl⟩ := noise_ok trim h s r0 rest c out hn hok
    have hr0 : r0 ∈ onComps h s c := by rw [hl]; exact List.mem_cons_self
    rw [hons r0 hr0] at ho'
    obtain rfl := Option.some.inj ho'
    have hch : ∀ r ∈ s, (h1 r).cha = (h r).cha := by
      intro r hr
      obtain ⟨x, y, -, -, hx⟩ := (cutTrace_ok _ _ _ _ _ _).1 (hcutr r hr)
      exact hcha _ _ _ _ hx
    have hon : ∀ l, (∀ r ∈ l, r ∈ s) → onComps h1 l c = onComps h l c := fun l hl =>
      onComps_congr h h1 l c fun r hr => hch r (hl r hr)
    -- the same samples of all responses
    obtain ⟨f, hcut⟩ := hcut
    have hget : ∀ r ∈ onComps h s c, (h r).ext.get "onset" = some (.time o) := by
      intro r hr
      have := hons r hr
      unfold Trace.getTime at this
      split at this
      · rename_i z hz; simp only [Option.some.injEq] at this; rw [hz, this]
      · simp at this
    have hcr : ∀ r ∈ onComps h s c, ∃ p, f (h r0).npts (h r0).sr (o - (h r0).start + -(o - (h r0).start))
        (o - (h r0).start + -5) = .ok p ∧ h1 r = samplesOf p.1 p.2 (h r) := by
      intro r hr
      have h2 := hcutr r (hsub hr)
      unfold cutTrace at h2
      simp only [seconds2utc, statsTime, hget r hr, show ¬ "onset" = "starttime" by decide,
        show ¬ "onset" = "endtime" by decide, if_false, hcut] at h2
      obtain ⟨s1, s2, s3⟩ := hspan r hr r0 hr0
      rw [show (h r).npts = (h r0).npts from s1, s2, s3, show o + -(o - (h r0).start) - (h r0).start =
        o - (h r0).start + -(o - (h r0).start) by ring, show o + -5 - (h r0).start = o - (h r0).start + -5 by ring] at h2
      cases hp : f (h r0).npts (h r0).sr (o - (h r0).start + -(o - (h r0).start)) (o - (h r0).start + -5) with
      | error e => rw [hp] at h2; cases h2
      | ok p =>
        rw [hp] at h2
        exact ⟨p, rfl, (Except.ok.inj h2).symm⟩
    have hnp : ∀ r ∈ onComps h s c, ∀ q ∈ onComps h s c, (h1 r).npts = (h1 q).npts := by
      intro r hr q hq
      obtain ⟨p, p1, p2⟩ := hcr r hr
      obtain ⟨p', p1', p2'⟩ := hcr q hq
      rw [p1] at p1'
      cases p1'
      rw [p2, p2', npts_samplesOf, npts_samplesOf, show (h r).npts = (h q).npts from (hspan r hr q hq).1]
    have e1 : onComps h1 (s.filter fun r => (h1 r).npts ≠ 0) c = (onComps h s c).filter fun r => (h1 r).npts ≠ 0 := by
      rw [hon _ fun r hr => (List.mem_filter.1 hr).1, onComps_filter]
    have e2 : onComps h1 (s'.filter fun r => (h1 r).npts ≠ 0) c = (onComps h s' c).filter fun r => (h1 r).npts ≠ 0 := by
      rw [hon _ fun r hr => hp.mem_iff.2 (List.mem_filter.1 hr).1, onComps_filter]
    by_cases h0 : (h1 r0).npts = 0
    · left
      rw [e1, List.filter_eq_nil_iff.2 fun r hr => by simp [hnp r hr r0 hr0, h0]]
      rfl
    · right
      have e3 : (onComps h s c).filter (fun r => (h1 r).npts ≠ 0) = onComps h s c :=
        List.filter_eq_self.2 fun r hr => by simp [hnp r hr r0 hr0, h0]
      have e4 : (onComps h s' c).filter (fun r => (h1 r).npts ≠ 0) = onComps h s' c :=
        List.filter_eq_self.2 fun r hr => by simp [hnp r (hperm.mem_iff.2 hr) r0 hr0, h0]
      refine ⟨fun r => (h1 r).data, ?_, ?_, fun r hr q hq => hnp r (by rw [hl]; exact hr) q (by rw [hl]; exact hq)⟩
      · rw [e1, e3, hl]
      · cases hl' : onComps h s' c with
        | nil => rw [hl'] at hperm; rw [hperm.eq_nil] at hl; cases hl
        | cons q0 rest' =>
          have hq0 : q0 ∈ onComps h s c := hperm.mem_iff.2 (by rw [hl']; exact List.mem_cons_self)
          unfold preEventNoise trim2
          simp only
          rw [hons q0 hq0, (hspan q0 hq0 r0 hr0).2.1]
          simp only
          rw [forEachE_perm _ h h1 s s' hn hp hf]
          simp only
          have hsel : selectRsp h1 c (s'.filter fun r => (h1 r).npts ≠ 0) = .ok (onComps h s' c) := by
            rw [← e4, ← e2]
            rcases hc1 with rfl | hc1
            · rfl
            · refine selectRsp_eq h1 c _ fun r hr => hc1 r ?_
              exact ((hp.filter _).mem_iff).2 hr
          rw [hsel, hl']
          rfl

theorem dict_set_again {V : Type} (d : Dict V) (k : String) (v : V) : (d.set k v).set k v = d.set k v := by
  induction d with
  | nil => simp [Dict.set]
  | cons p d ih =>
    by_cases hp : p.1 = k
    · simp [Dict.set, hp]
    · simp [Dict.set, hp, ih]

/-- The trace before the kernel is called: the source window only replaces a source that is no response. -/
theorem kernelHeap_rsp (h : Heap K) (src : Nat) (rsp : List Nat) (onset : K) (srcT : Trace K) (r : Nat) (hr : r ∈ rsp) :
    (if (indexOf? (snapped h src rsp onset) src rsp).isSome then snapped h src rsp onset
      else (snapped h src rsp onset).set src srcT) r = (h r).put "onset" (.time onset) := by
  have hs : snapped h src rsp onset r = (h r).put "onset" (.time onset) := by
    unfold snapped
    have key : ∀ (l : List Nat) (g : Heap K), (g r = h r ∨ g r = (h r).put "onset" (.time onset)) →
        (r ∈ l ∨ g r = (h r).put "onset" (.time onset)) →
        Heap.forEach (fun (t : Trace K) => t.put "onset" (.time onset)) g l r = (h r).put "onset" (.time onset) := by
      intro l
      induction l with
      | nil => intro g _ hg; exact hg.resolve_left (by simp)
      | cons a l ih =>
        intro g h1 h2
        show Heap.forEach (fun (t : Trace K) => t.put "onset" (.time onset)) (g.set a ((g a).put "onset" (.time onset))) l r = _
        have hpp : ((h r).put "onset" (.time onset)).put "onset" (.time onset) = (h r).put "onset" (.time onset) := by
          unfold Trace.put
          simp only [dict_set_again]
        by_cases ha : r = a
        · subst ha
          have e : ((g r).put "onset" (.time onset)) = (h r).put "onset" (.time onset) := by
            rcases h1 with h1 | h1
            · rw [h1]
            · rw [h1, hpp]
          refine ih _ (.inr ?_) (.inr ?_) <;> rw [Heap.set_self, e]
        · refine ih _ ?_ ?_
          · rw [Heap.set_ne _ _ ha]; exact h1
          · rw [Heap.set_ne _ _ ha]
            exact h2.imp_left fun h => (List.mem_cons.1 h).resolve_left ha
    refine key rsp _ ?_ (.inl hr)
    by_cases hrs : r = src
    · subst hrs; right; rw [Heap.set_self]
    · left; rw [Heap.set_ne _ _ hrs]
  split
  · exact hs
  · rename_i hno
    rw [Heap.set_ne]
    · exact hs
    · rintro rfl
      apply hno
      unfold indexOf?
      rw [List.findIdx?_isSome]
      simp only [List.any_eq_true, Bool.or_eq_true, decide_eq_true_eq]
      exact ⟨r, hr, Or.inl rfl⟩

/-- **C190**.  Whenever `deconvolve` with the multitaper method and without the keyword `noise` returns, the arrays given
to the kernel as noise are, in the order of the responses, what `trim` leaves of the response itself (with the onset at
the nearest sample) between the start of the first response and 5 s before the onset; empty arrays are left out. -/
theorem C190_noise (hcha : ∀ t a b t', trim t a b = .ok t' → t'.cha = t.cha) (dec : DeconvEnv K)
    (hcha2 : ∀ t a b x, (dec.taper (dec.trimPad t a b) x).cha = t.cha) (h h' : Heap K)
    (s : List Nat) (a : DeconvArgs K) (l : List Nat) (hn : s.Nodup) (hm : a.method = "multitaper".toList)
    (hd : deconvolve (withNoise trim dec) h s a = (h', .ok l)) :
    l = onComps h s a.rspComps ∧ ∃ src srcT w0 nrm onset r0 rest nse rf, l = r0 :: rest ∧
      (∀ r ∈ l, (h' r).getTime "onset" = some onset) ∧
      dec.mt (l.map fun r => (h r).data) srcT nse (h src).sr w0 nrm = .ok rf ∧ Results h' l rf ∧
      ∃ cut : Nat → Trace K,
        (∀ r ∈ l, trim ((h r).put "onset" (.time onset)) (.utc (h r0).start) (.utc (onset - 5)) = .ok (cut r)) ∧
        nse = (l.filter fun r => (cut r).npts ≠ 0).map fun r => (cut r).data := by
  rcases deconvolve_cases (withNoise trim dec) h h' s a _ hd with ⟨_, e, he⟩ |
    ⟨m, src, rsp, nrm, o, idx, onset, hsel, ho, hf, hon, hc⟩
  · cases he
  rcases hc with ⟨_, e, he⟩ | ⟨w0, w1, w2, srcT, h2, hw, hT, h2e, hk⟩
  · cases he
  obtain ⟨s1, s2, s3, s4, s5, s6⟩ := deconvSelect_ok h s a m src rsp nrm hsel
  have hcha0 := (selectComps_ok h a.srcComps s [src] s2).1
  have hrsp : rsp = onComps h s a.rspComps := (selectRsp_ok h a.rspComps s rsp s3).1
  have hmm : m = .multitaper := by
    rw [hm] at s1
    have e : deconvMethod "multitaper".toList = some .multitaper := by decide
    rw [e] at s1; exact (Option.some.inj s1).symm
  subst hmm
  have hl : l = rsp := by
    have : (runKernel (withNoise trim dec) .multitaper h2 s rsp a.rspComps srcT (h src).sr (-w0) nrm).2 = .ok l := by rw [hk]
    unfold runKernel at this
    exact finish_result _ _ _ _ this
  subst hl
  have hrn : l.Nodup := by rw [hrsp]; exact hn.sublist (onComps_sublist h s _)
  have hsub : ∀ r ∈ l, r ∈ s := by rw [hrsp]; exact fun r hr => (onComps_sublist h s _).subset hr
  have h2r : ∀ r ∈ l, h2 r = (h r).put "onset" (.time onset) := fun r hr => by
    rw [h2e]; exact kernelHeap_rsp h src l onset srcT r hr
  have hdata : l.map (fun r => (h2 r).data) = l.map (fun r => (h r).data) :=
    List.map_congr_left fun r hr => by rw [h2r r hr]; rfl
  have hget : ∀ t : Trace K, (t.put "onset" (.time onset)).getTime "onset" = some onset := by
    intro t
    unfold Trace.getTime Trace.put
    simp only [Dict.get_set_self]
  have honset : ∀ r ∈ l, (h' r).getTime "onset" = some onset := by
    intro r hr
    have g1 := runKernel_inv (fun t : Trace K => t.getTime "onset") (fun d t => rfl)
      (fun x t => by simp [Trace.getTime, Trace.put, Dict.get_set_ne]) (withNoise trim dec) .multitaper h2 s l a.rspComps srcT
      (h src).sr (-w0) nrm (by simp) r
    rw [hk] at g1
    simp only [h2r r hr] at g1
    rw [g1]
    exact hget _
  unfold runKernel at hk
  simp only [hdata, neg_neg] at hk
  cases hnoi : (withNoise trim dec).noise h2 s l a.rspComps with
  | error e => rw [hnoi] at hk; cases hk
  | ok nse =>
  rw [hnoi] at hk
  simp only [Except.bind] at hk
  obtain ⟨r0, rest, hl0⟩ : ∃ r0 rest, l = r0 :: rest := by
    cases l with
    | nil => cases hnoi
    | cons a b => exact ⟨a, b, rfl⟩
  have hr0 : r0 ∈ l := by rw [hl0]; exact List.mem_cons_self
  cases hr : dec.mt (l.map fun r => (h r).data) srcT.data nse (h src).sr w0 nrm with
  | error e => rw [show (withNoise trim dec).mt = dec.mt from rfl, hr] at hk; cases hk
  | ok rf =>
    rw [show (withNoise trim dec).mt = dec.mt from rfl, hr] at hk
    refine ⟨hrsp, src, srcT.data, w0, nrm, onset, r0, rest, nse, rf, hl0, honset, hr, fun i r hi => ?_, ?_⟩
    · obtain ⟨f, h1, h3⟩ := finish_results h2 l _ h' l hrn hk i r hi
      rw [List.getElem?_map] at h1
      cases hri : rf[i]? with
      | none => rw [hri] at h1; cases h1
      | some d => rw [hri] at h1; cases h1; rw [h3]; rfl
    · have hnoi' : preEventNoise trim h2 s (r0 :: rest) a.rspComps = .ok nse := by rw [← hl0]; exact hnoi
      obtain ⟨o2, h1, ho2, -, hcutr, -, hnse⟩ := noise_ok trim h2 s r0 rest a.rspComps nse hn hnoi'
      rw [h2r r0 hr0, hget] at ho2
      obtain rfl := Option.some.inj ho2
      have hch1 : ∀ r ∈ s, (h1 r).cha = (h2 r).cha := by
        intro r hr
        obtain ⟨x, y, -, -, hx⟩ := (cutTrace_ok _ _ _ _ _ _).1 (hcutr r hr)
        exact hcha _ _ _ _ hx
      refine ⟨h1, fun r hr => ?_, ?_⟩
      · have := hcutr r (hsub r hr)
        rw [h2r r hr, h2r r0 hr0] at this
        unfold cutTrace at this
        have hg : ((h r).put "onset" (.time onset)).ext.get "onset" = some (.time onset) := by
          unfold Trace.put; simp only [Dict.get_set_self]
        simp only [seconds2utc, statsTime, hg, show ¬ "onset" = "starttime" by decide,
          show ¬ "onset" = "endtime" by decide, if_false] at this
        rw [show onset + -(onset - ((h r0).put "onset" (.time onset)).start) = (h r0).start by
          show onset + -(onset - (h r0).start) = _; ring, show onset + -5 = onset - 5 by ring] at this
        exact this
      · rw [hnse]
        -- the selection by channel
        have : onComps h1 (s.filter fun r => (h1 r).npts ≠ 0) a.rspComps = l.filter fun r => (h1 r).npts ≠ 0 := by
          have hc2 : ∀ r ∈ s, (h1 r).cha = (h r).cha := by
            intro r hr
            rw [hch1 r hr, h2e]
            have hsn : ∀ q, (snapped h src l onset q).cha = (h q).cha := fun q =>
              snapped_inv (fun t => t.cha) (fun _ _ => rfl) h src l onset q
            split
            · exact hsn r
            · by_cases hrs : r = src
              · subst hrs
                rw [Heap.set_self, hT]
                exact (hcha2 _ _ _ _).trans (hsn r)
              · rw [Heap.set_ne _ _ hrs]; exact hsn r
          rw [onComps_congr h h1 _ _ fun r hr => hc2 r (List.mem_filter.1 hr).1, onComps_filter, ← hrsp]
        rw [this]

end

end Verif.Props
