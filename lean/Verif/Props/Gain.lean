import Verif.Props.MapHeap
import Verif.Spec.Gain

/-!
# C137: receiver functions do not depend on the gain of a record
-/

set_option linter.unusedSimpArgs false
set_option linter.unusedSectionVars false

namespace Verif.Props
open Verif.Py Verif.Model Verif.Spec

section base
variable {K : Type} [Field K]

theorem gain_one (t : Trace K) : gain 1 t = t := by
  unfold gain
  simp

theorem gain_npts (c : K) (t : Trace K) : (gain c t).npts = t.npts := by
  unfold gain Trace.npts; simp

theorem gain_times (c : K) (t : Trace K) : times (gain c t) = times t := by
  unfold times
  rw [gain_npts]
  rfl

theorem gain_endtime (c : K) (t : Trace K) : (gain c t).endtime = t.endtime := by
  unfold gain Trace.endtime Trace.delta
  simp

theorem gain_inj (c : K) (hc : c ≠ 0) (t t' : Trace K) : gain c t = gain c t' ↔ t = t' := by
  constructor
  · intro h
    unfold gain at h
    cases t; cases t'
    simp only [Trace.mk.injEq] at h ⊢
    obtain ⟨h1, h2, h3, h4, h5, h6, h7, h8⟩ := h
    refine ⟨h1, h2, h3, h4, h5, h6, ?_, h8⟩
    exact List.map_injective_iff.2 (fun x y hxy => mul_left_cancel₀ hc hxy) h7
  · rintro rfl; rfl

theorem gainH_eq (c : Nat → K) : gainH c = mapH (fun r => gain (c r)) := rfl

theorem gainH_set (c : Nat → K) (h : Heap K) (r : Nat) (t : Trace K) :
    (gainH c h).set r (gain (c r) t) = gainH c (h.set r t) := by
  rw [gainH_eq, mapH_set]

/-- A trace that gets the same value in both heaps has gain 1 afterwards. -/
theorem gainH_set_one (c : Nat → K) (h : Heap K) (r : Nat) (t : Trace K) :
    (gainH c h).set r t = gainH (fun q => if q = r then 1 else c q) (h.set r t) := by
  funext q
  unfold gainH
  by_cases e : q = r
  · subst e; simp only [Heap.set_self, if_true, gain_one]
  · rw [Heap.set_ne _ _ e, Heap.set_ne _ _ e]; simp only [if_neg e]

theorem gain_addInfo (c : K) (info : Str) (t : Trace K) :
    addInfo info (gain c t) = (addInfo info t).map (gain c) := by
  unfold addInfo
  show (match t.ext.get "processing" with
    | none => .ok ((gain c t).put "processing" (.list [info]))
    | some (.list l) =>
      .ok (if l.length < maxProcessing then (gain c t).put "processing" (.list (l ++ [info])) else gain c t)
    | some _ => .error .attributeError : Res (Trace K)) = _
  cases t.ext.get "processing" with
  | none => rfl
  | some v =>
    cases v with
    | list l =>
      simp only
      split <;> rfl
    | _ => rfl

theorem selectComps_gain (c : Nat → K) (h : Heap K) (cs : Str) (s : List Nat) :
    selectComps (gainH c h) cs s = selectComps h cs s := by
  induction s with
  | nil => rfl
  | cons a s ih =>
    unfold selectComps
    rw [ih]
    rfl

theorem indexOf?_gain [DecidableEq K] (c : Nat → K) (k : K) (hk : k ≠ 0) (h : Heap K) (src : Nat)
    (rsp : List Nat) (hsrc : c src = k) (hs : ∀ r ∈ rsp, c r = k) :
    indexOf? (gainH c h) src rsp = indexOf? h src rsp := by
  unfold indexOf?
  induction rsp with
  | nil => rfl
  | cons a s ih =>
    rw [List.findIdx?_cons, List.findIdx?_cons, ih (fun r hr => hs r (List.mem_cons_of_mem _ hr))]
    have e : (gainH c h a = gainH c h src) ↔ h a = h src := by
      unfold gainH
      rw [hsrc, hs a List.mem_cons_self]
      exact gain_inj k hk _ _
    simp only [e]

/-- The results of a kernel are written to traces whose data were multiplied before. -/
theorem writeBack_gain (c : Nat → K) (h : Heap K) (rs : List Nat) (fs : List (Trace K → Trace K))
    (hf : ∀ f ∈ fs, ∀ k t, f (gain k t) = f t) :
    ∃ c' : Nat → K, (∀ r, c' r = c r ∨ c' r = 1) ∧ (∀ r, r ∉ rs → c' r = c r) ∧
      writeBack (gainH c h) rs fs = (gainH c' (writeBack h rs fs).1, (writeBack h rs fs).2) ∧
      ((writeBack h rs fs).2 = none → ∀ r ∈ rs, c' r = 1) := by
  induction rs generalizing c h fs with
  | nil => exact ⟨c, fun r => .inl rfl, fun r _ => rfl, rfl, fun _ r hr => by simp at hr⟩
  | cons a rs ih =>
    cases fs with
    | nil => exact ⟨c, fun r => .inl rfl, fun r _ => rfl, rfl, fun h => by simp [writeBack] at h⟩
    | cons f fs =>
      have e : (gainH c h).set a (f (gainH c h a))
          = gainH (fun q => if q = a then 1 else c q) (h.set a (f (h a))) := by
        rw [show f (gainH c h a) = f (h a) from hf f List.mem_cons_self _ _, gainH_set_one]
      obtain ⟨c', h1, h2, h3, h4⟩ := ih (fun q => if q = a then 1 else c q) (h.set a (f (h a))) fs
        (fun f' hf' => hf f' (List.mem_cons_of_mem _ hf'))
      refine ⟨c', fun r => ?_, fun r hr => ?_, ?_, ?_⟩
      · rcases h1 r with h | h
        · split at h
          · exact .inr h
          · exact .inl h
        · exact .inr h
      · rw [List.mem_cons, not_or] at hr
        rw [h2 r hr.2]
        simp only [if_neg hr.1]
      · unfold writeBack
        rw [e]
        exact h3
      · intro hn r hr
        have hn' : (writeBack (h.set a (f (h a))) rs fs).2 = none := hn
        by_cases hm : r ∈ rs
        · exact h4 hn' r hm
        · rw [h2 r hm]
          rcases List.mem_cons.1 hr with rfl | h
          · simp
          · exact absurd h hm

/-- As `writeBack_gain`, for the end of a kernel call. -/
theorem finish_gain (c : Nat → K) (h : Heap K) (rs : List Nat) (res : Res (List (Trace K → Trace K)))
    (hf : ∀ fs, res = .ok fs → ∀ f ∈ fs, ∀ k t, f (gain k t) = f t) :
    ∃ c' : Nat → K, (∀ r, c' r = c r ∨ c' r = 1) ∧ (∀ r, r ∉ rs → c' r = c r) ∧
      finish (gainH c h) rs res = (gainH c' (finish h rs res).1, (finish h rs res).2) ∧
      ∀ l, (finish h rs res).2 = .ok l → ∀ r ∈ l, c' r = 1 := by
  cases res with
  | error e => exact ⟨c, fun r => .inl rfl, fun r _ => rfl, rfl, fun l hl => by simp [finish] at hl⟩
  | ok fs =>
    obtain ⟨c', h1, h2, h3, h4⟩ := writeBack_gain c h rs fs (hf fs rfl)
    refine ⟨c', h1, h2, ?_, ?_⟩
    · unfold finish
      simp only
      rw [h3]
      cases writeBack h rs fs with
      | mk h' oe => cases oe <;> rfl
    · intro l hl r hr
      unfold finish at hl
      simp only at hl
      revert h4 hl
      cases writeBack h rs fs with
      | mk h' oe =>
        intro h4 hl
        cases oe with
        | some e => simp at hl
        | none =>
          simp only [Except.ok.injEq] at hl
          subst hl
          exact h4 rfl r hr

end base

section call
variable {K : Type} [Field K] [LinearOrder K] [IsStrictOrderedRing K] [FloorRing K]

/-- What the external code and the kernels have to satisfy: cutting, tapering and the noise are homogeneous, and
the normalised results do not change if responses, source and noise are multiplied with the same positive factor
(without normalisation this does not hold for the time domain deconvolution).  For the kernels of rf it is proved in
`C137_kernels`. -/
structure GainKernels (dec : DeconvEnv K) : Prop where
  trimPad : ∀ c, 0 < c → ∀ t a b, dec.trimPad (gain c t) a b = gain c (dec.trimPad t a b)
  taper : ∀ c, 0 < c → ∀ t a, dec.taper (gain c t) a = gain c (dec.taper t a)
  noise : ∀ (c : Nat → K) (k : K) (h : Heap K) (s rsp : List Nat) (rc : Option Str), 0 < k →
    (∀ r ∈ s, c r = k) → (∀ r ∈ rsp, r ∈ s) → dec.noise (gainH c h) s rsp rc = (dec.noise h s rsp rc).map (gainL k)
  time : ∀ c, 0 < c → ∀ rd src sh n, n ≠ some .none →
    dec.time (gainL c rd) (src.map (fun (v : K) => c * v)) sh n = dec.time rd src sh n
  water : ∀ c, 0 < c → ∀ rd src sr ts n,
    dec.water (gainL c rd) (src.map (fun (v : K) => c * v)) sr ts n = dec.water rd src sr ts n
  iter : ∀ c, 0 < c → ∀ rd src sr ts n,
    dec.iter (gainL c rd) (src.map (fun (v : K) => c * v)) sr ts n = dec.iter rd src sr ts n
  mt : ∀ c, 0 < c → ∀ rd src nse sr ts n,
    dec.mt (gainL c rd) (src.map (fun (v : K) => c * v)) (gainL c nse) sr ts n = dec.mt rd src nse sr ts n

theorem deconvSelect_gain (c : Nat → K) (k : K) (hk : 0 < k) (h : Heap K) (s : List Nat)
    (hc : ∀ r ∈ s, c r = k) (a : DeconvArgs K) :
    deconvSelect (gainH c h) s a = deconvSelect h s a := by
  unfold deconvSelect
  cases deconvMethod a.method with
  | none => rfl
  | some m' =>
    simp only
    rw [selectComps_gain]
    have hr : selectRsp (gainH c h) a.rspComps s = selectRsp h a.rspComps s := by
      unfold selectRsp
      cases a.rspComps with
      | none => rfl
      | some cs => exact selectComps_gain c h cs s
    rw [hr]
    cases hsel : selectComps h a.srcComps s with
    | error e => rfl
    | ok l =>
      match l, hsel with
      | [], _ => rfl
      | [x], hsel =>
        simp only
        cases hr' : selectRsp h a.rspComps s with
        | error e => rfl
        | ok rsp =>
          simp only
          have : normKw (gainH c h) a.normalize x rsp = normKw h a.normalize x rsp := by
            unfold normKw
            cases a.normalize with
            | some n => rfl
            | none =>
              simp only
              rw [indexOf?_gain c k hk.ne' h x rsp
                (hc x ((mem_selectComps h a.srcComps s _ hsel x).1 (by simp)).1)
                (fun r hr => hc r (selectRsp_sub h a.rspComps s _ hr' r hr))]
          rw [this]
      | _ :: _ :: _, _ => rfl

theorem deconvSelect_norm (h : Heap K) (s : List Nat) (a : DeconvArgs K) (m : DMethod) (src : Nat)
    (rsp : List Nat) (nrm : Option Norm) (hsel : deconvSelect h s a = .ok (m, src, rsp, nrm))
    (hn : a.normalize ≠ some .none) : nrm ≠ some .none := by
  obtain ⟨-, -, -, -, -, hx⟩ := deconvSelect_ok h s a m src rsp nrm hsel
  rw [hx]
  unfold normKw
  cases ha : a.normalize with
  | some n => rw [ha] at hn; exact hn
  | none =>
    simp only
    cases indexOf? h src rsp <;> simp

theorem deconvMethod_time {x : Str} (h : deconvMethod x = some .time) : x = "time".toList := by
  by_contra hne
  unfold deconvMethod at h
  rw [if_neg hne] at h
  split at h
  · cases h
  · split at h
    · cases h
    · split at h
      · cases h
      · split at h
        · cases h
        · split at h <;> cases h

theorem data_gain (c : Nat → K) (k : K) (h : Heap K) (rsp : List Nat) (hc : ∀ r ∈ rsp, c r = k) :
    rsp.map (fun r => (gainH c h r).data) = gainL k (rsp.map (fun r => (h r).data)) := by
  unfold gainL gainH gain
  rw [List.map_map]
  exact List.map_congr_left (fun r hr => by rw [hc r hr]; rfl)

theorem runKernel_gain (dec : DeconvEnv K) (hk : GainKernels dec) (m : DMethod) (hm : m ≠ .func)
    (c : Nat → K) (k : K) (hk0 : 0 < k) (h : Heap K) (s rsp : List Nat) (hc : ∀ r ∈ s, c r = k)
    (hs : ∀ r ∈ rsp, r ∈ s) (rc : Option Str) (srcT : Trace K) (sr ts : K) (nrm : Option Norm)
    (hn : m = .time → nrm ≠ some .none) :
    ∃ c' : Nat → K, (∀ r, c' r = c r ∨ c' r = 1) ∧ (∀ r, r ∉ rsp → c' r = c r) ∧
      runKernel dec m (gainH c h) s rsp rc (gain k srcT) sr ts nrm
        = (gainH c' (runKernel dec m h s rsp rc srcT sr ts nrm).1, (runKernel dec m h s rsp rc srcT sr ts nrm).2) ∧
      ∀ l, (runKernel dec m h s rsp rc srcT sr ts nrm).2 = .ok l → ∀ r ∈ l, c' r = 1 := by
  have hrd := data_gain c k h rsp (fun r hr => hc r (hs r hr))
  have hset : ∀ (x : Res (List (List K))) (fs : List (Trace K → Trace K)),
      x.map (·.map setData) = .ok fs → ∀ f ∈ fs, ∀ q t, f (gain q t) = f t := by
    intro x fs hx f hf q t
    cases x with
    | error e => cases hx
    | ok l =>
      simp only [Except.map, Except.ok.injEq] at hx
      subst hx
      obtain ⟨d, -, rfl⟩ := List.mem_map.1 hf
      rfl
  unfold runKernel
  simp only [hrd]
  have hd : (gain k srcT).data = srcT.data.map (fun (v : K) => k * v) := rfl
  cases m with
  | func => exact absurd rfl hm
  | time =>
    simp only
    rw [hd, gain_npts, hk.time k hk0 _ _ _ _ (hn rfl)]
    exact finish_gain c h rsp _ (hset _)
  | waterlevel =>
    simp only
    rw [hd, hk.water k hk0]
    exact finish_gain c h rsp _ (hset _)
  | iterative =>
    simp only
    rw [hd, hk.iter k hk0]
    refine finish_gain c h rsp _ ?_
    intro fs hx f hf q t
    cases hx' : dec.iter (rsp.map fun r => (h r).data) srcT.data sr ts nrm with
    | error e => rw [hx'] at hx; cases hx
    | ok l =>
      rw [hx'] at hx
      simp only [Except.map, Except.ok.injEq] at hx
      subst hx
      obtain ⟨d, -, rfl⟩ := List.mem_map.1 hf
      rfl
  | multitaper =>
    simp only
    have hb : ((dec.noise (gainH c h) s rsp rc).bind fun nse => dec.mt (gainL k (rsp.map fun r => (h r).data))
        (gain k srcT).data nse sr (-ts) nrm) =
        (dec.noise h s rsp rc).bind fun nse => dec.mt (rsp.map fun r => (h r).data) srcT.data nse sr (-ts) nrm := by
      rw [hd, hk.noise c k h s rsp rc hk0 hc hs]
      cases dec.noise h s rsp rc with
      | error e => rfl
      | ok nse => exact hk.mt k hk0 _ _ _ _ _ _
    rw [hb]
    exact finish_gain c h rsp _ (hset _)

/-- `deconvolve` on a record multiplied with one factor: same outcome, same results. -/
theorem deconvolve_gain (dec : DeconvEnv K) (hk : GainKernels dec) (a : DeconvArgs K)
    (hm : a.method ≠ "func".toList) (hn : a.method = "time".toList → a.normalize ≠ some .none)
    (c : Nat → K) (k : K) (hk0 : 0 < k) (h : Heap K) (s : List Nat) (hc : ∀ r ∈ s, c r = k) :
    ∃ c' : Nat → K, (∀ r, c' r = c r ∨ c' r = 1) ∧ (∀ r, r ∉ s → c' r = c r) ∧
      deconvolve dec (gainH c h) s a = (gainH c' (deconvolve dec h s a).1, (deconvolve dec h s a).2) ∧
      ∀ l, (deconvolve dec h s a).2 = .ok l → ∀ r ∈ l, c' r = 1 := by
  unfold deconvolve
  rw [deconvSelect_gain c k hk0 h s hc a]
  cases hsel : deconvSelect h s a with
  | error e => exact ⟨c, fun r => .inl rfl, fun r _ => rfl, rfl, fun l hl => by cases hl⟩
  | ok q =>
    obtain ⟨m, src, rsp, nrm⟩ := q
    obtain ⟨hsrc, hrsp⟩ := deconvSelect_sub h s a m src rsp nrm hsel
    have hmf := deconvSelect_builtin h s a hm m src rsp nrm hsel
    have hnn : m = .time → nrm ≠ some .none := by
      rintro rfl
      refine deconvSelect_norm h s a _ src rsp nrm hsel (hn ?_)
      have := (deconvSelect_ok h s a _ src rsp nrm hsel).1
      exact deconvMethod_time this
    simp only
    have e1 : (gainH c h src).getTime "onset" = (h src).getTime "onset" := rfl
    have e2 : (gainH c h src).start = (h src).start := rfl
    have e3 : (gainH c h src).delta = (h src).delta := rfl
    have e4 : times (gainH c h src) = times (h src) := gain_times _ _
    have e5 : (gainH c h src).endtime = (h src).endtime := gain_endtime _ _
    have e6 : (gainH c h src).sr = (h src).sr := rfl
    rw [e1, e2, e3, e4, e5, e6]
    cases (h src).getTime "onset" with
    | none => exact ⟨c, fun r => .inl rfl, fun r _ => rfl, rfl, fun l hl => by cases hl⟩
    | some o =>
      simp only
      cases findNearest (times (h src)) (o - (h src).start) with
      | error e => exact ⟨c, fun r => .inl rfl, fun r _ => rfl, rfl, fun l hl => by cases hl⟩
      | ok idx =>
        simp only
        set on := (h src).start + (idx : K) * (h src).delta with hon
        have hB : Heap.forEach (fun t => t.put "onset" (.time on))
              ((gainH c h).set src ((gainH c h src).put "onset" (.time on))) rsp
            = gainH c (Heap.forEach (fun t => t.put "onset" (.time on))
              (h.set src ((h src).put "onset" (.time on))) rsp) := by
          rw [show (gainH c h src).put "onset" (.time on) = gain (c src) ((h src).put "onset" (.time on)) from rfl,
            gainH_set]
          exact forEach_mapH (fun r => gain (c r)) _ (fun r t => rfl) _ _
        rw [hB]
        set h1 := Heap.forEach (fun t => t.put "onset" (.time on)) (h.set src ((h src).put "onset" (.time on))) rsp
        cases sourceWindow m a.winsrc ((h src).endtime - (h src).start) (on - (h src).start) with
        | error e => exact ⟨c, fun r => .inl rfl, fun r _ => rfl, rfl, fun l hl => by cases hl⟩
        | ok w =>
          obtain ⟨w0, w1, w2⟩ := w
          simp only
          rw [indexOf?_gain c k hk0.ne' h1 src rsp (hc src hsrc) (fun r hr => hc r (hrsp r hr))]
          have hT : dec.taper (dec.trimPad (gainH c h1 src) (on + w0) (on + w1)) w2
              = gain k (dec.taper (dec.trimPad (h1 src) (on + w0) (on + w1)) w2) := by
            rw [show gainH c h1 src = gain k (h1 src) from by unfold gainH; rw [hc src hsrc],
              hk.trimPad k hk0, hk.taper k hk0]
          rw [hT]
          have hH : (if (indexOf? h1 src rsp).isSome = true then gainH c h1 else
              (gainH c h1).set src (gain k (dec.taper (dec.trimPad (h1 src) (on + w0) (on + w1)) w2)))
              = gainH c (if (indexOf? h1 src rsp).isSome = true then h1 else
                h1.set src (dec.taper (dec.trimPad (h1 src) (on + w0) (on + w1)) w2)) := by
            split
            · rfl
            · rw [← gainH_set, hc src hsrc]
          rw [hH]
          obtain ⟨c', a1, a2, a3, a4⟩ := runKernel_gain dec hk m hmf c k hk0 (if (indexOf? h1 src rsp).isSome = true
            then h1 else h1.set src (dec.taper (dec.trimPad (h1 src) (on + w0) (on + w1)) w2)) s rsp hc hrsp
            a.rspComps (dec.taper (dec.trimPad (h1 src) (on + w0) (on + w1)) w2) (h src).sr (-w0) nrm hnn
          exact ⟨c', a1, fun r hr => a2 r (fun hin => hr (hrsp r hin)), a3, a4⟩

end call

end Verif.Props
