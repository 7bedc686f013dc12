import Verif.Spec.Pipeline
import Verif.Props.RecoverRf
import Verif.Props.ReturnsRf
import Verif.Props.CoherentStack
import Verif.Props.Stream
import Verif.Props.FailRf
import Verif.Props.Profile

/-!
# From seismograms to the stack: rf, move out correction, stack (C165)
-/

set_option linter.unusedSimpArgs false
set_option linter.unusedSectionVars false

namespace Verif.Props
open Verif.Py Verif.Model Verif.Model.Simple Verif.Spec

section general
variable {K : Type} [Field K] [LinearOrder K] [IsStrictOrderedRing K] [FloorRing K]

/-- Two samples whose times differ by one sampling interval are neighbours. -/
theorem neighbours (t : Trace K) (hsr : 0 < t.sr) (o a : K) (k k2 : ℕ) (h1 : t.start + (k : K) * t.delta - o = a)
    (h2 : t.start + (k2 : K) * t.delta - o = a + t.delta) : k2 = k + 1 := by
  have hd : 0 < t.delta := by
    unfold Trace.delta
    positivity
  have : (k2 : K) * t.delta = ((k + 1 : ℕ) : K) * t.delta := by
    push_cast
    linarith
  exact_mod_cast mul_right_cancel₀ hd.ne' this

/-- A receiver function which shows a conversion records it. -/
theorem shows_records (m : Str) (t0 t : Trace K) (onset o' s : K) (x : List K) (delay : K → ℕ → K)
    (layers : List (Layer K)) (ref : K) (j k' : ℕ) (lo hi : K) (hshow : ShowsAt m t0 onset x t)
    (hsr : 0 < t.sr) (hon : t.getTime "onset" = some o') (hslow : t.getNum "slowness" = some s)
    (hprop : Propagates layers s) (hlast : delay s j < delay s (layers.length - 1))
    (hδ : t.delta ≤ delay s (min 9 (layers.length - 1))) (hk' : k' < t.data.length)
    (hkt' : t.start + (k' : K) / t.sr - o' = delay ref j)
    (hc : Conversion m t0 onset x (delay s j) t.delta lo hi) : Records delay layers ref j k' lo hi t := by
  obtain ⟨o, ho, hlen, hsamp⟩ := hshow
  rw [ho, Option.some.injEq] at hon
  subst hon
  obtain ⟨i, i', v, v', hv, hv', b1, b2, b3, b4, c1, c2, c3, c4⟩ := hc
  obtain ⟨k, d1, d2⟩ := hsamp i v hv
  obtain ⟨k2, d3, d4⟩ := hsamp i' v' hv'
  rw [c4] at d4
  have hk2 := neighbours t hsr o _ k k2 d2 d4
  subst hk2
  have e : ∀ n : ℕ, (n : K) * t.delta = (n : K) / t.sr := fun n => by
    unfold Trace.delta
    ring
  rw [e] at d2 d4
  have hl2 := (List.getElem?_eq_some_iff.1 d3).1
  refine ⟨hsr, o, s, k, ho, hslow, hprop, hlast, hδ, hl2, hk', ?_, ?_, ?_, hkt', ?_, ?_⟩
  · rw [d2]; exact c1
  · rw [d2]; exact c2
  · rw [d4, ← c4]; exact c3
  · rw [List.getD_eq_getElem?_getD, d1]; exact ⟨b1, b2⟩
  · rw [List.getD_eq_getElem?_getD, d3]; exact ⟨b3, b4⟩

variable (sqrt : K → K) (find : List K → K → Nat)

/-- The amplitude of a recorded conversion after the move out correction, for the default phases `Ps` and `Sp`. -/
theorem moved_amplitude (hf : FindSpec find) (hs : SqrtStrict sqrt)
    (nanCase : Trace K → Res (List K)) (mo mo' : SimpleModel K) (layers : List (Layer K))
    (hvp : mo.vp = layers.map Layer.vp) (hvs : mo.vs = layers.map Layer.vs)
    (hdz : mo.dz = layers.map Layer.dz) (hfresh : mo.tRef = []) (ref : K) (info : Str) (phase : Option Str) (ph : Str)
    (hph : ph = "Ps".toList ∨ ph = "Sp".toList) (hpropr : Propagates layers ref)
    (hv : ∀ l ∈ layers, 0 < l.vs ∧ l.vs < l.vp ∧ 0 ≤ l.dz)
    (st st' : SState K) (hn : st.2.Nodup) (hphase : moveoutPhase st.1 st.2 phase = .ok ph)
    (hok : streamMoveout sqrt find nanCase info phase ref mo st = (mo', st', none))
    (j : Nat) (hj : j < layers.length) (k' : Nat) (lo hi : K) (r : ℕ) (hr : r ∈ st.2)
    (hrec : Records (fun x k => delaySpec sqrt 1 1 true layers x k) layers ref j k' lo hi (st.1 r)) :
    k' < (st'.1 r).data.length ∧ lo ≤ (st'.1 r).data.getD k' 0 ∧ (st'.1 r).data.getD k' 0 ≤ hi := by
  obtain ⟨p, hp, heach⟩ := C118_each_trace sqrt find nanCase info phase ref mo mo' hfresh st st' hn hok
  rw [hphase, Except.ok.injEq] at hp
  subst hp
  obtain ⟨hsr, onset, s, k, hon, hslow, hprop, hlast, hδ, hk, hk', hkpos, hkt, hkt1, hkt', ha, hb⟩ := hrec
  obtain ⟨tr', hstep, hdata⟩ := heach r hr
  have hstep' : (moveoutStep sqrt find nanCase "Ps".toList ref mo (st.1 r)).2 = .ok tr' := by
    rcases hph with rfl | rfl
    · exact hstep
    · rw [← C36_sp_is_ps sqrt find mo layers hvp hvs hdz hfresh s ref hprop hpropr nanCase (st.1 r) hslow]
      exact hstep
  obtain ⟨w, w0, w1, hw⟩ := C157_between_samples sqrt find hf hs nanCase mo layers hvp hvs hdz hfresh s ref "Ps".toList
    (by decide) (by decide) (by decide) (by decide) hprop hpropr hv (st.1 r) tr' onset hsr hon hslow hstep' j hj _ rfl
    hlast hδ k k' hk hk' hkpos hkt hkt1 hkt'
  rw [← hdata] at hw
  obtain ⟨hl, he⟩ := List.getElem?_eq_some_iff.1 hw
  refine ⟨hl, ?_⟩
  rw [List.getD_eq_getElem _ _ hl, he]
  exact convex_bounds w _ _ lo hi w0 w1 ha hb

/-- Coherent stacking for the default phases `Ps` and `Sp`. -/
theorem C165_stack (hf : FindSpec find) (hs : SqrtStrict sqrt)
    (nanCase : Trace K → Res (List K)) (mo mo' : SimpleModel K) (layers : List (Layer K))
    (hvp : mo.vp = layers.map Layer.vp) (hvs : mo.vs = layers.map Layer.vs)
    (hdz : mo.dz = layers.map Layer.dz) (hfresh : mo.tRef = []) (ref : K) (info : Str) (phase : Option Str) (ph : Str)
    (hph : ph = "Ps".toList ∨ ph = "Sp".toList) (hpropr : Propagates layers ref)
    (hv : ∀ l ∈ layers, 0 < l.vs ∧ l.vs < l.vp ∧ 0 ≤ l.dz)
    (st st' : SState K) (hn : st.2.Nodup) (hphase : moveoutPhase st.1 st.2 phase = .ok ph)
    (hok : streamMoveout sqrt find nanCase info phase ref mo st = (mo', st', none))
    (order : List Str → List Str) (out : List (Trace K)) (hstack : stack order st'.1 st'.2 = .ok out)
    (t : Trace K) (ht : t ∈ out) (j : Nat) (hj : j < layers.length) (k' : Nat) (lo hi : K)
    (hrec : ∀ r ∈ st.2, (st.1 r).id = t.id →
      Records (fun x k => delaySpec sqrt 1 1 true layers x k) layers ref j k' lo hi (st.1 r)) :
    k' < t.data.length ∧ lo ≤ t.data.getD k' 0 ∧ t.data.getD k' 0 ≤ hi := by
  obtain ⟨hrefs, -⟩ := C40_bookkeeping sqrt find nanCase info phase ref mo mo' st st' hn hok
  have hids := stream_id sqrt find nanCase info phase ref mo mo' hfresh st st' hn hok
  obtain ⟨⟨r0, hr0, hid0⟩, hlen, hmean, -⟩ := C47_mean order st'.1 st'.2 out hstack t ht
  rw [hrefs] at hr0 hlen hmean
  have key : ∀ r ∈ st.2, (st.1 r).id = t.id → k' < (st'.1 r).data.length ∧
      lo ≤ (st'.1 r).data.getD k' 0 ∧ (st'.1 r).data.getD k' 0 ≤ hi := fun r hr hid =>
    moved_amplitude sqrt find hf hs nanCase mo mo' layers hvp hvs hdz hfresh ref info phase ph hph hpropr hv st st' hn hphase
      hok j hj k' lo hi r hr (hrec r hr hid)
  have hk0 : k' < t.data.length := by
    rw [← hlen r0 hr0 hid0]
    exact (key r0 hr0 (by rw [← hids r0 hr0]; exact hid0)).1
  refine ⟨hk0, ?_⟩
  rw [hmean k' hk0]
  apply meanAt_bounds
  · intro hcon
    rw [List.map_eq_nil_iff, List.filter_eq_nil_iff] at hcon
    exact hcon r0 hr0 (by simpa using hid0)
  · intro d hd
    obtain ⟨r, hr, rfl⟩ := List.mem_map.1 hd
    obtain ⟨hr1, hr2⟩ := List.mem_filter.1 hr
    exact (key r hr1 (by rw [← hids r hr1]; simpa using hr2)).2

/-- Coherent profiles for the default phases `Ps` and `Sp`. -/
theorem C167_bin (hf : FindSpec find) (hs : SqrtStrict sqrt)
    (nanCase : Trace K → Res (List K)) (mo mo' : SimpleModel K) (layers : List (Layer K))
    (hvp : mo.vp = layers.map Layer.vp) (hvs : mo.vs = layers.map Layer.vs)
    (hdz : mo.dz = layers.map Layer.dz) (hfresh : mo.tRef = []) (ref : K) (info : Str) (phase : Option Str) (ph : Str)
    (hph : ph = "Ps".toList ∨ ph = "Sp".toList) (hpropr : Propagates layers ref)
    (hv : ∀ l ∈ layers, 0 < l.vs ∧ l.vs < l.vp ∧ 0 ≤ l.dz)
    (st st' : SState K) (hn : st.2.Nodup) (hphase : moveoutPhase st.1 st.2 phase = .ok ph)
    (hok : streamMoveout sqrt find nanCase info phase ref mo st = (mo', st', none))
    (within : K × K → List (K × K) → Bool) (boxes : List (Profile.Box K)) (crs : Bool) (next : ℕ)
    (hnext : ∀ r ∈ st.2, r < next) (h3 : Heap K) (l : List ℕ)
    (hprof : Profile.profile within boxes crs st'.1 st'.2 next = .ok (h3, l)) (q : ℕ) (hq : q ∈ l) (b : K × Char)
    (hb : HasBin (h3 q) b) (n : ℕ) (j : Nat) (hj : j < layers.length) (k' : Nat) (lo hi : K)
    (hrec : ∀ r ∈ st.2, binOf (boxSets within boxes) (st.1 r) = some b → (st'.1 r).data.length = n ∧
      Records (fun x k => delaySpec sqrt 1 1 true layers x k) layers ref j k' lo hi (st.1 r)) :
    k' < (h3 q).data.length ∧ lo ≤ (h3 q).data.getD k' 0 ∧ (h3 q).data.getD k' 0 ≤ hi := by
  obtain ⟨hrefs, p, -, hbook⟩ := C40_bookkeeping sqrt find nanCase info phase ref mo mo' st st' hn hok
  rw [hrefs] at hprof
  have hbin : ∀ r ∈ st.2, binOf (boxSets within boxes) (st'.1 r) = binOf (boxSets within boxes) (st.1 r) := by
    intro r hr
    obtain ⟨⟨-, -, -, h4⟩, -⟩ := stream_times sqrt find nanCase info phase ref mo mo' hfresh st st' hn hok r hr
    have h5 := (hbook r hr).2.2.2.2
    unfold binOf Trace.getNum
    rw [h4, h5 "pp_latitude" (by decide), h5 "pp_longitude" (by decide)]
  have hmem : ∀ r ∈ binMembers (boxSets within boxes) st'.1 st.2 b, r ∈ st.2 ∧
      binOf (boxSets within boxes) (st.1 r) = some b := by
    intro r hr
    obtain ⟨m1, m2⟩ := List.mem_filter.1 hr
    exact ⟨m1, by rw [← hbin r m1]; simpa using m2⟩
  have key : ∀ r ∈ binMembers (boxSets within boxes) st'.1 st.2 b, k' < (st'.1 r).data.length ∧
      lo ≤ (st'.1 r).data.getD k' 0 ∧ (st'.1 r).data.getD k' 0 ≤ hi := by
    intro r hr
    obtain ⟨m1, m2⟩ := hmem r hr
    exact moved_amplitude sqrt find hf hs nanCase mo mo' layers hvp hvs hdz hfresh ref info phase ph hph hpropr hv st st' hn
      hphase hok j hj k' lo hi r m1 (hrec r m1 m2).2
  obtain ⟨r0, hr0, hr0b⟩ : ∃ r0 ∈ st.2, binOf (boxSets within boxes) (st'.1 r0) = some b := by
    obtain ⟨b', hb', r0, g1, g2⟩ := (C50_one_per_bin within boxes crs st'.1 h3 st.2 l next hnext hprof).2.2 q hq
    rw [hb.unique hb']
    exact ⟨r0, g1, g2⟩
  have hr0m : r0 ∈ binMembers (boxSets within boxes) st'.1 st.2 b := List.mem_filter.2 ⟨hr0, by simpa using hr0b⟩
  obtain ⟨hlen, hmean⟩ := (C50_mean within boxes crs st'.1 h3 st.2 l next hnext hprof q hq b hb).2 n
    (fun r hr => (hrec r (hmem r hr).1 (hmem r hr).2).1)
  have hk0 : k' < n := by
    rw [← (hrec r0 hr0 (hmem r0 hr0m).2).1]
    exact (key r0 hr0m).1
  refine ⟨by rw [hlen]; exact hk0, ?_⟩
  rw [hmean k' hk0]
  apply meanAt_bounds
  · intro hcon
    rw [List.map_eq_nil_iff] at hcon
    rw [hcon] at hr0m
    simp at hr0m
  · intro d hd
    obtain ⟨r, hr, rfl⟩ := List.mem_map.1 hd
    exact (key r hr).2

end general

section pipeline

/-- What a prepared record has to look like for trace `r`: two or three traces of `N` samples, and trace `r` consists of
copies of the cut source whose amplitudes belong to a conversion at the bottom of layer `j`.  The header of the receiver
function `t'` gives slowness and onset; its sample `k'` is at the delay time for the reference slowness. -/
def SeenBy (env : RfEnv ℝ) (ka : KernelArgs) (dec : DeconvEnv ℝ) (src : Str) (m : Str) (w0 w1 w2 : ℝ) (h1 : Heap ℝ)
    (s1 : List ℕ) (layers : List (Layer ℝ)) (ref : ℝ) (j k' N : ℕ) (lo hi : ℝ) (r : ℕ) (t' : Trace ℝ) : Prop :=
  0 < t'.sr ∧ k' < N ∧ N ≤ ka.nfft.getD (ka.fastLen N) ∧ ∃ (p : ℕ → Bool) (s o' : ℝ),
    (∀ q ∈ s1, p q = true ↔ SameRecord env.timeStr h1 q r) ∧
    ((s1.filter p).length = 2 ∨ (s1.filter p).length = 3) ∧ (∀ q ∈ s1.filter p, (h1 q).data.length = N) ∧
    t'.getTime "onset" = some o' ∧ t'.getNum "slowness" = some s ∧ Propagates layers s ∧
    delaySpec Real.sqrt 1 1 true layers s j < delaySpec Real.sqrt 1 1 true layers s (layers.length - 1) ∧
    t'.delta ≤ delaySpec Real.sqrt 1 1 true layers s (min 9 (layers.length - 1)) ∧
    t'.start + (k' : ℝ) / t'.sr - o' = delaySpec Real.sqrt 1 1 true layers ref j ∧
    ∀ z ∈ s1.filter p, OfComp src (h1 z) → 0 < (h1 z).sr ∧ ∀ (onset : ℝ) (T : Trace ℝ), T.data = (h1 z).data →
      T.start = (h1 z).start → T.sr = (h1 z).sr → SnappedOnset (h1 z) onset →
      ∃ k : ℤ, -w0 * (h1 z).sr = k ∧
        AboveLevel (ka.nfft.getD (ka.fastLen N)) (dec.taper (dec.trimPad T (onset + w0) (onset + w1)) w2).data
          ka.waterlevel ∧
        ∃ x, CopiesOf k N (dec.taper (dec.trimPad T (onset + w0) (onset + w1)) w2).data x (h1 r).data ∧
          Conversion m (h1 r) onset x (delaySpec Real.sqrt 1 1 true layers s j) t'.delta lo hi

/-- What `rf(deconvolve='waterlevel')` gives: a stream of the method with recorded conversions. -/
theorem rf_records (env : RfEnv ℝ) (ka : KernelArgs) (dec : DeconvEnv ℝ) (henv : env.dec = withKernels ka dec)
    (a : RfArgs ℝ) (d : Str) (hd : a.deconvolve = some d) (hm : d = "waterlevel".toList ∨ d = "freq".toList)
    (hrsp : a.rspComps = none) (w0 w1 w2 : ℝ) (hwin : a.winsrc = some (.tuple w0 w1 w2))
    (hnorm : a.normalize = some .none) (hg : ka.gaussW = none) (hl : ka.lengthW = none)
    (hnoise : NoiseLocal env.dec) (h h1 h' : Heap ℝ) (s s1 s' : List ℕ) (hn : s.Nodup)
    (m : Str) (hPS : m = "P".toList ∨ m = "S".toList)
    (hmeth : a.method = some m ∨ a.method = none ∧ streamMethod h s = .ok (some m))
    (hprep : (rfPrep env a (h, s)).andThen qStage = ((h1, s1), none))
    (hrf : rf env a (h, s) = ((h', s'), none)) (hne : s' ≠ []) (layers : List (Layer ℝ)) (ref : ℝ) :
    s'.Nodup ∧ streamMethod h' s' = .ok (some m) ∧ ∀ (j k' N : ℕ) (lo hi : ℝ) (r : ℕ), r ∈ s' →
      SeenBy env ka dec (rfSource a m) m w0 w1 w2 h1 s1 layers ref j k' N lo hi r (h' r) →
      Records (fun x k => delaySpec Real.sqrt 1 1 true layers x k) layers ref j k' lo hi (h' r) := by
  have hsub := (C46_membership env a (h, s)).1
  rw [hrf] at hsub
  have hn' : s'.Nodup := hsub.nodup hn
  obtain ⟨m0, h0, hm0, hq0, hshow⟩ := C146_waterlevel env ka dec henv a d hd hm hrsp w0 w1 w2 hwin hnorm hg hl hnoise h h' s
    s' hn hrf
  rw [hprep] at hq0
  simp only [Prod.mk.injEq, and_true] at hq0
  obtain ⟨rfl, rfl⟩ := hq0
  have hmm : m0 = m := by
    have : rfMethod h s a.method = .ok m := by
      unfold rfMethod requestedMethod
      rcases hmeth with e | ⟨e, e'⟩
      · rw [e]
        simp only
        rcases hPS with rfl | rfl <;> decide
      · rw [e]
        simp only [e']
        rcases hPS with rfl | rfl <;> decide
    rw [this] at hm0
    exact (Except.ok.inj hm0).symm
  subst hmm
  refine ⟨hn', (C44_labels env a _ _ hrf).2 m0 hPS hne hmeth, ?_⟩
  intro j k' N lo hi r hr hrec
  obtain ⟨c1, c2, c3, p, s0, o', c4, c5, c6, c7, c8, c9, c10, c11, c12, c13⟩ := hrec
  obtain ⟨z, z1, z2, onset, T, c, z3, z4, z5, z6, z7, z8, z9⟩ := hshow p r hr c4 c5 N c6 c3
  obtain ⟨y1, y2⟩ := c13 z z1 z2
  obtain ⟨k, x1, x2, x, x3, x4⟩ := y2 onset T z3 z4 z5 (z8 y1)
  have hs := z9 k x1 y1.ne' (by rw [z7]; exact x2) x (by rw [z7]; exact x3)
  refine shows_records m0 (h1 r) (h' r) onset o' s0 x _ layers ref j k' lo hi hs c1 c7 c8 c9 c10 c11 ?_ c12 x4
  obtain ⟨-, -, hlen, -⟩ := hs
  rw [hlen, x3.2.1]
  exact c2

theorem default_phase {K : Type} [Field K] [LinearOrder K] [IsStrictOrderedRing K] [FloorRing K] (h : Heap K) (s : List ℕ)
    (m : Str) (hPS : m = "P".toList ∨ m = "S".toList)
    (hsm : streamMethod h s = .ok (some m)) :
    ∃ ph, (ph = "Ps".toList ∨ ph = "Sp".toList) ∧ moveoutPhase h s none = .ok ph := by
  unfold moveoutPhase
  simp only [hsm]
  rcases hPS with rfl | rfl
  · exact ⟨_, Or.inl rfl, by decide⟩
  · exact ⟨_, Or.inr rfl, by decide⟩

/-- **C165.** The three steps `rf(deconvolve='waterlevel')`, `moveout()`, `stack()` for methods P and S.  If in every
record with the id of the stacked trace the prepared trace consists of copies of the cut source with amplitudes between
`lo` and `hi` next to the delay time for its own slowness (after the onset for P, before it for S), then the stack has an
amplitude between `lo` and `hi` in sample `k'`, which is at the delay time for the reference slowness after its onset. -/
theorem C165_pipeline (env : RfEnv ℝ) (ka : KernelArgs) (dec : DeconvEnv ℝ) (henv : env.dec = withKernels ka dec)
    (a : RfArgs ℝ) (d : Str) (hd : a.deconvolve = some d) (hm : d = "waterlevel".toList ∨ d = "freq".toList)
    (hrsp : a.rspComps = none) (w0 w1 w2 : ℝ) (hwin : a.winsrc = some (.tuple w0 w1 w2))
    (hnorm : a.normalize = some .none) (hg : ka.gaussW = none) (hl : ka.lengthW = none)
    (hnoise : NoiseLocal env.dec) (h h1 h' : Heap ℝ) (s s1 s' : List ℕ) (hn : s.Nodup)
    (m : Str) (hPS : m = "P".toList ∨ m = "S".toList)
    (hmeth : a.method = some m ∨ a.method = none ∧ streamMethod h s = .ok (some m))
    (hprep : (rfPrep env a (h, s)).andThen qStage = ((h1, s1), none))
    (hrf : rf env a (h, s) = ((h', s'), none))
    (find : List ℝ → ℝ → Nat) (hf : FindSpec find) (nanCase : Trace ℝ → Res (List ℝ)) (mo mo' : SimpleModel ℝ)
    (layers : List (Layer ℝ))
    (hvp : mo.vp = layers.map Layer.vp) (hvs : mo.vs = layers.map Layer.vs) (hdz : mo.dz = layers.map Layer.dz)
    (hfresh : mo.tRef = []) (ref : ℝ) (info : Str) (hpropr : Propagates layers ref)
    (hv : ∀ l ∈ layers, 0 < l.vs ∧ l.vs < l.vp ∧ 0 ≤ l.dz) (st' : SState ℝ)
    (hmove : streamMoveout Real.sqrt find nanCase info none ref mo (h', s') = (mo', st', none))
    (order : List Str → List Str) (out : List (Trace ℝ)) (hstack : stack order st'.1 st'.2 = .ok out)
    (t : Trace ℝ) (ht : t ∈ out) (j : ℕ) (hj : j < layers.length) (k' N : ℕ) (lo hi : ℝ)
    (hrec : ∀ r ∈ s', (h' r).id = t.id →
      SeenBy env ka dec (rfSource a m) m w0 w1 w2 h1 s1 layers ref j k' N lo hi r (h' r)) :
    (k' < t.data.length ∧ lo ≤ t.data.getD k' 0 ∧ t.data.getD k' 0 ≤ hi) ∧
    (∀ r0 o, s'.head? = some r0 → (h' r0).getTime "onset" = some o →
      (h' r0).start + (k' : ℝ) / (h' r0).sr - o = delaySpec Real.sqrt 1 1 true layers ref j →
      ∃ o', t.getTime "onset" = some o' ∧ t.start + (k' : ℝ) / t.sr - o' = delaySpec Real.sqrt 1 1 true layers ref j) := by
  have hne : s' ≠ [] := by
    rintro rfl
    obtain ⟨hrefs, -⟩ := C40_bookkeeping Real.sqrt find nanCase info none ref mo mo' _ st' (by simp) hmove
    rw [hrefs] at hstack
    simp [stack] at hstack
  obtain ⟨hn', hsm, hall⟩ := rf_records env ka dec henv a d hd hm hrsp w0 w1 w2 hwin hnorm hg hl hnoise h h1 h' s s1 s' hn m
    hPS hmeth hprep hrf hne layers ref
  obtain ⟨ph, hph, hphase⟩ := default_phase h' s' m hPS hsm
  refine ⟨C165_stack Real.sqrt find hf sqrtStrict_real nanCase mo mo' layers hvp hvs hdz hfresh ref info none ph hph hpropr hv
    (h', s') st' hn' hphase hmove order out hstack t ht j hj k' lo hi
    (fun r hr hid => hall j k' N lo hi r hr (hrec r hr hid)), ?_⟩
  intro r0 o e1 e2 e3
  exact C158_time Real.sqrt find nanCase mo mo' hfresh ref info none (h', s') st' hn' hmove order out hstack t ht k' _ r0 e1
    o e2 e3

/-- **C167.** The steps `rf(deconvolve='waterlevel')`, piercing points (before or after `rf`), `moveout()`, `profile()` for
methods P and S.  `hp` is the heap after the piercing points have been stored.  If in every record whose trace belongs to
a bin of the profile the prepared trace consists of copies of the cut source with amplitudes between `lo` and `hi` next to
the delay time for its own slowness, then the trace of the bin has an amplitude between `lo` and `hi` in the sample at the
delay time for the reference slowness. -/
theorem C167_pipeline (env : RfEnv ℝ) (ka : KernelArgs) (dec : DeconvEnv ℝ) (henv : env.dec = withKernels ka dec)
    (a : RfArgs ℝ) (d : Str) (hd : a.deconvolve = some d) (hm : d = "waterlevel".toList ∨ d = "freq".toList)
    (hrsp : a.rspComps = none) (w0 w1 w2 : ℝ) (hwin : a.winsrc = some (.tuple w0 w1 w2))
    (hnorm : a.normalize = some .none) (hg : ka.gaussW = none) (hl : ka.lengthW = none)
    (hnoise : NoiseLocal env.dec) (h h1 h' hp : Heap ℝ) (s s1 s' : List ℕ) (hn : s.Nodup)
    (m : Str) (hPS : m = "P".toList ∨ m = "S".toList)
    (hmeth : a.method = some m ∨ a.method = none ∧ streamMethod h s = .ok (some m))
    (hprep : (rfPrep env a (h, s)).andThen qStage = ((h1, s1), none))
    (hrf : rf env a (h, s) = ((h', s'), none))
    (hpp : ∀ r, EqBut ["pp_latitude", "pp_longitude", "pp_depth"] (hp r) (h' r))
    (find : List ℝ → ℝ → Nat) (hf : FindSpec find) (nanCase : Trace ℝ → Res (List ℝ)) (mo mo' : SimpleModel ℝ)
    (layers : List (Layer ℝ))
    (hvp : mo.vp = layers.map Layer.vp) (hvs : mo.vs = layers.map Layer.vs) (hdz : mo.dz = layers.map Layer.dz)
    (hfresh : mo.tRef = []) (ref : ℝ) (info : Str) (hpropr : Propagates layers ref)
    (hv : ∀ l ∈ layers, 0 < l.vs ∧ l.vs < l.vp ∧ 0 ≤ l.dz) (st' : SState ℝ)
    (hmove : streamMoveout Real.sqrt find nanCase info none ref mo (hp, s') = (mo', st', none))
    (within : ℝ × ℝ → List (ℝ × ℝ) → Bool) (boxes : List (Profile.Box ℝ)) (crs : Bool) (next : ℕ)
    (hnext : ∀ r ∈ s', r < next) (h3 : Heap ℝ) (l : List ℕ)
    (hprof : Profile.profile within boxes crs st'.1 st'.2 next = .ok (h3, l)) (q : ℕ) (hq : q ∈ l) (b : ℝ × Char)
    (hb : HasBin (h3 q) b) (n j : ℕ) (hj : j < layers.length) (k' N : ℕ) (lo hi : ℝ)
    (hrec : ∀ r ∈ s', binOf (boxSets within boxes) (hp r) = some b → (st'.1 r).data.length = n ∧
      SeenBy env ka dec (rfSource a m) m w0 w1 w2 h1 s1 layers ref j k' N lo hi r (h' r)) :
    k' < (h3 q).data.length ∧ lo ≤ (h3 q).data.getD k' 0 ∧ (h3 q).data.getD k' 0 ≤ hi := by
  have hne : s' ≠ [] := by
    rintro rfl
    obtain ⟨hrefs, -⟩ := C40_bookkeeping Real.sqrt find nanCase info none ref mo mo' _ st' (by simp) hmove
    rw [hrefs] at hprof
    obtain ⟨-, -, r0, g1, -⟩ := (C50_one_per_bin within boxes crs st'.1 h3 [] l next (by simp) hprof).2.2 q hq
    simp at g1
  obtain ⟨hn', hsm, hall⟩ := rf_records env ka dec henv a d hd hm hrsp w0 w1 w2 hwin hnorm hg hl hnoise h h1 h' s s1 s' hn m
    hPS hmeth hprep hrf hne layers ref
  have hsm' : streamMethod hp s' = .ok (some m) := by
    rw [← hsm]
    exact streamMethod_congr _ _ _ (fun r => (hpp r).ext "phase" (by decide))
  obtain ⟨ph, hph, hphase⟩ := default_phase hp s' m hPS hsm'
  refine C167_bin Real.sqrt find hf sqrtStrict_real nanCase mo mo' layers hvp hvs hdz hfresh ref info none ph hph hpropr hv
    (hp, s') st' hn' hphase hmove within boxes crs next hnext h3 l hprof q hq b hb n j hj k' lo hi
    (fun r hr hid => ⟨(hrec r hr hid).1, ?_⟩)
  have hrecs := hall j k' N lo hi r hr (hrec r hr hid).2
  have he := hpp r
  have e1 : (hp r).getTime "onset" = (h' r).getTime "onset" := by
    unfold Trace.getTime
    rw [he.ext "onset" (by decide)]
  have e2 : (hp r).getNum "slowness" = (h' r).getNum "slowness" := by
    unfold Trace.getNum
    rw [he.ext "slowness" (by decide)]
  unfold Records Trace.delta at hrecs ⊢
  simp only [e1, e2, he.start, he.sr, he.data]
  exact hrecs

end pipeline

section examples

/-- `deconvolve` keeps everything which is not data, onset or the number of iterations, for every trace. -/
theorem deconvolve_inv {K α : Type} [Field K] [LinearOrder K] [IsStrictOrderedRing K] [FloorRing K] (f : Trace K → α)
    (f1 : ∀ (d : List K) t, f { t with data := d } = f t) (f2 : ∀ x t, f (t.put "onset" x) = f t)
    (f3 : ∀ x t, f (t.put "iterations" x) = f t) (env : DeconvEnv K) (f4 : ∀ t x y, f (env.trimPad t x y) = f t)
    (f5 : ∀ t x, f (env.taper t x) = f t)
    (a : DeconvArgs K) (hm : a.method ≠ "func".toList) (h : Heap K) (s : List Nat) (r : Nat) :
    f ((deconvolve env h s a).1 r) = f (h r) := by
  cases hd : deconvolve env h s a with
  | mk h' res =>
    rcases deconvolve_cases env h h' s a _ hd with ⟨rfl, _⟩ | ⟨m, src, rsp, nrm, o, idx, onset, hsel, ho', hf, hon, hc⟩
    · rfl
    have hsn : ∀ r, f (snapped h src rsp onset r) = f (h r) := fun r =>
      snapped_inv f (fun x t => f2 _ t) h src rsp onset r
    rcases hc with ⟨rfl, _⟩ | ⟨w0, w1, w2, srcT, h2, hw, hT, h2e, hk2⟩
    · exact hsn r
    have hmf := deconvSelect_builtin h s a hm m src rsp nrm hsel
    have hg := runKernel_inv f f1 (fun x t => f3 _ t) env m h2 s rsp a.rspComps srcT (h src).sr (-w0) nrm hmf r
    rw [hk2] at hg
    simp only at hg ⊢
    rw [hg, h2e]
    split
    · exact hsn r
    · by_cases hr : r = src
      · subst hr
        rw [Heap.set_self, hT, f5, f4]
        exact hsn r
      · rw [Heap.set_ne _ _ hr]
        exact hsn r

/-- A pulse `[2, 1]` on L and two converted pulses around 11 s on Q, for the slowness of the examples. -/
noncomputable def pipeHeap : Heap ℝ := fun r =>
  { net := "XX".toList, sta := "A".toList, loc := [], cha := if r = 0 then "BHL".toList else "BHQ".toList,
    start := 0, sr := 2 / 7, data := if r = 0 then [2, 1, 0, 0, 0, 0, 0, 0] else [-0, -0, -0, -6, -13, -5, -0, -0],
    ext := [("onset", .time 0), ("phase", .str "P".toList), ("slowness", .num pySlow)] }

theorem pipe_prep : (rfPrep convEnv (convArgs "P".toList) (pipeHeap, [0, 1])).andThen qStage =
    ((Heap.forEach negQ pipeHeap [0, 1], [0, 1]), none) := rfl

theorem pipe_trace (r : ℕ) : (Heap.forEach negQ pipeHeap [0, 1] r).start = 0 ∧
    (Heap.forEach negQ pipeHeap [0, 1] r).sr = 2 / 7 ∧ (Heap.forEach negQ pipeHeap [0, 1] r).data.length = 8 ∧
    (Heap.forEach negQ pipeHeap [0, 1] r).ext = [("onset", .time 0), ("phase", .str "P".toList),
      ("slowness", .num pySlow)] ∧
    (Heap.forEach negQ pipeHeap [0, 1] r).cha = (if r = 0 then "BHL".toList else "BHQ".toList) ∧
    (Heap.forEach negQ pipeHeap [0, 1] r).id = (if r = 0 then "XX.A..BHL".toList else "XX.A..BHQ".toList) := by
  rcases r with _ | _ | r <;> exact ⟨rfl, rfl, rfl, rfl, rfl, rfl⟩

theorem pipe_same (q r : ℕ) : SameRecord convEnv.timeStr (Heap.forEach negQ pipeHeap [0, 1]) q r := by
  obtain ⟨-, -, -, e1, -⟩ := pipe_trace q
  obtain ⟨-, -, -, e2, -⟩ := pipe_trace r
  refine ⟨?_, 0, 0, ?_, ?_, rfl⟩
  · rcases q with _ | _ | q <;> rcases r with _ | _ | r <;> rfl
  · unfold Trace.getTime
    rw [e1]
    rfl
  · unfold Trace.getTime
    rw [e2]
    rfl

theorem pipe_rf : ∃ h', rf convEnv (convArgs "P".toList) (pipeHeap, [0, 1]) = ((h', [0, 1]), none) := by
  have h0 := C147_waterlevel convEnv convKernels convDec rfl (convArgs "P".toList) _ rfl (Or.inl rfl) rfl 0 1 0 rfl rfl rfl
    (by norm_num [convKernels]) (fun _ _ _ _ _ _ _ => rfl) ⟨fun _ _ _ => rfl, fun _ _ => rfl⟩ pipeHeap [0, 1]
    (by decide) "P".toList _ _ (by decide +kernel) pipe_prep
    (fun r _ => by rw [(pipe_trace r).2.2.2.2.1]; split <;> decide) ?_
    (fun r _ => ⟨0, by unfold Trace.getTime; rw [(pipe_trace r).2.2.2.1]; rfl⟩) ?_
  · obtain ⟨m, hm, hp, -⟩ : ∃ m, m = rf convEnv (convArgs "P".toList) (pipeHeap, [0, 1]) ∧ m.2 = none ∧ True :=
      ⟨_, rfl, h0, trivial⟩
    obtain ⟨⟨h', s'⟩, e⟩ := m
    simp only at hp
    subst hp
    obtain ⟨m, h1, -, hp, -⟩ := C145_record convEnv (convArgs "P".toList) _ rfl (by decide) (fun _ _ _ _ _ _ _ => rfl)
      pipeHeap h' [0, 1] s' (by decide) hm.symm
    rw [pipe_prep] at hp
    simp only [Prod.mk.injEq, and_true] at hp
    rw [← hp.2] at hm
    exact ⟨h', hm.symm⟩
  · rintro v ⟨-, hv⟩
    have := hv 0 (by simp)
    rw [(pipe_trace 0).2.2.2.1] at this
    have e : v = .str "P".toList := by
      exact (this _ rfl).symm
    exact ⟨_, by decide, e⟩
  · intro r hr p hp hlen
    have hall : ([0, 1] : List ℕ).filter p = [0, 1] := by
      rw [List.filter_eq_self]
      intro q hq
      exact (hp q hq).2 (pipe_same q r)
    rw [hall]
    refine ⟨0, 0, by decide +kernel, by rw [(pipe_trace 0).2.1]; norm_num, ?_, ?_, ?_⟩
    · unfold Trace.getTime
      rw [(pipe_trace 0).2.2.2.1]
      rfl
    · refine ⟨0, by rw [(pipe_trace 0).2.2.1]; decide, ?_⟩
      rw [(pipe_trace 0).1]
      simp
    · intro onset T h1 _ _ q _
      refine ⟨0, ?_, ?_⟩
      · rw [(pipe_trace q).2.2.1]
        decide
      · show (T.data.take 2).getD 0 0 ≠ 0
        rw [h1]
        show (2 : ℝ) ≠ 0
        norm_num

theorem pipe_deconvolve : ∃ h', deconvolve (withKernels convKernels convDec)
    (Heap.forEach negQ pipeHeap [0, 1]) [0, 1] (rfDeconvArgs (convArgs "P".toList) "P".toList "waterlevel".toList) =
      (h', .ok [0, 1]) := by
  refine deconvolve_water_ok convKernels convDec _ [0, 1]
    (rfDeconvArgs (convArgs "P".toList) "P".toList "waterlevel".toList) 0 0 ?_
    (Or.inl rfl) rfl rfl (by norm_num [convKernels]) ?_ (by show 1 ≤ 2; decide) (by show 2 ≤ 3; decide) ?_ rfl ?_
    0 1 0 rfl ?_
  · decide +kernel
  · show onComps (Heap.forEach negQ pipeHeap [0, 1]) [0, 1] (some "L".toList) = [0]
    decide +kernel
  · rw [(pipe_trace 0).2.1]
    norm_num
  · refine ⟨0, by rw [(pipe_trace 0).2.2.1]; decide, ?_⟩
    rw [(pipe_trace 0).1]
    simp
  · intro onset T h1 _ _ r hr
    refine ⟨0, ?_, ?_⟩
    · rw [(pipe_trace r).2.2.1]
      decide
    · show (T.data.take 2).getD 0 0 ≠ 0
      rw [h1]
      show (2 : ℝ) ≠ 0
      norm_num

theorem pipe_filter (p : ℕ → Bool) (r : ℕ) (hp : ∀ q ∈ [0, 1], p q = true ↔ SameRecord convEnv.timeStr
    (Heap.forEach negQ pipeHeap [0, 1]) q r) : ([0, 1] : List ℕ).filter p = [0, 1] := by
  rw [List.filter_eq_self]
  intro q hq
  exact (hp q hq).2 (pipe_same q r)

theorem pipe_onset (onset : ℝ) (h : SnappedOnset (Heap.forEach negQ pipeHeap [0, 1] 0) onset) : onset = 0 := by
  obtain ⟨o, i, o1, o2, o3, o4⟩ := h
  have ho : o = 0 := by
    have : some (0 : ℝ) = some o := o1
    exact (Option.some.inj this).symm
  have h5 := o4 0 (by rw [(pipe_trace 0).2.2.1]; decide)
  rw [ho, (pipe_trace 0).1] at h5
  simpa using h5

/-- The headers of the receiver functions of the example. -/
theorem pipe_heads (h' : Heap ℝ) (hok : rf convEnv (convArgs "P".toList) (pipeHeap, [0, 1]) = ((h', [0, 1]), none))
    (r : ℕ) (hr : r ∈ [0, 1]) : (h' r).start = 0 ∧ (h' r).sr = 2 / 7 ∧ (h' r).getTime "onset" = some 0 ∧
      (h' r).getNum "slowness" = some pySlow ∧ (h' r).net = "XX".toList ∧ (h' r).sta = "A".toList ∧ (h' r).loc = [] ∧
      (h' r).cha = if r = 0 then "BHL".toList else "BHQ".toList := by
  obtain ⟨m, h1, hm, hp, hx⟩ := C145_record convEnv (convArgs "P".toList) _ rfl (by decide) (fun _ _ _ _ _ _ _ => rfl)
    pipeHeap h' [0, 1] [0, 1] (by decide) hok
  have hm' : m = "P".toList := by
    have : rfMethod pipeHeap [0, 1] (convArgs "P".toList).method = .ok "P".toList := by decide +kernel
    rw [this] at hm
    exact (Except.ok.inj hm).symm
  subst hm'
  rw [pipe_prep] at hp
  have hh1 : h1 = Heap.forEach negQ pipeHeap [0, 1] := by
    simp only [Prod.mk.injEq, and_true] at hp
    exact hp.symm
  subst hh1
  obtain ⟨h2, rsp, hd, hfin⟩ := (hx r hr (fun _ => true) (fun q _ => ⟨fun _ => pipe_same q r, fun _ => rfl⟩)).1 (Or.inl rfl)
  have heq := hfin.1 (by decide)
  simp only [List.filter_true] at hd
  have hrsp : rsp = [0, 1] := by
    obtain ⟨h3, h4⟩ := pipe_deconvolve
    rw [show convEnv.dec = withKernels convKernels convDec from rfl, h4] at hd
    simp only [Prod.mk.injEq, Except.ok.injEq] at hd
    exact hd.2.symm
  subst hrsp
  obtain ⟨src, i1, i2, onset, T, c, nrm, t1, t2, t3, t4, t5, t6, ⟨t7, t8⟩, -⟩ := C86_kernel_call
    convEnv.dec _ _ _ _ _ 0 1 0 rfl (by decide) (by decide) hd
  have hsrc : src = 0 := by
    simp only [List.mem_cons, List.not_mem_nil, or_false] at i1
    rcases i1 with rfl | rfl
    · rfl
    · exact absurd i2 (by decide +kernel)
  subst hsrc
  have ho := pipe_onset onset (t7 (by rw [(pipe_trace 0).2.1]; norm_num))
  obtain ⟨u1, u2, u3⟩ := t8 r hr
  have e1 := deconvolve_inv (fun t : Trace ℝ => (t.net, t.sta, t.loc, t.cha)) (fun _ _ => rfl) (fun _ _ => rfl)
    (fun _ _ => rfl) convEnv.dec (fun _ _ _ => rfl) (fun _ _ => rfl)
    (rfDeconvArgs (convArgs "P".toList) "P".toList "waterlevel".toList) (by decide)
    (Heap.forEach negQ pipeHeap [0, 1]) [0, 1] r
  have e2 := deconvolve_entry "slowness" (by decide) (by decide) convEnv.dec ⟨fun _ _ _ => rfl, fun _ _ => rfl⟩
    (rfDeconvArgs (convArgs "P".toList) "P".toList "waterlevel".toList) (by decide)
    (Heap.forEach negQ pipeHeap [0, 1]) [0, 1] r
  rw [hd] at e1 e2
  simp only [Prod.mk.injEq] at e1 e2
  have hc := pipe_trace r
  refine ⟨by rw [heq.start, u2, hc.1], by rw [heq.sr, u3, hc.2.1], ?_, ?_, ?_, ?_, ?_, ?_⟩
  · rw [← ho, ← u1]
    unfold Trace.getTime
    rw [heq.ext "onset" (by decide)]
  · unfold Trace.getNum
    rw [heq.ext "slowness" (by decide), e2, hc.2.2.2.1]
    rfl
  · rw [heq.net, e1.1]
    rcases r with _ | _ | r <;> rfl
  · rw [heq.sta, e1.2.1]
    rcases r with _ | _ | r <;> rfl
  · rw [heq.loc, e1.2.2.1]
    rcases r with _ | _ | r <;> rfl
  · rw [heq.cha, e1.2.2.2, hc.2.2.2.2.1]

theorem sig_two_one (k : ℤ) : sig ([2, 1] : List ℝ) k = if k = 0 then 2 else if k = 1 then 1 else 0 := by
  unfold sig
  by_cases h : 0 ≤ k
  · obtain ⟨m, rfl⟩ := Int.eq_ofNat_of_zero_le h
    rcases m with _ | _ | m
    · simp
    · simp
    · rw [if_pos h, if_neg (by omega), if_neg (by omega)]
      simp
  · rw [if_neg h, if_neg (by omega), if_neg (by omega)]

theorem pipe_copies : CopiesOf 0 8 [2, 1] [0, 0, 0, 3, 5, 0, 0, 0] [0, 0, 0, 6, 13, 5, 0, 0] := by
  refine ⟨fun n => ?_, rfl, rfl, fun l hl h0 => ?_⟩
  · simp only [List.length_cons, List.length_nil, Finset.sum_range_succ, Finset.sum_range_zero]
    simp only [List.getD_cons_zero, List.getD_cons_succ, zero_mul, zero_add, add_zero, sig_two_one]
    by_cases h0 : n < 0
    · rw [sig_neg _ _ h0]
      repeat rw [if_neg (by push_cast; omega)]
      simp
    · obtain ⟨m, rfl⟩ := Int.eq_ofNat_of_zero_le (not_lt.1 h0)
      by_cases hm : m < 8
      · interval_cases m <;> norm_num [sig] <;> rfl
      · repeat rw [if_neg (by push_cast; omega)]
        unfold sig
        rw [if_pos (by omega), List.getD_eq_default _ _ (by simp; omega)]
        simp
  · have : l = 0 ∨ l = 1 ∨ l = 2 ∨ l = 3 ∨ l = 4 ∨ l = 5 ∨ l = 6 ∨ l = 7 := by omega
    rcases this with rfl | rfl | rfl | rfl | rfl | rfl | rfl | rfl <;> simp at h0 ⊢

theorem own_copies : CopiesOf 0 8 [2, 1] [1, 0, 0, 0, 0, 0, 0, 0] [2, 1, 0, 0, 0, 0, 0, 0] := by
  refine ⟨fun n => ?_, rfl, rfl, fun l hl h0 => ?_⟩
  · simp only [List.length_cons, List.length_nil, Finset.sum_range_succ, Finset.sum_range_zero]
    simp only [List.getD_cons_zero, List.getD_cons_succ, zero_mul, zero_add, add_zero, sig_two_one]
    by_cases h0 : n < 0
    · rw [sig_neg _ _ h0]
      repeat rw [if_neg (by push_cast; omega)]
      simp
    · obtain ⟨m, rfl⟩ := Int.eq_ofNat_of_zero_le (not_lt.1 h0)
      by_cases hm : m < 8
      · interval_cases m <;> norm_num [sig] <;> rfl
      · repeat rw [if_neg (by push_cast; omega)]
        unfold sig
        rw [if_pos (by omega), List.getD_eq_default _ _ (by simp; omega)]
        simp
  · have : l = 0 ∨ l = 1 ∨ l = 2 ∨ l = 3 ∨ l = 4 ∨ l = 5 ∨ l = 6 ∨ l = 7 := by omega
    rcases this with rfl | rfl | rfl | rfl | rfl | rfl | rfl | rfl <;> simp at h0 ⊢

theorem pipe_data : (Heap.forEach negQ pipeHeap [0, 1] 0).data = [2, 1, 0, 0, 0, 0, 0, 0] ∧
    (Heap.forEach negQ pipeHeap [0, 1] 1).data = [0, 0, 0, 6, 13, 5, 0, 0] := by
  refine ⟨rfl, ?_⟩
  show [-(-(0 : ℝ)), -(-0), -(-0), -(-6), -(-13), -(-5), -(-0), -(-0)] = _
  norm_num

theorem pipe_src (z : ℕ) (hz : z ∈ [0, 1]) (hc : OfComp (rfSource (convArgs "P".toList) "P".toList)
    (Heap.forEach negQ pipeHeap [0, 1] z)) : z = 0 := by
  simp only [List.mem_cons, List.not_mem_nil, or_false] at hz
  rcases hz with rfl | rfl
  · rfl
  · exact absurd hc (by decide +kernel)

/-- The receiver functions of the example have eight samples. -/
theorem pipe_length (h' : Heap ℝ) (hok : rf convEnv (convArgs "P".toList) (pipeHeap, [0, 1]) = ((h', [0, 1]), none))
    (r : ℕ) (hr : r ∈ [0, 1]) : (h' r).data.length = 8 := by
  obtain ⟨m, h1, hm, hp, hx⟩ := C146_waterlevel convEnv convKernels convDec rfl (convArgs "P".toList) _ rfl (Or.inl rfl)
    rfl 0 1 0 rfl rfl rfl rfl (fun _ _ _ _ _ _ _ => rfl) pipeHeap h' [0, 1] [0, 1] (by decide) hok
  have hm' : m = "P".toList := by
    have : rfMethod pipeHeap [0, 1] (convArgs "P".toList).method = .ok "P".toList := by decide +kernel
    rw [this] at hm
    exact (Except.ok.inj hm).symm
  subst hm'
  rw [pipe_prep] at hp
  have hh1 : h1 = Heap.forEach negQ pipeHeap [0, 1] := by
    simp only [Prod.mk.injEq, and_true] at hp
    exact hp.symm
  subst hh1
  obtain ⟨src, i1, i2, onset, T, c, t1, t2, t3, t4, t5, t6, hy⟩ := hx (fun _ => true) r hr
    (fun q _ => ⟨fun _ => pipe_same q r, fun _ => rfl⟩) (Or.inl rfl) 8 (fun q _ => (pipe_trace q).2.2.1) (by decide)
  rw [List.filter_true] at i1
  have hsrc := pipe_src src i1 i2
  subst hsrc
  have hc : c.data = [2, 1] := by
    rw [t5]
    show T.data.take 2 = _
    rw [t1]
    rfl
  have hal : ∃ x, CopiesOf 0 8 c.data x (Heap.forEach negQ pipeHeap [0, 1] r).data := by
    rw [hc]
    simp only [List.mem_cons, List.not_mem_nil, or_false] at hr
    rcases hr with rfl | rfl
    · rw [pipe_data.1]; exact ⟨_, own_copies⟩
    · rw [pipe_data.2]; exact ⟨_, pipe_copies⟩
  obtain ⟨x, hx⟩ := hal
  obtain ⟨-, -, hl, -⟩ := hy 0 (by simp) (by rw [(pipe_trace 0).2.1]; norm_num)
    (by rw [hc]; exact two_one_above _ (by decide)) x hx
  rw [hl, hx.2.1]

/-- The receiver function on Q shows amplitudes 3 and 5 at both sides of the delay time of 11 s for its slowness. -/
theorem pipe_seen (h' : Heap ℝ) (hok : rf convEnv (convArgs "P".toList) (pipeHeap, [0, 1]) = ((h', [0, 1]), none)) :
    SeenBy convEnv convKernels convDec (rfSource (convArgs "P".toList) "P".toList) "P".toList 0 1 0
      (Heap.forEach negQ pipeHeap [0, 1]) [0, 1] pyLayers 0 1 2 8 3 5 1 (h' 1) := by
  have hh := pipe_heads h' hok
  obtain ⟨a1, a2, a3, a4, -⟩ := hh 1 (by simp)
  refine ⟨by rw [a2]; norm_num, by decide, by decide, fun _ => true, pySlow, 0,
    fun q _ => ⟨fun _ => pipe_same q 1, fun _ => rfl⟩, Or.inl rfl, fun q _ => (pipe_trace q).2.2.1, a3, a4,
    pyLayers_prop.1, ?_, ?_, ?_, ?_⟩
  · rw [show pyLayers.length - 1 = 2 from rfl, (py_delay 1).1, (py_delay 2).1]
    norm_num
  · rw [show min 9 (pyLayers.length - 1) = 2 from rfl, (py_delay 2).1]
    unfold Trace.delta
    rw [a2]
    norm_num
  · rw [(py_delay 1).2, a1, a2]
    norm_num
  · intro z hz hc
    rw [List.filter_true] at hz
    have := pipe_src z hz hc
    subst this
    refine ⟨by rw [(pipe_trace 0).2.1]; norm_num, fun onset T t1 t2 t3 t4 => ⟨0, by simp, ?_, ?_⟩⟩
    · have hc : (convDec.taper (convDec.trimPad T (onset + 0) (onset + 1)) 0).data = [2, 1] := by
        show T.data.take 2 = _
        rw [t1]
        rfl
      rw [hc]
      exact two_one_above _ (by decide)
    · have hc : (convDec.taper (convDec.trimPad T (onset + 0) (onset + 1)) 0).data = [2, 1] := by
        show T.data.take 2 = _
        rw [t1]
        rfl
      rw [hc, pipe_data.2]
      refine ⟨_, pipe_copies, 3, 4, 3, 5, rfl, rfl, le_refl _, by norm_num, by norm_num, le_refl _, ?_⟩
      rw [pipe_onset onset t4, (pipe_trace 1).1, (pipe_trace 1).2.1, (py_delay 1).1,
        show lagSign (K := ℝ) "P".toList = 1 from if_neg (by decide)]
      unfold Trace.delta
      rw [a2]
      norm_num

/-- C165 is not vacuous: in the example all three steps succeed, the receiver function on Q shows 3 and 5 at both sides of
the delay time of 11 s for its slowness, and the stack has an amplitude between 3 and 5 at 7 s. -/
example : ∃ h' mo' st' out t, rf convEnv (convArgs "P".toList) (pipeHeap, [0, 1]) = ((h', [0, 1]), none) ∧
    streamMoveout Real.sqrt npFind (fun _ => .error .other) [] none 0 pyModel (h', [0, 1]) = (mo', st', none) ∧
    stack dedupOrder st'.1 st'.2 = .ok out ∧ t ∈ out ∧ t.id = "XX.A..BHQ".toList ∧
    (3 ≤ t.data.getD 2 0 ∧ t.data.getD 2 0 ≤ 5) ∧ ∃ o, t.getTime "onset" = some o ∧ t.start + 2 / t.sr - o = 7 := by
  obtain ⟨h', hok⟩ := pipe_rf
  have hh := pipe_heads h' hok
  have hl := pipe_length h' hok
  have hlab := (C44_labels convEnv (convArgs "P".toList) _ _ hok).2 "P".toList (Or.inl rfl) (by simp) (Or.inl rfl)
  have hphase : moveoutPhase h' [0, 1] none = .ok "Ps".toList := by
    unfold moveoutPhase
    simp only at hlab
    simp only [hlab]
    decide
  obtain ⟨m', st', out, hmove, hout⟩ := C158_succeeds Real.sqrt npFind (fun _ => .error .other) pyModel pyLayers rfl rfl
    rfl rfl 0 [] none "Ps".toList (by decide) (by decide) (by decide) pyLayers_prop.2
    (by simp [pyLayers]) (h', [0, 1]) (by simp) (by simp) hphase
    (fun r hr => by
      obtain ⟨a1, a2, a3, a4, -⟩ := hh r hr
      refine ⟨by rw [a2]; norm_num, 0, pySlow, a3, by rw [a1], ?_, ?_, a4, pyLayers_prop.1⟩
      · simp only [Trace.endtime, Trace.delta, Trace.npts, hl r hr, a1, a2]
        norm_num
      · simp [Simple.index0, Trace.npts, hl r hr, a1, a2])
    (fun r hr => by
      obtain ⟨-, -, -, -, a5, a6, a7, a8⟩ := hh r hr
      simp only
      rw [a5, a6, a7, a8]
      refine ⟨by decide, by decide, by decide, ?_⟩
      split <;> decide)
    (fun r hr q hq _ => by rw [hl r hr, hl q hq]) dedupOrder dedup_setOrder
  have hid : ∀ r ∈ [0, 1], (h' r).id = if r = 0 then "XX.A..BHL".toList else "XX.A..BHQ".toList := by
    intro r hr
    obtain ⟨-, -, -, -, a5, a6, a7, a8⟩ := hh r hr
    unfold Trace.id
    rw [a5, a6, a7, a8]
    simp only [List.mem_cons, List.not_mem_nil, or_false] at hr
    rcases hr with rfl | rfl <;> rfl
  have hrefs := (C40_bookkeeping Real.sqrt npFind (fun _ => .error .other) [] none 0 pyModel m' (h', [0, 1]) st'
    (by simp) hmove).1
  have hids := stream_id Real.sqrt npFind (fun _ => .error .other) [] none 0 pyModel m' rfl (h', [0, 1]) st' (by simp) hmove
  simp only at hids
  obtain ⟨t, ht, hti⟩ := List.mem_map.1 (((C47_one_per_id dedupOrder dedup_setOrder st'.1 st'.2 out hout).2
    "XX.A..BHQ".toList).2 ⟨1, by rw [hrefs]; simp, by rw [hids 1 (by simp), hid 1 (by simp)]; rfl⟩)
  have hres := C165_pipeline convEnv convKernels convDec rfl (convArgs "P".toList) _ rfl (Or.inl rfl) rfl 0 1 0 rfl rfl rfl rfl
    (fun _ _ _ _ _ _ _ => rfl) pipeHeap _ h' [0, 1] _ [0, 1] (by decide) "P".toList (Or.inl rfl) (Or.inl rfl) pipe_prep hok
    npFind npFind_spec (fun _ => .error .other) pyModel m' pyLayers rfl rfl rfl rfl 0 [] pyLayers_prop.2 pyLayers_vel st'
    hmove dedupOrder out hout t ht 1 (by simp [pyLayers]) 2 8 3 5 (by
      intro r hr hrid
      have hr1 : r = 1 := by
        simp only [List.mem_cons, List.not_mem_nil, or_false] at hr
        rcases hr with rfl | rfl
        · rw [hid 0 (by simp), hti] at hrid
          exact absurd hrid (by decide)
        · rfl
      subst hr1
      exact pipe_seen h' hok)
  obtain ⟨a1, a2, a3, -⟩ := hh 0 (by simp)
  obtain ⟨o, o1, o2⟩ := hres.2 0 0 rfl a3 (by rw [(py_delay 1).2, a1, a2]; norm_num)
  rw [(py_delay 1).2] at o2
  refine ⟨h', m', st', out, t, hok, hmove, hout, ht, hti, hres.1.2, o, o1, ?_⟩
  rw [show (2 : ℝ) = ((2 : ℕ) : ℝ) from by norm_num, o2]
  norm_num

/-- A single box that contains every point. -/
def pipeBox : Profile.Box ℝ := ⟨[], 10, 5, (0, 0), some ⟨(0, 0), 0, 10, 1⟩⟩

/-- The receiver functions with stored piercing points. -/
noncomputable def pierced (h' : Heap ℝ) : Heap ℝ := fun r =>
  { h' r with ext := ((h' r).ext.set "pp_latitude" (.num 0)).set "pp_longitude" (.num 0) }

/-- C167 is not vacuous: in the example all steps succeed and the profile trace of component Q in the only bin has an
amplitude between 3 and 5 in the sample at the reference delay time. -/
example : ∃ h' mo' st' h3 l q, rf convEnv (convArgs "P".toList) (pipeHeap, [0, 1]) = ((h', [0, 1]), none) ∧
    streamMoveout Real.sqrt npFind (fun _ => .error .other) [] none 0 pyModel (pierced h', [0, 1]) = (mo', st', none) ∧
    Profile.profile (fun _ _ => true) [pipeBox] true st'.1 st'.2 2 = .ok (h3, l) ∧ q ∈ l ∧ HasBin (h3 q) (5, 'Q') ∧
    3 ≤ (h3 q).data.getD 2 0 ∧ (h3 q).data.getD 2 0 ≤ 5 := by
  obtain ⟨h', hok⟩ := pipe_rf
  have hh := pipe_heads h' hok
  have hl := pipe_length h' hok
  have hlab := (C44_labels convEnv (convArgs "P".toList) _ _ hok).2 "P".toList (Or.inl rfl) (by simp) (Or.inl rfl)
  have hpp : ∀ r, EqBut ["pp_latitude", "pp_longitude", "pp_depth"] (pierced h' r) (h' r) := fun r =>
    ⟨rfl, rfl, rfl, rfl, rfl, rfl, rfl, fun k hk => by
      simp only [List.mem_cons, List.not_mem_nil, or_false, not_or] at hk
      show (((h' r).ext.set "pp_latitude" (.num 0)).set "pp_longitude" (.num 0)).get k = _
      rw [Dict.get_set_ne _ _ hk.2.1, Dict.get_set_ne _ _ hk.1]⟩
  have hphase : moveoutPhase (pierced h') [0, 1] none = .ok "Ps".toList := by
    rw [moveoutPhase_congr h' (pierced h') [0, 1] none (fun r _ => (hpp r).ext "phase" (by decide))]
    unfold moveoutPhase
    simp only at hlab
    simp only [hlab]
    decide
  have honset : ∀ r, (pierced h' r).getTime "onset" = (h' r).getTime "onset" := fun r => by
    unfold Trace.getTime
    rw [(hpp r).ext "onset" (by decide)]
  have hslow : ∀ r, (pierced h' r).getNum "slowness" = (h' r).getNum "slowness" := fun r => by
    unfold Trace.getNum
    rw [(hpp r).ext "slowness" (by decide)]
  obtain ⟨m', st', -, hmove, -⟩ := C158_succeeds Real.sqrt npFind (fun _ => .error .other) pyModel pyLayers rfl rfl
    rfl rfl 0 [] none "Ps".toList (by decide) (by decide) (by decide) pyLayers_prop.2
    (by simp [pyLayers]) (pierced h', [0, 1]) (by simp) (by simp) hphase
    (fun r hr => by
      obtain ⟨a1, a2, a3, a4, -⟩ := hh r hr
      refine ⟨by show 0 < (h' r).sr; rw [a2]; norm_num, 0, pySlow, by rw [honset]; exact a3,
        by show (h' r).start ≤ 0; rw [a1], ?_, ?_, by rw [hslow]; exact a4, pyLayers_prop.1⟩
      · show (0 : ℝ) ≤ (h' r).endtime
        simp only [Trace.endtime, Trace.delta, Trace.npts, hl r hr, a1, a2]
        norm_num
      · show Simple.index0 (h' r) 0 + 2 ≤ ((h' r).npts : Int)
        simp [Simple.index0, Trace.npts, hl r hr, a1, a2])
    (fun r hr => by
      obtain ⟨-, -, -, -, a5, a6, a7, a8⟩ := hh r hr
      show '.' ∉ (h' r).net ∧ '.' ∉ (h' r).sta ∧ '.' ∉ (h' r).loc ∧ '.' ∉ (h' r).cha
      rw [a5, a6, a7, a8]
      refine ⟨by decide, by decide, by decide, ?_⟩
      split <;> decide)
    (fun r hr q hq _ => by
      show (h' r).data.length = (h' q).data.length
      rw [hl r hr, hl q hq]) dedupOrder dedup_setOrder
  obtain ⟨hrefs, p, -, hbook⟩ := C40_bookkeeping Real.sqrt npFind (fun _ => .error .other) [] none 0 pyModel m'
    (pierced h', [0, 1]) st' (by simp) hmove
  simp only at hrefs hbook
  have hlat : ∀ r ∈ [0, 1], (st'.1 r).getNum "pp_latitude" = some 0 ∧ (st'.1 r).getNum "pp_longitude" = some 0 ∧
      (st'.1 r).cha.getLast? = some (if r = 0 then 'L' else 'Q') := by
    intro r hr
    have h5 := (hbook r hr).2.2.2.2
    obtain ⟨⟨-, -, -, h4⟩, -⟩ := stream_times Real.sqrt npFind (fun _ => .error .other) [] none 0 pyModel m' rfl
      (pierced h', [0, 1]) st' (by simp) hmove r hr
    have a8 := (hh r hr).2.2.2.2.2.2.2
    refine ⟨?_, ?_, ?_⟩
    · unfold Trace.getNum
      rw [h5 "pp_latitude" (by decide)]
      have : (pierced h' r).ext.get "pp_latitude" = some (.num 0) := by
        show (((h' r).ext.set "pp_latitude" (.num 0)).set "pp_longitude" (.num 0)).get "pp_latitude" = _
        rw [Dict.get_set_ne _ _ (by decide), Dict.get_set_self]
      rw [this]
    · unfold Trace.getNum
      rw [h5 "pp_longitude" (by decide)]
      have : (pierced h' r).ext.get "pp_longitude" = some (.num 0) := by
        show (((h' r).ext.set "pp_latitude" (.num 0)).set "pp_longitude" (.num 0)).get "pp_longitude" = _
        rw [Dict.get_set_self]
      rw [this]
    · rw [h4]
      show (h' r).cha.getLast? = _
      rw [a8]
      split <;> rfl
  have hbin : ∀ r ∈ [0, 1], binOf (boxSets (fun _ _ => true) [pipeBox]) (st'.1 r)
      = some (5, if r = 0 then 'L' else 'Q') := by
    intro r hr
    obtain ⟨b1, b2, b3⟩ := hlat r hr
    unfold binOf
    rw [b1, b2, b3]
    rfl
  obtain ⟨h3, l, hprof⟩ := C50_succeeds (fun _ _ => true) [pipeBox] true st'.1 [0, 1] 2
    (by intro r hr; simp at hr; omega)
    (fun r hr => ⟨0, 0, _, (hlat r hr).1, (hlat r hr).2.1, (hlat r hr).2.2⟩)
    (fun r hr => Or.inr ⟨0, by
      have a3 := (hh r hr).2.2.1
      rw [(hbook r hr).2.2.2.2 "onset" (by decide), (hpp r).ext "onset" (by decide)]
      unfold Trace.getTime at a3
      split at a3
      · rename_i heq
        rw [heq]
        simp only [Option.some.injEq] at a3
        rw [a3]
      · simp at a3⟩)
    ⟨pipeBox, [], _, rfl, rfl⟩
    (fun r hr q hq he => by
      rw [hbin r hr, hbin q hq] at he
      simp only [List.mem_cons, List.not_mem_nil, or_false] at hr hq
      rcases hr with rfl | rfl <;> rcases hq with rfl | rfl <;> first | rfl | simp at he)
  obtain ⟨q, ⟨hq, hqb⟩, -⟩ := (C50_one_per_bin _ _ _ st'.1 h3 [0, 1] l 2 (by intro r hr; simp at hr; omega) hprof).2.1
    (5, 'Q') ⟨1, by simp, hbin 1 (by simp)⟩
  have hres := C167_pipeline convEnv convKernels convDec rfl (convArgs "P".toList) _ rfl (Or.inl rfl) rfl 0 1 0 rfl rfl rfl rfl
    (fun _ _ _ _ _ _ _ => rfl) pipeHeap _ h' (pierced h') [0, 1] _ [0, 1] (by decide) "P".toList (Or.inl rfl) (Or.inl rfl)
    pipe_prep hok hpp
    npFind npFind_spec (fun _ => .error .other) pyModel m' pyLayers rfl rfl rfl rfl 0 [] pyLayers_prop.2 pyLayers_vel st'
    hmove (fun _ _ => true) [pipeBox] true 2 (by intro r hr; simp at hr; omega) h3 l (by rw [hrefs]; exact hprof) q hq
    (5, 'Q') hqb (st'.1 1).data.length 1 (by simp [pyLayers]) 2 8 3 5 (by
      intro r hr hrb
      simp only [List.mem_cons, List.not_mem_nil, or_false] at hr
      rcases hr with rfl | rfl
      · exfalso
        have a8 := (hh 0 (by simp)).2.2.2.2.2.2.2
        unfold binOf at hrb
        split at hrb
        · rename_i x y c _ _ hc
          have hc' : (h' 0).cha.getLast? = some c := hc
          rw [a8] at hc'
          simp only [if_true] at hc'
          have hcl : c = 'L' := by
            have : some c = some 'L' := hc'.symm.trans (by decide)
            simpa using this
          subst hcl
          simp [boxSets, firstBox] at hrb
        · simp at hrb
      · exact ⟨rfl, pipe_seen h' hok⟩)
  refine ⟨h', m', st', h3, l, q, hok, hmove, by rw [hrefs]; exact hprof, hq, hqb, hres.2⟩

end examples
end Verif.Props
