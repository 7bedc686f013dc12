import Verif.Props.Gain
import Verif.Model.DeconvTime

/-!
# C137: `RFStream.rf` and the gain of the records
-/

set_option linter.unusedSimpArgs false
set_option linter.unusedSectionVars false

namespace Verif.Props
open Verif.Py Verif.Model Verif.Spec

section stages
variable {K : Type} [Field K] [LinearOrder K] [IsStrictOrderedRing K] [FloorRing K]

/-- The factor is the same for all traces of a record. -/
def OneGain (timeStr : K → Str) (c : Nat → K) (h : Heap K) (s : List Nat) : Prop :=
  ∀ q ∈ s, ∀ r ∈ s, SameRecord timeStr h q r → c q = c r

/-- Filter, cut, downsampling and rotation commute with a common factor. -/
structure GainEnv (env : RfEnv K) : Prop where
  filter : ∀ c, 0 < c → ∀ t, env.filter (gain c t) = (env.filter t).map (gain c)
  trim : ∀ c, 0 < c → ∀ t a b, env.trim (gain c t) a b = (env.trim t a b).map (gain c)
  decimate : ∀ c, 0 < c → ∀ n t, env.decimate n (gain c t) = (env.decimate n t).map (gain c)
  rotate : ∀ m (c : Nat → K) (k : K) (h : Heap K) (g : List Nat), 0 < k → (∀ r ∈ g, c r = k) →
    env.rotate m (gainH c h) g = (gainH c (env.rotate m h g).1, (env.rotate m h g).2)
  dec : GainKernels env.dec

theorem iter3c_gain (timeStr : K → Str) (c : Nat → K) (h : Heap K) (s : List Nat) :
    iter3c timeStr (gainH c h) s = iter3c timeStr h s := rfl

/-- The factor is constant in every group. -/
theorem group_gain (timeStr : K → Str) (c : Nat → K) (h : Heap K) (s : List Nat)
    (hc : OneGain timeStr c h s) (gs : List (List Nat)) (hgs : iter3c timeStr h s = .ok gs) :
    ∀ g ∈ gs, ∀ q ∈ g, ∀ r ∈ g, c q = c r := by
  intro g hg q hq r hr
  have hw : WholeRecords timeStr (fun x => decide (c x = c r)) h s := by
    intro x hx y hy hxy
    simp only [hc x hx y hy hxy]
  rcases (iter3c_sim timeStr _ h h (fun _ _ => rfl) s hw gs hgs).2 g hg with h1 | h1
  · exact of_decide_eq_true (List.all_eq_true.1 h1 q hq)
  · have := h1 r hr
    simp at this

/-- A stage of `rf` before the deconvolution commutes with gain factors. -/
def StepGain (timeStr : K → Str) (c : Nat → K) (F : SState K → SRes K) : Prop :=
  ∀ h s, OneGain timeStr c h s →
    F (gainH c h, s) = ((gainH c (F (h, s)).1.1, (F (h, s)).1.2), (F (h, s)).2) ∧
    ∀ st1, F (h, s) = (st1, none) → (∀ r ∈ st1.2, r ∈ s) ∧ ∀ r, recordOf (st1.1 r) = recordOf (h r)

theorem oneGain_mono (timeStr : K → Str) (c : Nat → K) (h h1 : Heap K) (s s1 : List Nat)
    (hs : ∀ r ∈ s1, r ∈ s) (hk : ∀ r, recordOf (h1 r) = recordOf (h r))
    (hc : OneGain timeStr c h s) : OneGain timeStr c h1 s1 := by
  intro q hq r hr hqr
  have hw : WholeRecords timeStr (fun x => decide (c x = c r)) h s := by
    intro x hx y hy hxy
    simp only [hc x hx y hy hxy]
  have := wholeRecords_mono timeStr _ h h1 s s1 hs hk hw q hq r hr hqr
  simpa using this

theorem stepGain_andThen (timeStr : K → Str) (c : Nat → K) (F G : SState K → SRes K)
    (hF : StepGain timeStr c F) (hG : StepGain timeStr c G) :
    StepGain timeStr c (fun st => (F st).andThen G) := by
  intro h s hc
  obtain ⟨f1, f2⟩ := hF h s hc
  simp only
  rw [f1]
  cases hFs : F (h, s) with
  | mk st1 oe =>
    obtain ⟨h1, s1⟩ := st1
    cases oe with
    | some e => exact ⟨rfl, fun st1 hx => by simp [SRes.andThen] at hx⟩
    | none =>
      obtain ⟨a1, a2⟩ := f2 (h1, s1) hFs
      obtain ⟨g1, g2⟩ := hG h1 s1 (oneGain_mono timeStr c h h1 s s1 a1 a2 hc)
      refine ⟨g1, fun st2 hx => ?_⟩
      obtain ⟨b1, b2⟩ := g2 st2 hx
      exact ⟨fun r hr => a1 r (b1 r hr), fun r => (b2 r).trans (a2 r)⟩

theorem stepGain_id (timeStr : K → Str) (c : Nat → K) :
    StepGain (K := K) timeStr c (fun st => (st, none)) := by
  intro h s hc
  refine ⟨rfl, fun st1 hx => ?_⟩
  simp only [Prod.mk.injEq, and_true] at hx
  subst hx
  exact ⟨fun r hr => hr, fun r => rfl⟩

theorem stepGain_traces (timeStr : K → Str) (c : Nat → K) (f : Trace K → Res (Trace K))
    (hf : ∀ r t, f (gain (c r) t) = (f t).map (gain (c r)))
    (hr : ∀ t t', f t = .ok t' → recordOf t' = recordOf t) : StepGain timeStr c (forTraces f) := by
  intro h s hc
  constructor
  · unfold forTraces
    simp only
    rw [gainH_eq, forEachE_mapH _ f h s (fun r _ => hf r)]
  · intro st1 hx
    obtain ⟨-, h2, h3⟩ := stepSim_traces timeStr (fun _ => true) f hr (h, s) (h, s) st1
      ⟨by simp, fun _ _ => rfl⟩ (fun _ _ _ _ _ => rfl) hx
    exact ⟨h2, h3⟩

theorem cutTrace_gain (trim : Trace K → TArg K → TArg K → Res (Trace K)) (c : K)
    (ht : ∀ t a b, trim (gain c t) a b = (trim t a b).map (gain c)) (x y : TArg K) (t : Trace K)
    (ref : RefTime K) :
    cutTrace trim x y ref (gain c t) = (cutTrace trim x y ref t).map (gain c) := by
  have hs : ∀ k, statsTime (gain c t) k = statsTime t k := by
    intro k
    unfold statsTime
    rw [gain_endtime]
    rfl
  have hu : ∀ z, seconds2utc (gain c t) z ref = seconds2utc t z ref := by
    intro z
    unfold seconds2utc
    cases z with
    | sec d =>
      cases ref with
      | key k => simp only [hs]
      | _ => rfl
    | _ => rfl
  unfold cutTrace
  rw [hu, hu]
  cases seconds2utc t x ref with
  | error e => rfl
  | ok t1 =>
    simp only
    cases seconds2utc t y ref with
    | error e => rfl
    | ok t2 => exact ht t t1 t2

theorem groupBody_gain0 (f : Heap K → List Nat → Heap K × Option PyErr) (c : Nat → K)
    (h : Heap K) (gs : List (List Nat))
    (hf : ∀ g ∈ gs, ∀ h, f (gainH c h) g = (gainH c (f h g).1, (f h g).2)) :
    groupBody f (gainH c h) gs = (gainH c (groupBody f h gs).1, (groupBody f h gs).2) := by
  induction gs generalizing h with
  | nil => rfl
  | cons g gs ih =>
    unfold groupBody
    rw [hf g List.mem_cons_self h]
    cases hfg : f h g with
    | mk h1 oe =>
      cases oe with
      | some e => rfl
      | none => exact ih h1 (fun g' hg' => hf g' (List.mem_cons_of_mem _ hg'))

/-- The stages before the deconvolution. -/
theorem stepGain_prep (env : RfEnv K) (a : RfArgs K) (hk : KeepsRecord env) (hg : GainEnv env)
    (hrot : ∀ m, GroupLocal (env.rotate m)) (c : Nat → K) (hc0 : ∀ r, 0 < c r) :
    StepGain env.timeStr c (rfPrep env a) ∧ StepGain env.timeStr c (fun st => (rfPrep env a st).andThen qStage) := by
  have h1 : StepGain env.timeStr c (filterStage env a) := by
    unfold filterStage
    by_cases hf : a.filter = true
    · simp only [hf, if_true]; exact stepGain_traces _ _ _ (fun r t => hg.filter _ (hc0 r) t) hk.filter
    · simp only [hf, if_false]; exact stepGain_id _ _
  have h2 : StepGain env.timeStr c (trimStage env a) := by
    unfold trimStage
    cases a.trim with
    | none => exact stepGain_id _ _
    | some w =>
      obtain ⟨x, y⟩ := w
      intro h s hc
      refine ⟨?_, fun st1 hx => ?_⟩
      · rw [gainH_eq]
        exact trim2_mapH (fun r => gain (c r)) env.trim x y _ (fun r t => gain_npts _ _)
          (fun r t => cutTrace_gain env.trim (c r) (fun t a b => hg.trim _ (hc0 r) t a b) x y t _) h s
      · obtain ⟨-, h2, h3⟩ := stepSim_trim2 env.timeStr (fun _ => true) env.trim hk.trim x y (.key "onset")
          (h, s) (h, s) st1 ⟨by simp, fun _ _ => rfl⟩ (fun _ _ _ _ _ => rfl) hx
        exact ⟨h2, h3⟩
  have h3 : StepGain env.timeStr c (decimateStage env a) := by
    unfold decimateStage
    cases a.downsample with
    | none => exact stepGain_id _ _
    | some d =>
      refine stepGain_traces _ _ _ (fun r t => ?_) (fun t t' ht => ?_)
      · unfold decimateTrace
        rw [show (gain (c r) t).sr = t.sr from rfl]
        split
        · exact hg.decimate _ (hc0 r) _ t
        · rfl
      · unfold decimateTrace at ht
        split at ht
        · exact hk.decimate _ _ _ ht
        · simp only [Except.ok.injEq] at ht; rw [ht]
  have h4 : StepGain env.timeStr c (rotateStage env a) := by
    unfold rotateStage
    cases a.rotate with
    | none => exact stepGain_id _ _
    | some m =>
      intro h s hc
      refine ⟨?_, fun st1 hx => ?_⟩
      · unfold forGroups
        simp only [iter3c_gain]
        cases hi : iter3c env.timeStr h s with
        | error e => rfl
        | ok gs =>
          simp only
          rw [groupBody_gain0 (env.rotate m) c h gs]
          intro g hgm h'
          cases g with
          | nil => exact hg.rotate m c 1 h' [] one_pos (fun r hr => by simp at hr)
          | cons q g =>
            exact hg.rotate m c (c q) h' _ (hc0 q)
              (fun r hr => group_gain env.timeStr c h s hc gs hi _ hgm r hr q List.mem_cons_self)
      · obtain ⟨-, h2, h3⟩ := stepSim_groups env.timeStr (fun _ => true) (env.rotate m) (hrot m) (hk.rotate m)
          (h, s) (h, s) st1 ⟨by simp, fun _ _ => rfl⟩ (fun _ _ _ _ _ => rfl) hx
        exact ⟨h2, h3⟩
  have h5 : StepGain (K := K) env.timeStr c qStage := by
    intro h s hc
    refine ⟨?_, fun st1 hx => ?_⟩
    · unfold qStage
      simp only
      rw [gainH_eq, forEach_mapH (fun r => gain (c r)) negQ (fun r t => ?_) h s]
      unfold negQ
      rw [show (gain (c r) t).cha = t.cha from rfl]
      split
      · unfold gain
        simp only [List.map_map]
        congr 1
        refine List.map_congr_left fun v _ => ?_
        simp
      · rfl
    · unfold qStage at hx
      simp only [Prod.mk.injEq, and_true] at hx
      subst hx
      exact ⟨fun r hr => hr, fun r => Heap.forEach_inv recordOf negQ (fun t => by
        obtain ⟨n1, -, -, -, -, n6⟩ := negQ_get t
        unfold recordOf; rw [n1, n6]) h s r⟩
  have h12 := stepGain_andThen _ _ _ _ h1 h2
  have h123 := stepGain_andThen _ _ _ _ h12 h3
  have h1234 := stepGain_andThen _ _ _ _ h123 h4
  exact ⟨h1234, stepGain_andThen _ _ _ _ h1234 h5⟩

/-- A loop over groups whose body makes the results independent of the factor. -/
theorem groupBody_gain (full : Prop) (f : Heap K → List Nat → Heap K × Option PyErr)
    (hf : ∀ (c : Nat → K) (k : K) (h : Heap K) (g : List Nat), 0 < k → (∀ r ∈ g, c r = k) →
      ∃ c' : Nat → K, (∀ r, c' r = c r ∨ c' r = 1) ∧ (∀ r, r ∉ g → c' r = c r) ∧
        f (gainH c h) g = (gainH c' (f h g).1, (f h g).2) ∧ (full → (f h g).2 = none → ∀ r ∈ g, c' r = 1))
    (c : Nat → K) (hc0 : ∀ r, 0 < c r) (h : Heap K) (gs : List (List Nat))
    (hdis : gs.Pairwise List.Disjoint) (hc : ∀ g ∈ gs, ∀ q ∈ g, ∀ r ∈ g, c q = c r) :
    ∃ c' : Nat → K, (∀ r, c' r = c r ∨ c' r = 1) ∧
      groupBody f (gainH c h) gs = (gainH c' (groupBody f h gs).1, (groupBody f h gs).2) ∧
      (full → (groupBody f h gs).2 = none → ∀ g ∈ gs, ∀ r ∈ g, c' r = 1) := by
  induction gs generalizing c h with
  | nil => exact ⟨c, fun r => .inl rfl, rfl, fun _ _ g hg => by simp at hg⟩
  | cons g gs ih =>
    rw [List.pairwise_cons] at hdis
    have hstep : ∃ c' : Nat → K, (∀ r, c' r = c r ∨ c' r = 1) ∧ (∀ r, r ∉ g → c' r = c r) ∧
        f (gainH c h) g = (gainH c' (f h g).1, (f h g).2) ∧ (full → (f h g).2 = none → ∀ r ∈ g, c' r = 1) := by
      cases g with
      | nil => exact hf c 1 h [] one_pos (fun r hr => by simp at hr)
      | cons q g => exact hf c (c q) h _ (hc0 q) (fun r hr => hc _ List.mem_cons_self r hr q List.mem_cons_self)
    obtain ⟨c1, a1, a2, a3, a4⟩ := hstep
    unfold groupBody
    rw [a3]
    cases hfg : f h g with
    | mk h1 oe =>
      rw [hfg] at a4
      cases oe with
      | some e => exact ⟨c1, a1, rfl, fun _ hx => by simp at hx⟩
      | none =>
        have hpos : ∀ r, 0 < c1 r := fun r => by
          rcases a1 r with h | h <;> rw [h]
          · exact hc0 r
          · exact one_pos
        obtain ⟨c2, b1, b2, b3⟩ := ih c1 hpos h1 hdis.2 (fun g' hg' q hq r hr => by
          rw [a2 q (fun hin => hdis.1 g' hg' hin hq), a2 r (fun hin => hdis.1 g' hg' hin hr)]
          exact hc g' (List.mem_cons_of_mem _ hg') q hq r hr)
        refine ⟨c2, fun r => ?_, b2, fun hfull hx g' hg' r hr => ?_⟩
        · rcases b1 r with h | h
          · rcases a1 r with h' | h'
            · exact .inl (h.trans h')
            · exact .inr (h.trans h')
          · exact .inr h
        · rcases List.mem_cons.1 hg' with rfl | hg'
          · rcases b1 r with h | h
            · rw [h]; exact a4 hfull rfl r hr
            · exact h
          · exact b3 hfull hx g' hg' r hr

theorem deconvolveCall_gain (env : RfEnv K) (hk : GainKernels env.dec) (da : DeconvArgs K)
    (hm : da.method ≠ "func".toList) (hn : da.method = "time".toList → da.normalize ≠ some .none)
    (c : Nat → K) (k : K) (h : Heap K) (g : List Nat) (hk0 : 0 < k) (hc : ∀ r ∈ g, c r = k) :
    ∃ c' : Nat → K, (∀ r, c' r = c r ∨ c' r = 1) ∧ (∀ r, r ∉ g → c' r = c r) ∧
      deconvolveCall env da (gainH c h) g = (gainH c' (deconvolveCall env da h g).1, (deconvolveCall env da h g).2) ∧
      (da.rspComps = none → (deconvolveCall env da h g).2 = none → ∀ r ∈ g, c' r = 1) := by
  obtain ⟨c', h1, h2, h3, h4⟩ := deconvolve_gain env.dec hk da hm hn c k hk0 h g hc
  refine ⟨c', h1, h2, ?_, fun hr hx r hrg => ?_⟩
  · unfold deconvolveCall
    rw [h3]
    cases deconvolve env.dec h g da with
    | mk h' res =>
      cases res with
      | error e => rfl
      | ok l =>
        simp only
        rw [gainH_eq, addInfoAll_mapH (fun r => gain (c' r)) _ (fun r t => gain_addInfo _ _ t)]
  · unfold deconvolveCall at hx
    cases hd : deconvolve env.dec h g da with
    | mk h' res =>
      rw [hd] at hx h4
      cases res with
      | error e => simp at hx
      | ok l =>
        have hl := (deconvolve_covers env.dec (fun _ => True)
          ⟨fun _ _ _ _ _ _ _ _ => trivial, fun _ _ _ _ _ _ _ _ _ => trivial,
            fun _ _ _ _ _ _ _ _ _ => trivial, fun _ _ _ _ _ _ _ _ _ _ => trivial⟩ h h' g l da hm hr hd).1
        refine h4 l rfl r ?_
        rw [hl]
        exact hrg

theorem mirrorTrace_gain (c o : K) (t : Trace K) : mirrorTrace o (gain c t) = gain c (mirrorTrace o t) := by
  unfold mirrorTrace
  rw [gain_endtime]
  unfold gain Trace.put
  simp only [List.map_reverse]

theorem mirrorLoop_gain (c : Nat → K) (h : Heap K) (s : List Nat) :
    mirrorLoop (gainH c h) s = (gainH c (mirrorLoop h s).1, (mirrorLoop h s).2) := by
  induction s generalizing h with
  | nil => rfl
  | cons a s ih =>
    unfold mirrorLoop
    rw [show (gainH c h a).getTime "onset" = (h a).getTime "onset" from rfl]
    cases (h a).getTime "onset" with
    | none =>
      simp only
      rw [← gainH_set]
      unfold gainH gain
      simp only [List.map_reverse]
    | some o =>
      simp only
      rw [← ih, ← gainH_set, ← mirrorTrace_gain]
      rfl

theorem mirrorStage_gain (c : Nat → K) (m : Str) (h : Heap K) (s : List Nat) :
    mirrorStage m (gainH c h, s)
      = ((gainH c (mirrorStage m (h, s)).1.1, (mirrorStage m (h, s)).1.2), (mirrorStage m (h, s)).2) := by
  unfold mirrorStage
  split
  · simp only [mirrorLoop_gain]
  · rfl

theorem labelStage_gain (c : Nat → K) (m : Str) (h : Heap K) (s : List Nat) :
    labelStage m (gainH c h, s)
      = ((gainH c (labelStage m (h, s)).1.1, (labelStage m (h, s)).1.2), (labelStage m (h, s)).2) := by
  have e : setType "rf".toList (gainH c h) s = gainH c (setType "rf".toList h s) :=
    forEach_mapH (fun r => gain (c r)) _ (fun r t => rfl) h s
  unfold labelStage
  simp only
  rw [e, show streamMethod (gainH c (setType "rf".toList h s)) s = streamMethod (setType "rf".toList h s) s from
    streamMethod_mapH (fun r => gain (c r)) (fun r t => rfl) _ _]
  cases streamMethod (setType "rf".toList h s) s with
  | error e => rfl
  | ok m' =>
    simp only
    split
    · rw [show setMethod m (gainH c (setType "rf".toList h s)) s = gainH c (setMethod m (setType "rf".toList h s) s) from
        forEach_mapH (fun r => gain (c r)) _ (fun r t => rfl) _ s]
    · rfl

theorem sameRecord_congr (timeStr : K → Str) (h h' : Heap K) (hr : ∀ r, recordOf (h' r) = recordOf (h r)) (q r : Nat) :
    SameRecord timeStr h' q r ↔ SameRecord timeStr h q r := by
  have e1 := hr q
  have e2 := hr r
  simp only [recordOf, Prod.mk.injEq] at e1 e2
  unfold SameRecord
  rw [e1.1, e2.1, getTime_congr e1.2.1, getTime_congr e2.2.1]

/-- `rf` for two sets of gain factors: everything at once. -/
theorem rf_gain (env : RfEnv K) (a : RfArgs K) (hk : KeepsRecord env) (hg : GainEnv env)
    (hrot : ∀ x, GroupLocal (env.rotate x)) (hfunc : a.deconvolve ≠ some "func".toList)
    (hnorm : a.deconvolve = some "time".toList → a.normalize ≠ some .none)
    (c : Nat → K) (hc0 : ∀ r, 0 < c r) (h : Heap K) (s : List Nat) (hn : s.Nodup) (hc : OneGain env.timeStr c h s) :
    ∃ c' : Nat → K, (∀ r, c' r = c r ∨ c' r = 1) ∧
      rf env a (gainH c h, s) = ((gainH c' (rf env a (h, s)).1.1, (rf env a (h, s)).1.2), (rf env a (h, s)).2) ∧
      (a.rspComps = none → a.deconvolve.isSome → (rf env a (h, s)).2 = none → ∀ h1 s1,
        rfPrep env a (h, s) = ((h1, s1), none) → ∀ r ∈ s1, (∃ l : List Nat, l.Nodup ∧
          (∀ q, q ∈ l ↔ q ∈ s1 ∧ SameRecord env.timeStr h1 q r) ∧ (l.length = 2 ∨ l.length = 3)) → c' r = 1) := by
  unfold rf rfBody
  rw [show rfMethod (gainH c h, s).1 (gainH c h, s).2 a.method = rfMethod (h, s).1 (h, s).2 a.method from by
    unfold rfMethod requestedMethod
    cases a.method with
    | some m => rfl
    | none =>
      simp only
      rw [show streamMethod (gainH c h) s = streamMethod h s from
        streamMethod_mapH (fun r => gain (c r)) (fun r t => rfl) _ _]]
  cases hm : rfMethod (h, s).1 (h, s).2 a.method with
  | error e => exact ⟨c, fun r => .inl rfl, rfl, fun _ _ hx => by simp [SRes.andThen] at hx⟩
  | ok m =>
    simp only
    -- the last stages commute with any factors
    have hlast : ∀ (c' : Nat → K) (x x' : SRes K), x' = ((gainH c' x.1.1, x.1.2), x.2) →
        ((x'.andThen (mirrorStage m)).andThen (labelStage m)).andThen
          (fun st' => ((addInfoAll env.infoRf st'.1 st'.2, st'.2), none))
        = ((gainH c' (((x.andThen (mirrorStage m)).andThen (labelStage m)).andThen
          (fun st' => ((addInfoAll env.infoRf st'.1 st'.2, st'.2), none))).1.1,
          (((x.andThen (mirrorStage m)).andThen (labelStage m)).andThen
          (fun st' => ((addInfoAll env.infoRf st'.1 st'.2, st'.2), none))).1.2),
          (((x.andThen (mirrorStage m)).andThen (labelStage m)).andThen
          (fun st' => ((addInfoAll env.infoRf st'.1 st'.2, st'.2), none))).2) := by
      rintro c' ⟨⟨h1, s1⟩, oe⟩ x' rfl
      cases oe with
      | some e => rfl
      | none =>
        simp only [SRes.andThen]
        rw [mirrorStage_gain]
        cases mirrorStage m (h1, s1) with
        | mk st2 oe2 =>
          obtain ⟨h2, s2⟩ := st2
          cases oe2 with
          | some e => rfl
          | none =>
            simp only
            rw [labelStage_gain]
            cases labelStage m (h2, s2) with
            | mk st3 oe3 =>
              obtain ⟨h3, s3⟩ := st3
              cases oe3 with
              | some e => rfl
              | none =>
                simp only
                rw [gainH_eq, addInfoAll_mapH (fun r => gain (c' r)) _ (fun r t => gain_addInfo _ _ t)]
    obtain ⟨⟨p1, p2⟩, q1, q2⟩ :=
      And.intro ((stepGain_prep env a hk hg hrot c hc0).1 h s hc) ((stepGain_prep env a hk hg hrot c hc0).2 h s hc)
    simp only at q1 q2
    unfold rfBefore
    cases hq : (rfPrep env a (h, s)).andThen qStage with
    | mk st1 oe =>
      obtain ⟨h1, s1⟩ := st1
      rw [hq] at q1 q2
      rw [q1]
      cases oe with
      | some e =>
        refine ⟨c, fun r => .inl rfl, rfl, fun _ _ hx => ?_⟩
        simp [SRes.andThen] at hx
      | none =>
        obtain ⟨r1, r2⟩ := q2 _ rfl
        have hsub : s1.Sublist s := by
          have := rfBefore_sublist { env with } { a with deconvolve := none } m (h, s)
          unfold rfBefore at this
          rw [show rfPrep { env with } { a with deconvolve := none } (h, s) = rfPrep env a (h, s) from rfl, hq] at this
          exact this
        have hc1 : OneGain env.timeStr c h1 s1 := oneGain_mono env.timeStr c h h1 s s1 r1 r2 hc
        have hdec : ∃ c' : Nat → K, (∀ r, c' r = c r ∨ c' r = 1) ∧
            deconvolveStage env a m (gainH c h1, s1)
              = ((gainH c' (deconvolveStage env a m (h1, s1)).1.1, (deconvolveStage env a m (h1, s1)).1.2),
                (deconvolveStage env a m (h1, s1)).2) ∧
            (a.rspComps = none → a.deconvolve.isSome → (deconvolveStage env a m (h1, s1)).2 = none →
              ∀ r ∈ s1, (∃ l : List Nat, l.Nodup ∧
              (∀ q, q ∈ l ↔ q ∈ s1 ∧ SameRecord env.timeStr h1 q r) ∧ (l.length = 2 ∨ l.length = 3)) → c' r = 1) := by
          unfold deconvolveStage
          cases hd : a.deconvolve with
          | none => exact ⟨c, fun r => .inl rfl, rfl, fun _ hx => by simp at hx⟩
          | some d =>
            simp only
            unfold forGroups
            simp only [iter3c_gain]
            cases hi : iter3c env.timeStr h1 s1 with
            | error e => exact ⟨c, fun r => .inl rfl, rfl, fun _ _ hx => by simp at hx⟩
            | ok gs =>
              obtain ⟨g1, g2, g3⟩ := iter3c_groups env.timeStr h1 s1 (hn.sublist hsub) gs hi
              obtain ⟨c', b1, b2, b3⟩ := groupBody_gain (a.rspComps = none) (deconvolveCall env (rfDeconvArgs a m d))
                (fun c k h g h1 h2 => deconvolveCall_gain env hg.dec (rfDeconvArgs a m d)
                  (fun hx => hfunc (by rw [hd]; exact congrArg some hx))
                  (fun hx => hnorm (by rw [hd]; exact congrArg some hx)) c k h g h1 h2)
                c hc0 h1 gs g1 (group_gain env.timeStr c h1 s1 hc1 gs hi)
              refine ⟨c', b1, ?_, ?_⟩
              · simp only [b2]
              · intro hr _ hx r hrs hl
                obtain ⟨g, hgm, hrg⟩ := g3 r hrs hl
                exact b3 hr hx g hgm r hrg
        obtain ⟨c', d1, d2, d3⟩ := hdec
        refine ⟨c', d1, ?_, ?_⟩
        · exact hlast c' _ _ d2
        · intro hr hs hx hh ss hp r hrs hl
          -- the prepared stream and the stream after the sign of Q have the same records
          rw [hp] at hq p2
          obtain ⟨-, w2⟩ := p2 _ rfl
          have hq' := hq
          simp only [SRes.andThen, qStage, Prod.mk.injEq, and_true] at hq'
          obtain ⟨hq1, hq2⟩ := hq'
          rw [hq2] at hrs hl
          refine d3 hr hs ?_ r hrs ?_
          · cases hd : deconvolveStage env a m (h1, s1) with
            | mk st2 oe2 =>
              cases oe2 with
              | none => rfl
              | some e =>
                simp only [SRes.andThen, hd] at hx
                exact hx
          · obtain ⟨l, l1, l2, l3⟩ := hl
            refine ⟨l, l1, fun q => ?_, l3⟩
            rw [l2 q, sameRecord_congr env.timeStr hh h1 (fun x => (r2 x).trans (w2 x).symm)]

/-- C137, outcome.  Multiplying the data of every record with a positive factor changes neither whether and how `rf`
fails, nor which traces are left, nor any header field; each trace keeps its factor or loses it. -/
theorem C137_same_outcome (env : RfEnv K) (a : RfArgs K) (hk : KeepsRecord env) (hg : GainEnv env)
    (hrot : ∀ x, GroupLocal (env.rotate x)) (hfunc : a.deconvolve ≠ some "func".toList)
    (hnorm : a.deconvolve = some "time".toList → a.normalize ≠ some .none)
    (c : Nat → K) (hc0 : ∀ r, 0 < c r) (h : Heap K) (s : List Nat) (hn : s.Nodup) (hc : OneGain env.timeStr c h s)
    (h1 h2 : Heap K) (s1 s2 : List Nat) (e1 e2 : Option PyErr) (hr1 : rf env a (h, s) = ((h1, s1), e1))
    (hr2 : rf env a (gainH c h, s) = ((h2, s2), e2)) :
    e2 = e1 ∧ s2 = s1 ∧ ∀ r, h2 r = h1 r ∨ h2 r = { h1 r with data := (h1 r).data.map (c r * ·) } := by
  obtain ⟨c', b1, b2, -⟩ := rf_gain env a hk hg hrot hfunc hnorm c hc0 h s hn hc
  rw [hr1, hr2] at b2
  simp only [Prod.mk.injEq] at b2
  obtain ⟨⟨e3, e4⟩, e5⟩ := b2
  refine ⟨e5, e4, fun r => ?_⟩
  rw [e3]
  unfold gainH
  rcases b1 r with h | h
  · right; rw [h]; rfl
  · left; rw [h, gain_one]

/-- C137, results.  If `rf` deconvolves all components and every record of the prepared stream has two or three
traces, the receiver functions do not depend on the gains at all. -/
theorem C137_same_result (env : RfEnv K) (a : RfArgs K) (hk : KeepsRecord env) (hg : GainEnv env)
    (hrot : ∀ x, GroupLocal (env.rotate x)) (d : Str) (hd : a.deconvolve = some d) (hfunc : d ≠ "func".toList)
    (hnorm : d = "time".toList → a.normalize ≠ some .none) (hresp : a.rspComps = none)
    (c : Nat → K) (hc0 : ∀ r, 0 < c r) (h : Heap K) (s : List Nat) (hn : s.Nodup) (hc : OneGain env.timeStr c h s)
    (h1 : Heap K) (s1 : List Nat) (hr1 : rf env a (h, s) = ((h1, s1), none)) (hp : Heap K) (sp : List Nat)
    (hprep : rfPrep env a (h, s) = ((hp, sp), none))
    (hgrp : ∀ r ∈ sp, ∃ l : List Nat, l.Nodup ∧
      (∀ q, q ∈ l ↔ q ∈ sp ∧ SameRecord env.timeStr hp q r) ∧ (l.length = 2 ∨ l.length = 3)) :
    ∃ h2, rf env a (gainH c h, s) = ((h2, s1), none) ∧ ∀ r ∈ sp, h2 r = h1 r := by
  obtain ⟨c', b1, b2, b3⟩ := rf_gain env a hk hg hrot (by rw [hd]; simpa using hfunc)
    (by rw [hd]; intro hx; exact hnorm (Option.some.inj hx)) c hc0 h s hn hc
  rw [hr1] at b2 b3
  refine ⟨_, b2, fun r hr => ?_⟩
  have := b3 hresp (by rw [hd]; rfl) rfl hp sp hprep r hr (hgrp r hr)
  unfold gainH
  rw [this, gain_one]

end stages

section examples

/-- The example environment with kernels that divide by the sum of the source samples. -/
def gEnv : RfEnv ℚ := { iEnv with
  dec := { dEnv with
    trimPad := fun t _ _ => t
    time := fun rd src _ _ => .ok (rd.map (·.map (· / src.sum)))
    water := fun rd src _ _ _ => .ok (rd.map (·.map (· / src.sum)))
    iter := fun rd src _ _ _ => .ok (rd.map fun d => (d.map (· / src.sum), 7))
    mt := fun rd src _ _ _ _ => .ok (rd.map (·.map (· / src.sum))) } }

theorem gEnv_gain : GainEnv gEnv where
  filter _ _ _ := rfl
  trim _ _ _ _ _ := rfl
  decimate _ _ _ _ := rfl
  rotate _ _ _ _ _ _ _ := rfl
  dec := by
    have key : ∀ (c : ℚ), 0 < c → ∀ (d src : List ℚ),
        (d.map (c * ·)).map (· / (src.map (c * ·)).sum) = d.map (· / src.sum) := by
      intro c hc d src
      have : (src.map (c * ·)).sum = c * src.sum := by
        induction src with
        | nil => simp
        | cons a l ih => rw [List.map_cons, List.sum_cons, List.sum_cons, ih]; ring
      rw [this, List.map_map]
      refine List.map_congr_left fun v _ => ?_
      simp only [Function.comp]
      rw [mul_div_mul_left _ _ hc.ne']
    have key2 : ∀ (c : ℚ), 0 < c → ∀ (rd : List (List ℚ)) (src : List ℚ),
        (gainL c rd).map (·.map (· / (src.map (c * ·)).sum)) = rd.map (·.map (· / src.sum)) := by
      intro c hc rd src
      unfold gainL
      rw [List.map_map]
      exact List.map_congr_left fun d _ => key c hc d src
    refine ⟨fun _ _ _ _ _ => rfl, fun _ _ _ _ => rfl, fun _ _ _ _ _ _ _ _ _ => rfl, ?_, ?_, ?_, ?_⟩
    · intro c hc rd src sh n _
      exact congrArg Except.ok (key2 c hc rd src)
    · intro c hc rd src sr ts n
      exact congrArg Except.ok (key2 c hc rd src)
    · intro c hc rd src sr ts n
      refine congrArg Except.ok ?_
      unfold gainL
      rw [List.map_map]
      exact List.map_congr_left fun d _ => congrArg (·, 7) (key c hc d src)
    · intro c hc rd src nse sr ts n
      exact congrArg Except.ok (key2 c hc rd src)

/-- C137 is not vacuous: interleaved records of two stations, the second one with the gain 1000; the call succeeds, the
records are complete, and the results are the same although the data are not. -/
example : KeepsRecord gEnv ∧ (∀ x, GroupLocal (gEnv.rotate x)) ∧ [0, 3, 1, 4, 2, 5].Nodup ∧
    OneGain gEnv.timeStr (fun r => if r < 3 then 1 else 1000) twoRecords [0, 3, 1, 4, 2, 5] ∧
    (rf gEnv { method := some "P".toList } (twoRecords, [0, 3, 1, 4, 2, 5])).2 = none ∧
    (rfPrep gEnv { method := some "P".toList } (twoRecords, [0, 3, 1, 4, 2, 5])).2 = none ∧
    ((rf gEnv { method := some "P".toList } (twoRecords, [0, 3, 1, 4, 2, 5])).1.1 4).data = [3/14, 1/14, 2/7, 1/14, 5/14] ∧
    ((rf gEnv { method := some "P".toList } (gainH (fun r => if r < 3 then 1 else 1000) twoRecords,
      [0, 3, 1, 4, 2, 5])).1.1 4).data = [3/14, 1/14, 2/7, 1/14, 5/14] := by
  refine ⟨⟨iEnv_keeps.filter, iEnv_keeps.trim, iEnv_keeps.decimate, iEnv_keeps.rotate⟩, iEnv_rotate, by decide, ?_,
    by decide +kernel, by decide +kernel, by decide +kernel, by decide +kernel⟩
  intro q hq r hr hqr
  have := twoRecords_whole q hq r hr hqr
  have h3 : (3 ≤ q) ↔ (3 ≤ r) := decide_eq_decide.1 this
  have h4 : (q < 3) ↔ (r < 3) := by omega
  simp only [h4]

/-- The exclusion in C137 is needed: without normalisation the time domain result grows with the square of the gain. -/
theorem C137_not_normalized :
    deconvTime (fun a y => (.ok [y.getD 0 0 / a.getD 0 1] : Res (List ℚ))) [[1]] [1] 0 1 none none = .ok [[1 / 2]] ∧
    deconvTime (fun a y => (.ok [y.getD 0 0 / a.getD 0 1] : Res (List ℚ))) (gainL 2 [[1]]) [2] 0 1 none none
      = .ok [[2]] := by
  constructor <;> decide +kernel

end examples

end Verif.Props
