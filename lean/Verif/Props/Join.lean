import Verif.Props.IndependentRf

/-!
# C131: `RFStream.rf` fails for a stream only if it fails for one of its records
-/

set_option linter.unusedSimpArgs false
set_option linter.unusedSectionVars false

namespace Verif.Props
open Verif.Py Verif.Model Verif.Spec

section join
variable {K : Type} [Field K] [LinearOrder K] [IsStrictOrderedRing K] [FloorRing K]

/-- The rest of the stream. -/
def other (p : Nat → Bool) : Nat → Bool := fun r => !p r

theorem forEachE_join {p : Nat → Bool} {h h' h'' a b : Heap K} (hA : AgreeP p h h')
    (hB : AgreeP (other p) h h'') (f : Trace K → Res (Trace K)) (s : List Nat)
    (h1 : Heap.forEachE f h' (s.filter p) = (a, none))
    (h2 : Heap.forEachE f h'' (s.filter (other p)) = (b, none)) :
    ∃ c, Heap.forEachE f h s = (c, none) := by
  induction s generalizing h h' h'' with
  | nil => exact ⟨h, rfl⟩
  | cons x s ih =>
    by_cases hp : p x = true
    · have hq : ¬ other p x = true := by simp [other, hp]
      rw [List.filter_cons_of_pos hp] at h1
      rw [List.filter_cons_of_neg hq] at h2
      unfold Heap.forEachE at h1 ⊢
      rw [hA x hp]
      cases hf : f (h' x) with
      | error e => rw [hf] at h1; simp at h1
      | ok t =>
        rw [hf] at h1
        exact ih (hA.set _ _) (hB.set_out _ _ (by simpa using hq)) h1 h2
    · have hq : other p x = true := by simpa [other] using hp
      rw [List.filter_cons_of_neg hp] at h1
      rw [List.filter_cons_of_pos hq] at h2
      unfold Heap.forEachE at h2 ⊢
      rw [hB x hq]
      cases hf : f (h'' x) with
      | error e => rw [hf] at h2; simp at h2
      | ok t =>
        rw [hf] at h2
        exact ih (hA.set_out _ _ (by simpa using hp)) (hB.set _ _) h1 h2

theorem mirrorLoop_join {p : Nat → Bool} {h h' h'' a b : Heap K} (hA : AgreeP p h h')
    (hB : AgreeP (other p) h h'') (s : List Nat)
    (h1 : mirrorLoop h' (s.filter p) = (a, none))
    (h2 : mirrorLoop h'' (s.filter (other p)) = (b, none)) :
    ∃ c, mirrorLoop h s = (c, none) := by
  induction s generalizing h h' h'' with
  | nil => exact ⟨h, rfl⟩
  | cons x s ih =>
    by_cases hp : p x = true
    · have hq : ¬ other p x = true := by simp [other, hp]
      rw [List.filter_cons_of_pos hp] at h1
      rw [List.filter_cons_of_neg hq] at h2
      unfold mirrorLoop at h1 ⊢
      rw [hA x hp]
      cases hf : (h' x).getTime "onset" with
      | none => rw [hf] at h1; simp at h1
      | some t =>
        rw [hf] at h1
        exact ih (hA.set _ _) (hB.set_out _ _ (by simpa using hq)) h1 h2
    · have hq : other p x = true := by simpa [other] using hp
      rw [List.filter_cons_of_neg hp] at h1
      rw [List.filter_cons_of_pos hq] at h2
      unfold mirrorLoop at h2 ⊢
      rw [hB x hq]
      cases hf : (h'' x).getTime "onset" with
      | none => rw [hf] at h2; simp at h2
      | some t =>
        rw [hf] at h2
        exact ih (hA.set_out _ _ (by simpa using hp)) (hB.set _ _) h1 h2

/-- One group inside the part `p`: the call agrees on the part, and nothing else changes. -/
theorem group_in {p : Nat → Bool} (f : Heap K → List Nat → Heap K × Option PyErr) (hf : GroupLocal f)
    {h h' h'' : Heap K} (hA : AgreeP p h h') (hB : AgreeP (other p) h h'') (g : List Nat)
    (hg : ∀ r ∈ g, p r = true) :
    (f h g).2 = (f h' g).2 ∧ AgreeP p (f h g).1 (f h' g).1 ∧ AgreeP (other p) (f h g).1 h'' := by
  obtain ⟨l1, l2, l3⟩ := hf h h' g (fun r hr => hA r (hg r hr))
  have l4 := (hf h' h g (fun r hr => (hA r (hg r hr)).symm)).2.2
  refine ⟨l1, ?_, ?_⟩
  · intro r hr
    by_cases hrg : r ∈ g
    · exact l2 r hrg
    · rw [l3 r hrg, l4 r hrg]; exact hA r hr
  · intro r hr
    have hrg : r ∉ g := by
      intro hrg
      have := hg r hrg
      simp [other, this] at hr
    rw [l3 r hrg]
    exact hB r hr

theorem other_other (p : Nat → Bool) : other (other p) = p := by
  funext r; simp [other]

theorem groupBody_join {p : Nat → Bool} (f : Heap K → List Nat → Heap K × Option PyErr)
    (hf : GroupLocal f) {h h' h'' a b : Heap K} (hA : AgreeP p h h') (hB : AgreeP (other p) h h'')
    (gs : List (List Nat)) (hne : ∀ g ∈ gs, g ≠ [])
    (hgs : ∀ g ∈ gs, g.all p = true ∨ ∀ r ∈ g, p r = false)
    (h1 : groupBody f h' (gs.filter (fun g => g.all p)) = (a, none))
    (h2 : groupBody f h'' (gs.filter (fun g => g.all (other p))) = (b, none)) :
    ∃ c, groupBody f h gs = (c, none) := by
  induction gs generalizing h h' h'' with
  | nil => exact ⟨h, rfl⟩
  | cons g gs ih =>
    have hgs' : ∀ g ∈ gs, g.all p = true ∨ ∀ r ∈ g, p r = false :=
      fun q hq => hgs q (List.mem_cons_of_mem _ hq)
    have hne' : ∀ g ∈ gs, g ≠ [] := fun q hq => hne q (List.mem_cons_of_mem _ hq)
    obtain ⟨x, hx⟩ := List.exists_mem_of_ne_nil g (hne g List.mem_cons_self)
    rcases hgs g List.mem_cons_self with hp | hp
    · have hq : ¬ g.all (other p) = true := by
        intro hq
        have e1 := List.all_eq_true.1 hp x hx
        have e2 := List.all_eq_true.1 hq x hx
        simp [other, e1] at e2
      rw [List.filter_cons_of_pos (by simpa using hp)] at h1
      rw [List.filter_cons_of_neg (by simpa using hq)] at h2
      obtain ⟨l1, l2, l3⟩ := group_in f hf hA hB g (List.all_eq_true.1 hp)
      unfold groupBody at h1 ⊢
      cases hf1 : f h' g with
      | mk u e =>
        cases hf2 : f h g with
        | mk v e' =>
          rw [hf1] at h1
          rw [hf1, hf2] at l1 l2
          rw [hf2] at l3
          simp only at l1 l2 l3
          subst l1
          cases e' with
          | some e => simp at h1
          | none => exact ih l2 l3 hne' hgs' h1 h2
    · have hq : g.all (other p) = true := by
        rw [List.all_eq_true]
        intro r hr
        simp [other, hp r hr]
      have hp' : ¬ g.all p = true := by
        intro hq
        have e1 := List.all_eq_true.1 hq x hx
        rw [hp x hx] at e1
        cases e1
      rw [List.filter_cons_of_neg (by simpa using hp')] at h1
      rw [List.filter_cons_of_pos (by simpa using hq)] at h2
      obtain ⟨l1, l2, l3⟩ := group_in (p := other p) f hf hB (by rw [other_other]; exact hA) g
        (List.all_eq_true.1 hq)
      rw [other_other] at l3
      unfold groupBody at h2 ⊢
      cases hf1 : f h'' g with
      | mk u e =>
        cases hf2 : f h g with
        | mk v e' =>
          rw [hf1] at h2
          rw [hf1, hf2] at l1 l2
          rw [hf2] at l3
          simp only at l1 l2 l3
          subst l1
          cases e' with
          | some e => simp at h2
          | none => exact ih l3 l2 hne' hgs' h1 h2

theorem wholeRecords_other (timeStr : K → Str) (p : Nat → Bool) (h : Heap K) (s : List Nat)
    (hW : WholeRecords timeStr p h s) : WholeRecords timeStr (other p) h s := by
  intro q hq r hr hqr
  unfold other
  rw [hW q hq r hr hqr]

theorem iter3c_join (timeStr : K → Str) (p : Nat → Bool) (h h' h'' : Heap K) (hA : AgreeP p h h')
    (hB : AgreeP (other p) h h'') (s : List Nat) (gs' gs'' : List (List Nat))
    (h1 : iter3c timeStr h' (s.filter p) = .ok gs')
    (h2 : iter3c timeStr h'' (s.filter (other p)) = .ok gs'') :
    ∃ gs, iter3c timeStr h s = .ok gs := by
  have key : ∀ (g : Heap K) (l : List Nat) (gs : List (List Nat)), iter3c timeStr g l = .ok gs →
      ∀ r ∈ l, ∀ e, onsetKey timeStr g r ≠ .error e := by
    intro g l gs hok r hr e he
    obtain ⟨e', h'⟩ := (C03_fails_iff (fun r => (g r).id) (onsetKey timeStr g) (.tuple [2, 3]) l).2
      ⟨r, hr, e, he⟩
    unfold iter3c at hok
    rw [hok] at h'
    cases h'
  cases hi : iter3c timeStr h s with
  | ok gs => exact ⟨gs, rfl⟩
  | error e =>
    exfalso
    unfold iter3c at hi
    obtain ⟨r, hr, e', he⟩ := (C03_fails_iff _ _ _ _).1 ⟨e, hi⟩
    by_cases hp : p r = true
    · refine key h' _ gs' h1 r (List.mem_filter.2 ⟨hr, hp⟩) e' ?_
      unfold onsetKey at he ⊢
      rw [← hA r hp]; exact he
    · have hq : other p r = true := by simpa [other] using hp
      refine key h'' _ gs'' h2 r (List.mem_filter.2 ⟨hr, hq⟩) e' ?_
      unfold onsetKey at he ⊢
      rw [← hB r hq]; exact he

theorem iter3c_ne_nil (timeStr : K → Str) (h : Heap K) (s : List Nat) (gs : List (List Nat))
    (hok : iter3c timeStr h s = .ok gs) : ∀ g ∈ gs, g ≠ [] := by
  intro g hg
  unfold iter3c at hok
  obtain ⟨κ, _, kf, rfl, -, -⟩ := iterMultipleComponents_ok _ _ _ _ _ hok
  unfold iterSubstreams at hg
  have := (List.mem_filter.1 hg).2
  rintro rfl
  simp [NumComp.accepts] at this

/-- A step that succeeds on the whole stream if it succeeds on both parts. -/
def StepJoin (timeStr : K → Str) (p : Nat → Bool) (F : SState K → SRes K) : Prop :=
  ∀ st st' st'' a b : SState K, Sim p st st' → Sim (other p) st st'' → WholeRecords timeStr p st.1 st.2 →
    F st' = (a, none) → F st'' = (b, none) → ∃ c, F st = (c, none)

/-- Both properties of a step, for the part and for the rest. -/
structure StepBoth (timeStr : K → Str) (p : Nat → Bool) (F : SState K → SRes K) : Prop where
  left : StepSim timeStr p F
  right : StepSim timeStr (other p) F
  join : StepJoin timeStr p F

theorem stepBoth_andThen (timeStr : K → Str) (p : Nat → Bool) (F G : SState K → SRes K)
    (hF : StepBoth timeStr p F) (hG : StepBoth timeStr p G) :
    StepBoth timeStr p (fun st => (F st).andThen G) := by
  refine ⟨stepSim_andThen _ _ _ _ hF.left hG.left, stepSim_andThen _ _ _ _ hF.right hG.right, ?_⟩
  intro st st' st'' a b hS1 hS2 hW h1 h2
  obtain ⟨a1, f1, g1⟩ := andThen_ok h1
  obtain ⟨b1, f2, g2⟩ := andThen_ok h2
  obtain ⟨c1, f3⟩ := hF.join st st' st'' a1 b1 hS1 hS2 hW f1 f2
  obtain ⟨⟨a1', x1, x2⟩, x3, x4⟩ := hF.left st st' c1 hS1 hW f3
  obtain ⟨⟨b1', y1, y2⟩, -, -⟩ := hF.right st st'' c1 hS2 (wholeRecords_other _ _ _ _ hW) f3
  rw [f1] at x1
  rw [f2] at y1
  simp only [Prod.mk.injEq, and_true] at x1 y1
  subst x1 y1
  obtain ⟨c, g3⟩ := hG.join c1 a1 b1 a b x2 y2 (wholeRecords_mono _ _ _ _ _ _ x3 x4 hW) g1 g2
  exact ⟨c, by simp only [SRes.andThen, f3, g3]⟩

theorem stepBoth_id (timeStr : K → Str) (p : Nat → Bool) :
    StepBoth (K := K) timeStr p (fun st => (st, none)) :=
  ⟨stepSim_id _ _, stepSim_id _ _, fun st _ _ _ _ _ _ _ _ _ => ⟨st, rfl⟩⟩

theorem stepBoth_traces (timeStr : K → Str) (p : Nat → Bool) (f : Trace K → Res (Trace K))
    (hf : ∀ t t', f t = .ok t' → recordOf t' = recordOf t) : StepBoth timeStr p (forTraces f) := by
  refine ⟨stepSim_traces _ _ _ hf, stepSim_traces _ _ _ hf, ?_⟩
  intro st st' st'' a b hS1 hS2 _ h1 h2
  unfold forTraces at h1 h2 ⊢
  simp only [Prod.mk.injEq] at h1 h2
  rw [hS1.1] at h1
  rw [hS2.1] at h2
  obtain ⟨c, hc⟩ := forEachE_join hS1.2 hS2.2 f st.2 (Prod.ext rfl h1.2) (Prod.ext rfl h2.2)
  exact ⟨(c, st.2), by simp only [hc]⟩

theorem trim2_ok_iff (trim : Trace K → TArg K → TArg K → Res (Trace K)) (x y : TArg K) (ref : RefTime K)
    (st : SState K) : (trim2 trim x y ref st).2 = (Heap.forEachE (cutTrace trim x y ref) st.1 st.2).2 := by
  unfold trim2
  cases Heap.forEachE (cutTrace trim x y ref) st.1 st.2 with
  | mk h e => cases e <;> rfl

theorem stepBoth_trim2 (timeStr : K → Str) (p : Nat → Bool)
    (trim : Trace K → TArg K → TArg K → Res (Trace K))
    (ht : ∀ t a b t', trim t a b = .ok t' → recordOf t' = recordOf t) (x y : TArg K) (ref : RefTime K) :
    StepBoth timeStr p (trim2 trim x y ref) := by
  refine ⟨stepSim_trim2 _ _ _ ht _ _ _, stepSim_trim2 _ _ _ ht _ _ _, ?_⟩
  intro st st' st'' a b hS1 hS2 _ h1 h2
  have e1 := trim2_ok_iff trim x y ref st'
  have e2 := trim2_ok_iff trim x y ref st''
  rw [h1, hS1.1] at e1
  rw [h2, hS2.1] at e2
  obtain ⟨c, hc⟩ := forEachE_join hS1.2 hS2.2 _ st.2 (Prod.ext rfl e1.symm) (Prod.ext rfl e2.symm)
  have e3 := trim2_ok_iff trim x y ref st
  rw [hc] at e3
  exact ⟨_, Prod.ext rfl e3⟩

theorem forGroups_join (timeStr : K → Str) (p : Nat → Bool)
    (f : Heap K → List Nat → Heap K × Option PyErr) (hl : GroupLocal f) :
    StepJoin timeStr p (forGroups timeStr f) := by
  intro st st' st'' a b hS1 hS2 hW h1 h2
  unfold forGroups at h1 h2 ⊢
  rw [hS1.1] at h1
  rw [hS2.1] at h2
  cases hi1 : iter3c timeStr st'.1 (st.2.filter p) with
  | error e => rw [hi1] at h1; simp at h1
  | ok gs1 =>
    cases hi2 : iter3c timeStr st''.1 (st.2.filter (other p)) with
    | error e => rw [hi2] at h2; simp at h2
    | ok gs2 =>
      rw [hi1] at h1
      rw [hi2] at h2
      obtain ⟨gs, hi⟩ := iter3c_join timeStr p _ _ _ hS1.2 hS2.2 st.2 gs1 gs2 hi1 hi2
      obtain ⟨i1, i2⟩ := iter3c_sim timeStr p st.1 st'.1 hS1.2 st.2 hW gs hi
      obtain ⟨j1, -⟩ := iter3c_sim timeStr (other p) st.1 st''.1 hS2.2 st.2
        (wholeRecords_other _ _ _ _ hW) gs hi
      rw [i1] at hi1
      rw [j1] at hi2
      simp only [Except.ok.injEq] at hi1 hi2
      subst hi1 hi2
      simp only [Prod.mk.injEq] at h1 h2
      obtain ⟨c, hc⟩ := groupBody_join f hl hS1.2 hS2.2 gs (iter3c_ne_nil _ _ _ _ hi) i2
        (Prod.ext rfl h1.2) (Prod.ext rfl h2.2)
      rw [hi]
      exact ⟨(c, st.2), by simp only [hc]⟩

/-- The preparation of the data and the sign of Q. -/
theorem stepBoth_prep (env : RfEnv K) (a : RfArgs K) (hk : KeepsRecord env)
    (hrot : ∀ m, GroupLocal (env.rotate m)) (p : Nat → Bool) :
    StepBoth env.timeStr p (fun st => (rfPrep env a st).andThen qStage) := by
  have h1 : StepBoth env.timeStr p (filterStage env a) := by
    unfold filterStage
    by_cases hf : a.filter = true
    · simp only [hf, if_true]; exact stepBoth_traces _ _ _ hk.filter
    · simp only [hf, if_false]; exact stepBoth_id _ _
  have h2 : StepBoth env.timeStr p (trimStage env a) := by
    unfold trimStage
    cases a.trim with
    | none => exact stepBoth_id _ _
    | some w => exact stepBoth_trim2 _ _ _ hk.trim _ _ _
  have h3 : StepBoth env.timeStr p (decimateStage env a) := by
    unfold decimateStage
    cases a.downsample with
    | none => exact stepBoth_id _ _
    | some d =>
      refine stepBoth_traces _ _ _ (fun t t' ht => ?_)
      unfold decimateTrace at ht
      split at ht
      · exact hk.decimate _ _ _ ht
      · simp only [Except.ok.injEq] at ht; rw [ht]
  have h4 : StepBoth env.timeStr p (rotateStage env a) := by
    unfold rotateStage
    cases a.rotate with
    | none => exact stepBoth_id _ _
    | some m => exact ⟨stepSim_groups _ _ _ (hrot m) (hk.rotate m),
        stepSim_groups _ _ _ (hrot m) (hk.rotate m), forGroups_join _ _ _ (hrot m)⟩
  have h12 := stepBoth_andThen _ _ _ _ h1 h2
  have h123 := stepBoth_andThen _ _ _ _ h12 h3
  have h1234 := stepBoth_andThen _ _ _ _ h123 h4
  refine ⟨stepSim_prep env a hk hrot p, stepSim_prep env a hk hrot (other p), ?_⟩
  intro st st' st'' x y hS1 hS2 hW e1 e2
  obtain ⟨x1, f1, -⟩ := andThen_ok e1
  obtain ⟨y1, f2, -⟩ := andThen_ok e2
  obtain ⟨c, hc⟩ := h1234.join st st' st'' x1 y1 hS1 hS2 hW f1 f2
  have hc' : rfPrep env a st = (c, none) := hc
  simp only [hc', SRes.andThen, qStage]
  exact ⟨_, rfl⟩

/-- C131.  `rf` with an explicit method and one of the built-in deconvolutions (or none): the call
succeeds for a stream made of two parts, each consisting of whole records, if and only if it
succeeds for both parts. -/
theorem C131_success (env : RfEnv K) (a : RfArgs K) (m : Str) (hm : a.method = some m)
    (hfunc : a.deconvolve ≠ some "func".toList) (hk : KeepsRecord env)
    (hrot : ∀ x, GroupLocal (env.rotate x)) (hnoise : NoiseLocal env.dec) (hext : KeepsExt env.dec)
    (h : Heap K) (s : List Nat) (hph : PhasesOk h s) (p : Nat → Bool)
    (hW : WholeRecords env.timeStr p h s) :
    (rf env a (h, s)).2 = none ↔
      (rf env a (h, s.filter p)).2 = none ∧ (rf env a (h, s.filter (fun r => !p r))).2 = none := by
  constructor
  · intro hok
    have hok' : rf env a (h, s) = (((rf env a (h, s)).1.1, (rf env a (h, s)).1.2), none) :=
      Prod.ext rfl hok
    obtain ⟨h2, e2, -⟩ := C130_records_partial env a m hm hfunc hk hrot hnoise hext h _ s _ hph p hW hok'
    obtain ⟨h3, e3, -⟩ := C130_records_partial env a m hm hfunc hk hrot hnoise hext h _ s _ hph
      (other p) (wholeRecords_other _ _ _ _ hW) hok'
    refine ⟨by rw [e2], ?_⟩
    have e3' : rf env a (h, s.filter (fun r => !p r)) = _ := e3
    rw [e3']
  · rintro ⟨hok1, hok2⟩
    obtain ⟨m1, st1, st1x, hm1, hb1, -, -⟩ := rf_stages env a (h, s.filter p) _ (Prod.ext rfl hok1)
    obtain ⟨m2, st2, st2x, hm2, hb2, -, -⟩ := rf_stages env a (h, s.filter (other p)) _ (Prod.ext rfl hok2)
    have hmm : rfMethod (h, s).1 (h, s).2 a.method = .ok m1 := by
      rw [← hm1]
      unfold rfMethod requestedMethod
      rw [hm]
    have hm12 : m2 = m1 := by
      have e : rfMethod (h, s.filter (other p)).1 (h, s.filter (other p)).2 a.method =
          rfMethod (h, s.filter p).1 (h, s.filter p).2 a.method := by
        unfold rfMethod requestedMethod
        rw [hm]
      rw [hm1, hm2] at e
      exact Except.ok.inj e
    subst hm12
    have hS1 : Sim p (h, s) (h, s.filter p) := ⟨rfl, fun r _ => rfl⟩
    have hS2 : Sim (other p) (h, s) (h, s.filter (other p)) := ⟨rfl, fun r _ => rfl⟩
    have hW2 := wholeRecords_other _ _ _ _ hW
    have hb : ∃ c, ((rfBefore env a m2 (h, s)).andThen (mirrorStage m2)) = (c, none) := by
      unfold rfBefore at hb1 hb2 ⊢
      obtain ⟨u1, v1, w1⟩ := andThen_ok hb1
      obtain ⟨x1, y1, z1⟩ := andThen_ok v1
      obtain ⟨u2, v2, w2⟩ := andThen_ok hb2
      obtain ⟨x2, y2, z2⟩ := andThen_ok v2
      have hprep := stepBoth_prep env a hk hrot p
      obtain ⟨c1, hc1⟩ := hprep.join (h, s) _ _ x1 x2 hS1 hS2 hW y1 y2
      obtain ⟨⟨x1', q1, q2⟩, q3, q4⟩ := hprep.left (h, s) _ c1 hS1 hW hc1
      obtain ⟨⟨x2', r1, r2⟩, -, -⟩ := hprep.right (h, s) _ c1 hS2 hW2 hc1
      have hc1' : (rfPrep env a (h, s)).andThen qStage = (c1, none) := hc1
      have q1' : (rfPrep env a (h, s.filter p)).andThen qStage = (x1', none) := q1
      have r1' : (rfPrep env a (h, s.filter (other p))).andThen qStage = (x2', none) := r1
      rw [y1] at q1'
      rw [y2] at r1'
      simp only [Prod.mk.injEq, and_true] at q1' r1'
      subst q1' r1'
      have hWc := wholeRecords_mono _ _ _ _ _ _ q3 q4 hW
      have hdec : ∃ c2, deconvolveStage env a m2 c1 = (c2, none) ∧ Sim p c2 u1 ∧ Sim (other p) c2 u2 := by
        unfold deconvolveStage at z1 z2 ⊢
        cases hd : a.deconvolve with
        | none =>
          rw [hd] at z1 z2
          simp only [Prod.mk.injEq, and_true] at z1 z2
          subst z1 z2
          exact ⟨c1, rfl, q2, r2⟩
        | some d =>
          rw [hd] at z1 z2
          simp only at z1 z2 ⊢
          have hf : (rfDeconvArgs a m2 d).method ≠ "func".toList := by
            intro e
            apply hfunc
            rw [hd]
            exact congrArg some e
          have hloc := deconvolveCall_local env hnoise (rfDeconvArgs a m2 d) hf
          obtain ⟨c2, hc2⟩ := forGroups_join env.timeStr p _ hloc c1 _ _ u1 u2 q2 r2 hWc z1 z2
          obtain ⟨⟨g1, g2, g3⟩, -, -⟩ := forGroups_sim env.timeStr p _ hloc c1 _ c2 q2 hWc hc2
          obtain ⟨⟨k1, k2, k3⟩, -, -⟩ := forGroups_sim env.timeStr (other p) _ hloc c1 _ c2 r2
            (wholeRecords_other _ _ _ _ hWc) hc2
          rw [z1] at g2
          rw [z2] at k2
          simp only [Prod.mk.injEq, and_true] at g2 k2
          subst g2 k2
          exact ⟨c2, hc2, g3, k3⟩
      obtain ⟨c2, hc2, t1, t2⟩ := hdec
      have hmir : ∃ c3, mirrorStage m2 c2 = (c3, none) := by
        unfold mirrorStage at w1 w2 ⊢
        by_cases hs : m2 = "S".toList
        · rw [if_pos hs] at w1 w2 ⊢
          simp only [Prod.mk.injEq] at w1 w2
          rw [t1.1] at w1
          rw [t2.1] at w2
          obtain ⟨c, hc⟩ := mirrorLoop_join t1.2 t2.2 c2.2 (Prod.ext rfl w1.2) (Prod.ext rfl w2.2)
          exact ⟨(c, c2.2), by simp only [hc]⟩
        · rw [if_neg hs]
          exact ⟨c2, rfl⟩
      obtain ⟨c3, hc3⟩ := hmir
      refine ⟨c3, ?_⟩
      rw [hc1']
      simp only [SRes.andThen, hc2, hc3]
    obtain ⟨c, hc⟩ := hb
    obtain ⟨⟨_, -, b2⟩, b3, b4⟩ := before_sim env a m2 hfunc hk hrot hnoise hext p _ _ c hS1 hW hc
    obtain ⟨g1, _, l1, -, -⟩ := label_sim m2 p c _ b2 (by
      intro r hr v hv
      rw [b4] at hv
      exact hph r (b3 r hr) v hv)
    rw [rf_of_stages env a m2 (h, s) c _ hmm hc l1]

/-- C131: a record without source component makes the call fail, alone and together with another one. -/
example : (rf iEnv { method := some "P".toList } (twoRecords, [1, 2])).2 = some .valueError ∧
    (rf iEnv { method := some "P".toList } (twoRecords, [3, 4, 5])).2 = none ∧
    (rf iEnv { method := some "P".toList } (twoRecords, [1, 2, 3, 4, 5])).2 = some .valueError := by
  decide +kernel

end join

end Verif.Props
