import Verif.Props.OrderRf
import Verif.Spec.RecordRf

/-!
# Every receiver function is the deconvolution of its own record (C145)
-/

set_option linter.unusedSimpArgs false
set_option linter.unusedSectionVars false

namespace Verif.Props
open Verif.Py Verif.Model Verif.Spec

section record
variable {K : Type} [Field K] [LinearOrder K] [IsStrictOrderedRing K] [FloorRing K]

/-- A loop over disjoint groups with a local body: each group is treated as if it were alone. -/
theorem groupBody_each (f : Heap K → List Nat → Heap K × Option PyErr) (hf : GroupLocal f) (h h' : Heap K)
    (gs : List (List Nat)) (hdis : gs.Pairwise List.Disjoint) (hok : groupBody f h gs = (h', none)) :
    (∀ g ∈ gs, (f h g).2 = none ∧ AgreeOn g h' (f h g).1) ∧ ∀ r, (∀ g ∈ gs, r ∉ g) → h' r = h r := by
  induction gs generalizing h with
  | nil =>
    simp only [groupBody, Prod.mk.injEq, and_true] at hok
    subst hok
    exact ⟨fun g hg => by simp at hg, fun _ _ => rfl⟩
  | cons g gs ih =>
    rw [List.pairwise_cons] at hdis
    unfold groupBody at hok
    cases hfg : f h g with
    | mk h1 e =>
      rw [hfg] at hok
      cases e with
      | some e => simp at hok
      | none =>
        obtain ⟨i1, i2⟩ := ih h1 hdis.2 hok
        have hfr : ∀ r, r ∉ g → h1 r = h r := fun r hr => by
          have := (hf h h g (fun _ _ => rfl)).2.2 r hr
          rw [hfg] at this
          exact this
        refine ⟨fun g' hg' => ?_, fun r hr => ?_⟩
        · rcases List.mem_cons.1 hg' with rfl | hg'
          · rw [hfg]
            refine ⟨rfl, fun r hr => ?_⟩
            exact i2 r (fun g2 hg2 hr2 => hdis.1 g2 hg2 hr hr2)
          · have hag : AgreeOn g' h1 h := fun r hr => hfr r (fun hrg => hdis.1 g' hg' hrg hr)
            obtain ⟨l1, l2, -⟩ := hf h1 h g' hag
            obtain ⟨j1, j2⟩ := i1 g' hg'
            exact ⟨l1.symm.trans j1, fun r hr => (j2 r hr).trans (l2 r hr)⟩
        · rw [i2 r (fun g2 hg2 => hr g2 (List.mem_cons_of_mem _ hg2)), hfr r (hr g List.mem_cons_self)]

/-- The groups of `iter3c` are the records with two or three traces. -/
theorem iter3c_exact (timeStr : K → Str) (h : Heap K) (s : List Nat) (gs : List (List Nat))
    (hgs : iter3c timeStr h s = .ok gs) (r : Nat) (hr : r ∈ s) (p : Nat → Bool)
    (hp : ∀ q ∈ s, p q = true ↔ SameRecord timeStr h q r) :
    ((s.filter p).length = 2 ∨ (s.filter p).length = 3 → s.filter p ∈ gs) ∧
      (¬ ((s.filter p).length = 2 ∨ (s.filter p).length = 3) → ∀ g ∈ gs, r ∉ g) := by
  classical
  unfold iter3c at hgs
  have hfail : ∀ r ∈ s, ∃ y, onsetKey timeStr h r = .ok y := by
    intro r hr
    cases hk : onsetKey timeStr h r with
    | ok y => exact ⟨y, rfl⟩
    | error e =>
      obtain ⟨e, he⟩ := (C03_fails_iff (fun r => (h r).id) (onsetKey timeStr h) (.tuple [2, 3]) s).2 ⟨r, hr, e, hk⟩
      rw [hgs] at he
      simp at he
  rw [C03_number_components] at hgs
  cases hall : iterMultipleComponents (fun r => (h r).id) (some (onsetKey timeStr h)) .none s with
  | error e => rw [hall] at hgs; simp [Except.map] at hgs
  | ok gs0 =>
    rw [hall] at hgs
    simp only [Except.map, Except.ok.injEq] at hgs
    let assoc : Nat → Nat → Bool := fun a b => decide ((h a).id.dropLast = (h b).id.dropLast ∧
      ∀ f, some (onsetKey timeStr h) = some f → f a = f b)
    obtain ⟨p1, p2, p3⟩ := C02_same_group _ _ s gs0 hall assoc (fun a b => by simp [assoc])
    have hiff : ∀ a ∈ s, ∀ b ∈ s, assoc a b = true ↔ SameRecord timeStr h b a := by
      intro a ha b hb
      obtain ⟨y, hy⟩ := hfail a ha
      obtain ⟨z, hz⟩ := hfail b hb
      obtain ⟨x1, a1, a2⟩ := (onsetKey_ok timeStr h a y).1 hy
      obtain ⟨x2, b1, b2⟩ := (onsetKey_ok timeStr h b z).1 hz
      simp only [assoc, decide_eq_true_eq]
      constructor
      · rintro ⟨e1, e2⟩
        have e3 := e2 _ rfl
        rw [hy, hz] at e3
        exact ⟨e1.symm, x2, x1, b1, a1, by rw [a2, b2, Except.ok.inj e3]⟩
      · rintro ⟨e1, u, v, c1, c2, c3⟩
        refine ⟨e1.symm, fun f hf => ?_⟩
        rw [← Option.some.inj hf, hy, hz, ← a2, ← b2]
        rw [b1] at c1
        rw [a1] at c2
        rw [Option.some.inj c1, Option.some.inj c2, c3]
    have hflt : s.filter p = s.filter (assoc r) := List.filter_congr fun q hq => by
      rw [Bool.eq_iff_iff, hp q hq, hiff r hr q hq]
    have hrr : r ∈ s.filter (assoc r) := List.mem_filter.2 ⟨hr, by simp [assoc]⟩
    refine ⟨fun hl => ?_, fun hl g hg hrg => ?_⟩
    · rw [← hgs, hflt]
      refine List.mem_filter.2 ⟨p2 r hr, ?_⟩
      rw [hflt] at hl
      rcases hl with e | e <;> simp [NumComp.accepts, e]
    · rw [← hgs] at hg
      obtain ⟨hg0, hacc⟩ := List.mem_filter.1 hg
      obtain ⟨t, ht, rfl⟩ := p1 g hg0
      have hrt : assoc t r = true := (List.mem_filter.1 hrg).2
      have e : s.filter (assoc t) = s.filter (assoc r) := List.filter_congr fun q hq => by
        rw [Bool.eq_iff_iff]
        simp only [assoc, decide_eq_true_eq] at hrt ⊢
        obtain ⟨h1, h2⟩ := hrt
        constructor
        · rintro ⟨e1, e2⟩
          exact ⟨h1.symm.trans e1, fun f hf => (h2 f hf).symm.trans (e2 f hf)⟩
        · rintro ⟨e1, e2⟩
          exact ⟨h1.trans e1, fun f hf => (h2 f hf).trans (e2 f hf)⟩
      rw [hflt, ← e] at hl
      apply hl
      simpa [NumComp.accepts] using hacc

theorem label_eqBut (m : Str) (st st' : SState K) (h : labelStage m st = (st', none)) (r : Nat) :
    EqBut ["type", "phase", "processing"] (st'.1 r) (st.1 r) := by
  have key : ∀ (k : String) (v : Val K) (h : Heap K) (s : List Nat),
      EqBut [k] (Heap.forEach (fun t => t.put k v) h s r) (h r) := by
    intro k v h s
    induction s generalizing h with
    | nil => exact EqBut.refl' _ _
    | cons a s ih =>
      refine (ih (h.set a ((h a).put k v))).trans' ?_
      by_cases e : r = a
      · subst e; rw [Heap.set_self]; exact eqBut_put _ _ _
      · rw [Heap.set_ne _ _ e]; exact EqBut.refl' _ _
  unfold labelStage at h
  simp only at h
  have h1 := (key "type" (.str "rf".toList) st.1 st.2).mono' (ks' := ["type", "phase", "processing"]) (by decide)
  split at h
  · simp at h
  · simp only [Prod.mk.injEq, and_true] at h
    rw [← h]
    simp only
    split
    · exact ((key "phase" (.str m) _ st.2).mono' (ks' := ["type", "phase", "processing"]) (by decide)).trans' h1
    · exact h1

theorem mirrorStage_finished (m : Str) (h : Heap K) (s : List Nat) (st2 st3 : SState K) (hn : s.Nodup)
    (h1 : mirrorStage m (h, s) = (st2, none)) (h2 : labelStage m st2 = (st3, none)) (info : Str) :
    st3.2 = s ∧ ∀ r ∈ s, Finished m (h r) (addInfoAll info st3.1 st3.2 r) := by
  have e3 := labelStage_traces m st2
  rw [h2] at e3
  have hL : ∀ r, EqBut ["type", "phase", "processing"] (addInfoAll info st3.1 st3.2 r) (st2.1 r) := fun r =>
    ((addInfoAll_eqBut info st3.1 st3.2 r).mono' (by decide)).trans' (label_eqBut m st2 st3 h2 r)
  unfold mirrorStage at h1
  by_cases hm : m = "S".toList
  · rw [if_pos hm] at h1
    simp only [Prod.mk.injEq] at h1
    obtain ⟨e1, e2⟩ := h1
    have e : mirrorLoop h s = ((mirrorLoop h s).1, none) := Prod.ext rfl e2
    have e' := (forEachE_ok_iff _ _ _ _ hn).1 ((mirrorLoop_forEachE h _ s).1 e)
    have hs : st2.2 = s := by rw [← e1]
    refine ⟨e3.trans hs, fun r hr => ⟨fun hc => absurd hm hc, fun _ => ?_⟩⟩
    have hr' := e'.1 r hr
    unfold mirrorE at hr'
    cases ho : (h r).getTime "onset" with
    | none => rw [ho] at hr'; simp at hr'
    | some o =>
      rw [ho] at hr'
      refine ⟨o, rfl, ?_⟩
      have hx := hL r
      rw [← e1] at hx
      have : (mirrorLoop h s).1 r = mirrorTrace o (h r) := (Except.ok.inj hr').symm
      rw [show ((mirrorLoop h s).1, s).1 r = mirrorTrace o (h r) from this] at hx
      exact hx
  · rw [if_neg hm] at h1
    simp only [Prod.mk.injEq, and_true] at h1
    subst h1
    exact ⟨e3, fun r hr => ⟨fun _ => hL r, fun hc => absurd hc hm⟩⟩

/-- C145.  After filter, trim, decimation, rotation and the change of sign of Q the traces of each record with two or
three traces get exactly what `deconvolve` alone would give for that record, traces of other records stay as they
are; for S the results are mirrored.  Headers differ at most in type, phase and processing information. -/
theorem C145_record (env : RfEnv K) (a : RfArgs K) (d : Str) (hd : a.deconvolve = some d)
    (hfunc : d ≠ "func".toList) (hnoise : NoiseLocal env.dec) (h h' : Heap K) (s s' : List Nat) (hn : s.Nodup)
    (hok : rf env a (h, s) = ((h', s'), none)) :
    ∃ m h1, rfMethod h s a.method = .ok m ∧ ((rfPrep env a (h, s)).andThen qStage) = ((h1, s'), none) ∧
      ∀ r ∈ s', ∀ p : Nat → Bool, (∀ q ∈ s', p q = true ↔ SameRecord env.timeStr h1 q r) →
        ((s'.filter p).length = 2 ∨ (s'.filter p).length = 3 → ∃ h2 rsp,
          deconvolve env.dec h1 (s'.filter p) (rfDeconvArgs a m d) = (h2, .ok rsp) ∧ Finished m (h2 r) (h' r)) ∧
        (¬ ((s'.filter p).length = 2 ∨ (s'.filter p).length = 3) → Finished m (h1 r) (h' r)) := by
  obtain ⟨m, st2, st3, hm, hb, hl, he⟩ := rf_stages env a _ _ hok
  obtain ⟨⟨h4, s4⟩, hb1, hb2⟩ := andThen_ok hb
  unfold rfBefore at hb1
  obtain ⟨⟨h5, s5⟩, hq, hdec⟩ := andThen_ok hb1
  unfold deconvolveStage at hdec
  rw [hd] at hdec
  simp only at hdec
  unfold forGroups at hdec
  cases hi : iter3c env.timeStr h5 s5 with
  | error e => simp only [hi] at hdec; simp at hdec
  | ok gs =>
    simp only [hi, Prod.mk.injEq] at hdec
    obtain ⟨⟨e1, e1'⟩, e2⟩ := hdec
    subst e1'
    have hs' : s' = st3.2 := congrArg Prod.snd he
    have hh' : h' = addInfoAll env.infoRf st3.1 st3.2 := congrArg Prod.fst he
    have hsub := (C46_membership env a (h, s)).1
    rw [hok] at hsub
    have hns' : s'.Nodup := hsub.nodup hn
    have hs3 : st3.2 = s5 := by
      have e3 := labelStage_traces m st2
      rw [hl] at e3
      have e4 := mirrorStage_traces m (h4, s5)
      rw [hb2] at e4
      exact e3.trans e4
    have hss : s' = s5 := hs'.trans hs3
    subst hss
    obtain ⟨-, hfin⟩ := mirrorStage_finished m h4 s' st2 st3 hns' hb2 hl env.infoRf
    refine ⟨m, h5, hm, hq, fun r hr p hp => ?_⟩
    obtain ⟨x1, x2⟩ := iter3c_exact env.timeStr h5 s' gs hi r hr p hp
    have hb : groupBody (deconvolveCall env (rfDeconvArgs a m d)) h5 gs = (h4, none) := Prod.ext e1 e2
    obtain ⟨g1, g2⟩ := groupBody_each _ (deconvolveCall_local env hnoise (rfDeconvArgs a m d) hfunc) h5 h4 gs
      (iter3c_groups _ _ _ hns' _ hi).1 hb
    refine ⟨fun hlen => ?_, fun hlen => ?_⟩
    · obtain ⟨c1, c2⟩ := g1 _ (x1 hlen)
      have hrp : r ∈ s'.filter p := List.mem_filter.2 ⟨hr, (hp r hr).2 ?_⟩
      · have hc2 := c2 r hrp
        unfold deconvolveCall at c1 hc2
        cases hdd : deconvolve env.dec h5 (s'.filter p) (rfDeconvArgs a m d) with
        | mk h2 res =>
          rw [hdd] at c1 hc2
          cases res with
          | error e => simp at c1
          | ok rsp =>
            refine ⟨h2, rsp, rfl, ?_⟩
            simp only at hc2
            have hA := addInfoAll_eqBut env.infoDec h2 rsp r
            rw [← hc2] at hA
            have hF := hfin r hr
            rw [← hh'] at hF
            refine ⟨fun hS => (hF.1 hS).trans' (hA.mono' (by decide)), fun hS => ?_⟩
            obtain ⟨o, o1, o2⟩ := hF.2 hS
            have ho : (h2 r).getTime "onset" = some o := by
              rw [← o1]
              unfold Trace.getTime
              rw [hA.ext "onset" (by decide)]
            refine ⟨o, ho, o2.trans' ?_⟩
            have hend : (h4 r).endtime = (h2 r).endtime := by
              unfold Trace.endtime Trace.delta
              rw [hA.start, hA.sr, hA.data]
            refine ⟨hA.net, hA.sta, hA.loc, hA.cha, hA.start, hA.sr, ?_, fun k hk => ?_⟩
            · show (h4 r).data.reverse = (h2 r).data.reverse
              rw [hA.data]
            · rw [put_get, put_get]
              split
              · rw [hend, hA.start]
              · exact hA.ext k (fun hc => hk (by simp at hc; simp [hc]))
      · obtain ⟨g, hg, hrg⟩ : ∃ g ∈ gs, r ∈ g := by
          by_contra hno
          push Not at hno
          have hpr : ∃ q, q ∈ s'.filter p := by
            rcases hlen with e | e
            all_goals
              cases hf : s'.filter p with
              | nil => rw [hf] at e; simp at e
              | cons q _ => exact ⟨q, List.mem_cons_self⟩
          obtain ⟨q, hq'⟩ := hpr
          obtain ⟨hq1, hq2⟩ := List.mem_filter.1 hq'
          obtain ⟨-, x, y, -, b2, -⟩ := (hp q hq1).1 hq2
          have hrec : SameRecord env.timeStr h5 r r := ⟨rfl, y, y, b2, b2, rfl⟩
          exact hno _ (x1 hlen) (List.mem_filter.2 ⟨hr, (hp r hr).2 hrec⟩)
        exact (iter3c_same _ _ _ hns' _ hi g hg).2 r hrg r hrg
    · have hF := hfin r hr
      rw [← hh', g2 r (x2 hlen)] at hF
      exact hF

end record

/-- C145 is not vacuous: in the stream of two records the trace 4 gets the result of `deconvolve` for its record alone,
and nothing but labels changes afterwards. -/
example : ∃ h', rf iEnv { method := some "P".toList } (twoRecords, [0, 3, 1, 4, 2, 5]) =
      ((h', [0, 3, 1, 4, 2, 5]), none) ∧
    ∃ m h1 h2 rsp, deconvolve iEnv.dec h1 [3, 4, 5] (rfDeconvArgs { method := some "P".toList } m "time".toList) =
      (h2, .ok rsp) ∧ Finished m (h2 4) (h' 4) := by
  have h0 : (rf iEnv { method := some "P".toList } (twoRecords, [0, 3, 1, 4, 2, 5])).2 = none ∧
      (rf iEnv { method := some "P".toList } (twoRecords, [0, 3, 1, 4, 2, 5])).1.2 = [0, 3, 1, 4, 2, 5] := by
    decide +kernel
  have hok : rf iEnv { method := some "P".toList } (twoRecords, [0, 3, 1, 4, 2, 5]) =
      (((rf iEnv { method := some "P".toList } (twoRecords, [0, 3, 1, 4, 2, 5])).1.1, [0, 3, 1, 4, 2, 5]), none) :=
    Prod.ext (Prod.ext rfl h0.2) h0.1
  refine ⟨_, hok, ?_⟩
  obtain ⟨m, h1, hm, hp, hx⟩ := C145_record iEnv { method := some "P".toList } "time".toList rfl (by decide) iEnv_noise
    _ _ _ _ (by decide) hok
  have hh1 : h1 = ((rfPrep iEnv { method := some "P".toList } (twoRecords, [0, 3, 1, 4, 2, 5])).andThen qStage).1.1 := by
    rw [hp]
  subst hh1
  obtain ⟨h2, rsp, e1, e2⟩ := (hx 4 (by decide) (fun q => decide (3 ≤ q)) (by
    intro q hq
    simp only [List.mem_cons, List.not_mem_nil, or_false] at hq
    rcases hq with rfl | rfl | rfl | rfl | rfl | rfl
    · exact ⟨fun h => absurd h (by decide), fun h => absurd h.1 (by decide +kernel)⟩
    · exact ⟨fun _ => ⟨rfl, 1008/10, 1008/10, by decide +kernel, by decide +kernel, rfl⟩, fun _ => rfl⟩
    · exact ⟨fun h => absurd h (by decide), fun h => absurd h.1 (by decide +kernel)⟩
    · exact ⟨fun _ => ⟨rfl, 1008/10, 1008/10, by decide +kernel, by decide +kernel, rfl⟩, fun _ => rfl⟩
    · exact ⟨fun h => absurd h (by decide), fun h => absurd h.1 (by decide +kernel)⟩
    · exact ⟨fun _ => ⟨rfl, 1008/10, 1008/10, by decide +kernel, by decide +kernel, rfl⟩, fun _ => rfl⟩)).1
    (Or.inr rfl)
  exact ⟨m, _, h2, rsp, e1, e2⟩

end Verif.Props
