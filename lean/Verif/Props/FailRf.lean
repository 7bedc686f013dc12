import Verif.Props.ReturnsRf

/-!
# What a failing call of rf leaves behind (C148)
-/

set_option linter.unusedSimpArgs false
set_option linter.unusedSectionVars false

namespace Verif.Props
open Verif.Py Verif.Model Verif.Spec

section fail
variable {K : Type} [Field K] [LinearOrder K] [IsStrictOrderedRing K] [FloorRing K]

/-- A loop over disjoint groups with a local body that fails: the exception is the one of a single group, groups before
it are done as if they were alone, groups after it are untouched. -/
theorem groupBody_fails (f : Heap K → List Nat → Heap K × Option PyErr) (hf : GroupLocal f) (h h' : Heap K)
    (gs : List (List Nat)) (hdis : gs.Pairwise List.Disjoint) (e : PyErr) (hfail : groupBody f h gs = (h', some e)) :
    ∃ l1 g l2, gs = l1 ++ g :: l2 ∧ (f h g).2 = some e ∧ AgreeOn g h' (f h g).1 ∧
      (∀ g1 ∈ l1, (f h g1).2 = none ∧ AgreeOn g1 h' (f h g1).1) ∧ (∀ g2 ∈ l2, AgreeOn g2 h' h) ∧
      ∀ r, (∀ g ∈ gs, r ∉ g) → h' r = h r := by
  induction gs generalizing h with
  | nil => simp [groupBody] at hfail
  | cons g gs ih =>
    rw [List.pairwise_cons] at hdis
    unfold groupBody at hfail
    have hfr : ∀ r, r ∉ g → (f h g).1 r = h r := fun r hr => (hf h h g (fun _ _ => rfl)).2.2 r hr
    cases hfg : f h g with
    | mk h1 e1 =>
      rw [hfg] at hfail
      rw [hfg] at hfr
      cases e1 with
      | some e1 =>
        simp only [Prod.mk.injEq, Option.some.injEq] at hfail
        obtain ⟨rfl, rfl⟩ := hfail
        refine ⟨[], g, gs, rfl, by rw [hfg], by rw [hfg]; exact fun _ _ => rfl, fun g1 hg1 => by simp at hg1,
          fun g2 hg2 r hr => hfr r (fun hc => hdis.1 g2 hg2 hc hr), fun r hr => hfr r (hr g List.mem_cons_self)⟩
      | none =>
        obtain ⟨l1, g0, l2, rfl, e2, e3, e4, e5, e6⟩ := ih h1 hdis.2 hfail
        have hag : ∀ g' ∈ l1 ++ g0 :: l2, AgreeOn g' h1 h := fun g' hg' r hr =>
          hfr r (fun hrg => hdis.1 g' hg' hrg hr)
        have hL : ∀ g' ∈ l1 ++ g0 :: l2, (f h1 g').2 = (f h g').2 ∧ AgreeOn g' (f h1 g').1 (f h g').1 := fun g' hg' =>
          ⟨(hf h1 h g' (hag g' hg')).1, (hf h1 h g' (hag g' hg')).2.1⟩
        have m0 : g0 ∈ l1 ++ g0 :: l2 := by simp
        refine ⟨g :: l1, g0, l2, rfl, (hL g0 m0).1 ▸ e2, fun r hr => (e3 r hr).trans ((hL g0 m0).2 r hr), ?_, ?_, ?_⟩
        · intro g1 hg1
          rcases List.mem_cons.1 hg1 with rfl | hg1
          · rw [hfg]
            exact ⟨rfl, fun r hr => e6 r (fun g2 hg2 hr2 => hdis.1 g2 hg2 hr hr2)⟩
          · have m1 : g1 ∈ l1 ++ g0 :: l2 := by simp [hg1]
            obtain ⟨a1, a2⟩ := e4 g1 hg1
            exact ⟨(hL g1 m1).1 ▸ a1, fun r hr => (a2 r hr).trans ((hL g1 m1).2 r hr)⟩
        · intro g2 hg2 r hr
          have m2 : g2 ∈ l1 ++ g0 :: l2 := by simp [hg2]
          exact (e5 g2 hg2 r hr).trans (hag g2 m2 r hr)
        · intro r hr
          exact (e6 r (fun g2 hg2 => hr g2 (List.mem_cons_of_mem _ hg2))).trans (hfr r (hr g List.mem_cons_self))

/-- `deconvolve` keeps all entries but onset and the number of iterations, for every trace and also if it fails. -/
theorem deconvolve_entry (k : String) (k1 : k ≠ "onset") (k2 : k ≠ "iterations") (env : DeconvEnv K) (hk : KeepsExt env)
    (a : DeconvArgs K) (hm : a.method ≠ "func".toList) (h : Heap K) (s : List Nat) (r : Nat) :
    ((deconvolve env h s a).1 r).ext.get k = (h r).ext.get k := by
  cases hd : deconvolve env h s a with
  | mk h' res =>
    rcases deconvolve_cases env h h' s a _ hd with ⟨rfl, _⟩ | ⟨m, src, rsp, nrm, o, idx, onset, hsel, ho', hf, hon, hc⟩
    · rfl
    have hsn : ∀ r, (snapped h src rsp onset r).ext.get k = (h r).ext.get k := fun r =>
      snapped_inv (fun t => t.ext.get k) (fun x t => by rw [put_get, if_neg k1]) h src rsp onset r
    rcases hc with ⟨rfl, _⟩ | ⟨w0, w1, w2, srcT, h2, hw, hT, h2e, hk2⟩
    · exact hsn r
    have hmf := deconvSelect_builtin h s a hm m src rsp nrm hsel
    have hg := runKernel_inv (fun t : Trace K => t.ext.get k) (fun d t => rfl)
      (fun x t => by rw [put_get, if_neg k2]) env m h2 s rsp a.rspComps srcT (h src).sr (-w0) nrm hmf r
    rw [hk2] at hg
    simp only at hg ⊢
    rw [hg, h2e]
    split
    · exact hsn r
    · by_cases hr : r = src
      · subst hr
        rw [Heap.set_self, hT, hk.2, hk.1]
        exact hsn r
      · rw [Heap.set_ne _ _ hr]
        exact hsn r

/-- **C148**.  If `rf` with one of the deconvolution methods of the package fails after the preparation, for a stream
with onsets and readable phase, the exception is the one which `deconvolve` raises for a single record.  The stream
keeps the prepared traces.  Every trace of another record is as prepared, or it is what `deconvolve` gives for its
record alone, plus a processing entry.  Type and phase of no trace have changed and nothing has been mirrored. -/
theorem C148_failed (env : RfEnv K) (a : RfArgs K) (d : Str) (hd : a.deconvolve = some d)
    (hfunc : d ≠ "func".toList) (hnoise : NoiseLocal env.dec) (hkeep : KeepsExt env.dec) (h h' : Heap K)
    (s s' : List Nat) (hn : s.Nodup) (m : Str) (h1 : Heap K) (s1 : List Nat) (e : PyErr)
    (hm : rfMethod h s a.method = .ok m) (hprep : (rfPrep env a (h, s)).andThen qStage = ((h1, s1), none))
    (hon : ∀ r ∈ s1, ∃ o, (h1 r).getTime "onset" = some o) (hph : PhaseReadable h1 s1)
    (hfail : rf env a (h, s) = ((h', s'), some e)) :
    s' = s1 ∧ ∃ g, (∀ r ∈ g, ∀ q, q ∈ g ↔ q ∈ s1 ∧ SameRecord env.timeStr h1 q r) ∧
      (g.length = 2 ∨ g.length = 3) ∧
      (deconvolve env.dec h1 g (rfDeconvArgs a m d)).2 = .error e ∧
      (∀ r ∈ g, h' r = (deconvolve env.dec h1 g (rfDeconvArgs a m d)).1 r) ∧
      (∀ r, r ∉ g → h' r = h1 r ∨ ∃ g2 h2 rsp, r ∈ g2 ∧ (∀ q, q ∈ g2 ↔ q ∈ s1 ∧ SameRecord env.timeStr h1 q r) ∧
        deconvolve env.dec h1 g2 (rfDeconvArgs a m d) = (h2, .ok rsp) ∧ EqBut ["processing"] (h' r) (h2 r)) ∧
      ∀ r k, k ∉ ["onset", "iterations", "processing"] → (h' r).ext.get k = (h1 r).ext.get k := by
  classical
  obtain ⟨gs, hi⟩ := (iter3c_returns env.timeStr h1 s1).2 hon
  have hns : s1.Nodup := by
    have := prep_sublist env a (h, s)
    rw [hprep] at this
    exact this.nodup hn
  obtain ⟨g1, g2, -⟩ := iter3c_groups _ _ _ hns _ hi
  have hloc : GroupLocal (deconvolveCall env (rfDeconvArgs a m d)) :=
    deconvolveCall_local env hnoise (rfDeconvArgs a m d) hfunc
  have hrec : ∀ g ∈ gs, (g.length = 2 ∨ g.length = 3) ∧ ∀ r ∈ g, ∀ q, q ∈ g ↔ q ∈ s1 ∧ SameRecord env.timeStr h1 q r := by
    intro g hg
    have key : ∀ r ∈ g, ∀ p : Nat → Bool, (∀ q ∈ s1, p q = true ↔ SameRecord env.timeStr h1 q r) →
        g = s1.filter p ∧ (g.length = 2 ∨ g.length = 3) := by
      intro r hr p hp
      have hrs := g2 g hg r hr
      obtain ⟨x1, x2⟩ := iter3c_exact env.timeStr h1 s1 gs hi r hrs p hp
      by_cases hlen : (s1.filter p).length = 2 ∨ (s1.filter p).length = 3
      · have hgp : g = s1.filter p := by
          by_contra hne
          have hsame := (iter3c_same _ _ _ hns _ hi g hg).2 r hr r hr
          have hrp : r ∈ s1.filter p := List.mem_filter.2 ⟨hrs, (hp r hrs).2 hsame⟩
          exact (pairwise_mem_ne g1 hg (x1 hlen) hne) hr hrp
        exact ⟨hgp, by rw [hgp]; exact hlen⟩
      · exact absurd hr (x2 hlen g hg)
    obtain ⟨r0, hr0⟩ := List.exists_mem_of_ne_nil g (iter3c_ne_nil _ _ _ _ hi g hg)
    refine ⟨(key r0 hr0 (fun q => decide (SameRecord env.timeStr h1 q r0)) (fun q _ => by simp)).2, fun r hr q => ?_⟩
    obtain ⟨hgp, -⟩ := key r hr (fun q => decide (SameRecord env.timeStr h1 q r)) (fun q _ => by simp)
    constructor
    · intro hq
      rw [hgp] at hq
      simpa using hq
    · intro hq
      rw [hgp]
      simpa using hq
  cases hgb : groupBody (deconvolveCall env (rfDeconvArgs a m d)) h1 gs with
  | mk h4 e4 =>
    cases e4 with
    | none =>
      exfalso
      have : (rf env a (h, s)).2 = none := by
        refine (C147_returns_iff env a d hd hfunc hnoise hkeep h s hn).2
          ⟨m, h1, s1, hm, hprep, hon, fun r hr p hp hlen => ?_, hph⟩
        obtain ⟨x1, -⟩ := iter3c_exact env.timeStr h1 s1 gs hi r hr p hp
        have hc := ((groupBody_each _ hloc h1 h4 gs g1 hgb).1 _ (x1 hlen)).1
        unfold deconvolveCall at hc
        cases hdd : deconvolve env.dec h1 (s1.filter p) (rfDeconvArgs a m d) with
        | mk h2 res =>
          rw [hdd] at hc
          cases res with
          | error e => simp at hc
          | ok rsp => exact ⟨h2, rsp, rfl⟩
      rw [hfail] at this
      cases this
    | some e4 =>
      have hb : rfBefore env a m (h, s) = ((h4, s1), some e4) := by
        unfold rfBefore
        rw [hprep]
        simp only [SRes.andThen]
        unfold deconvolveStage
        rw [hd]
        simp only
        unfold forGroups
        simp only [hi, hgb]
      have hrf : rf env a (h, s) = ((h4, s1), some e4) := by
        unfold rf rfBody
        rw [hm]
        simp only [hb, SRes.andThen]
      rw [hfail] at hrf
      simp only [Prod.mk.injEq, Option.some.injEq] at hrf
      obtain ⟨⟨rfl, rfl⟩, rfl⟩ := hrf
      obtain ⟨l1, g, l2, rfl, f1, f2, f3, f4, f5⟩ := groupBody_fails _ hloc h1 h' gs g1 e hgb
      have mg : g ∈ l1 ++ g :: l2 := by simp
      have hcall : ∀ g0, (deconvolveCall env (rfDeconvArgs a m d) h1 g0).2 = none → ∃ h2 rsp,
          deconvolve env.dec h1 g0 (rfDeconvArgs a m d) = (h2, .ok rsp) ∧
          (deconvolveCall env (rfDeconvArgs a m d) h1 g0).1 = addInfoAll env.infoDec h2 rsp := by
        intro g0 hc
        unfold deconvolveCall at hc ⊢
        cases hdd : deconvolve env.dec h1 g0 (rfDeconvArgs a m d) with
        | mk h2 res =>
          rw [hdd] at hc
          cases res with
          | error e => simp at hc
          | ok rsp => exact ⟨h2, rsp, rfl, rfl⟩
      have hcallE : (deconvolve env.dec h1 g (rfDeconvArgs a m d)).2 = .error e ∧
          (deconvolveCall env (rfDeconvArgs a m d) h1 g).1 = (deconvolve env.dec h1 g (rfDeconvArgs a m d)).1 := by
        unfold deconvolveCall at f1 ⊢
        cases hdd : deconvolve env.dec h1 g (rfDeconvArgs a m d) with
        | mk h2 res =>
          rw [hdd] at f1
          cases res with
          | error e => simp only [Option.some.injEq] at f1; exact ⟨by rw [f1], rfl⟩
          | ok rsp => simp at f1
      refine ⟨rfl, g, (hrec g mg).2, (hrec g mg).1, hcallE.1, fun r hr => by rw [← hcallE.2]; exact f2 r hr,
        fun r hr => ?_, fun r k hk => ?_⟩
      · by_cases hin : ∃ g0 ∈ l1 ++ g :: l2, r ∈ g0
        · obtain ⟨g0, hg0, hr0⟩ := hin
          simp only [List.mem_append, List.mem_cons] at hg0
          rcases hg0 with hg0 | rfl | hg0
          · obtain ⟨c1, c2⟩ := f3 g0 hg0
            obtain ⟨h2, rsp, c3, c4⟩ := hcall g0 c1
            refine Or.inr ⟨g0, h2, rsp, hr0, (hrec g0 (by simp [hg0])).2 r hr0, c3, ?_⟩
            rw [c2 r hr0, c4]
            exact addInfoAll_eqBut _ _ _ _
          · exact absurd hr0 hr
          · exact Or.inl (f4 g0 hg0 r hr0)
        · push Not at hin
          exact Or.inl (f5 r hin)
      · have hinv := groupBody_inv (fun t : Trace K => t.ext.get k) (deconvolveCall env (rfDeconvArgs a m d))
          (fun h g r => by
            have := deconvolve_entry k (by rintro rfl; simp at hk) (by rintro rfl; simp at hk) env.dec hkeep
              (rfDeconvArgs a m d) hfunc h g r
            unfold deconvolveCall
            cases hdd : deconvolve env.dec h g (rfDeconvArgs a m d) with
            | mk h2 res =>
              rw [hdd] at this
              cases res with
              | error e => exact this
              | ok rsp =>
                simp only
                rw [addInfoAll_get _ _ _ _ _ (by rintro rfl; simp at hk)]
                exact this) h1 (l1 ++ g :: l2) r
        rw [hgb] at hinv
        exact hinv

end fail

/-- C148 is not vacuous: without the source trace of one record the call fails with `ValueError`.  A record that comes
later keeps its samples, a record that comes earlier has been deconvolved; none of them has a label. -/
example : (rf iEnv { method := some "P".toList } (twoRecords, [3, 1, 4, 2, 5])).2 = some .valueError ∧
    ((rf iEnv { method := some "P".toList } (twoRecords, [3, 1, 4, 2, 5])).1.1 4).data = [3, 1, 4, 1, 5] ∧
    ((rf iEnv { method := some "P".toList } (twoRecords, [3, 1, 4, 2, 5])).1.1 4).ext.get "type" = none ∧
    (rf iEnv { method := some "P".toList } (twoRecords, [4, 0, 1, 5, 2])).2 = some .valueError ∧
    ((rf iEnv { method := some "P".toList } (twoRecords, [4, 0, 1, 5, 2])).1.1 1).data = [1 / 2, 1, 3 / 2, 2, 5 / 2] ∧
    ((rf iEnv { method := some "P".toList } (twoRecords, [4, 0, 1, 5, 2])).1.1 1).ext.get "type" = none := by
  decide +kernel

end Verif.Props
