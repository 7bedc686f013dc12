import Verif.Props.Local

/-!
# `RFStream.rf` treats the records of a stream independently of each other (C130)
-/

set_option linter.unusedSimpArgs false
set_option linter.unusedSectionVars false

namespace Verif.Props
open Verif.Py Verif.Model Verif.Spec

section grouping
variable {κ τ : Type} [LinearOrder κ]

theorem iterSubstreams_congr (kf kf' : τ → κ) (n : NumComp) (s : List τ) (he : ∀ t ∈ s, kf t = kf' t) :
    iterSubstreams kf n s = iterSubstreams kf' n s := by
  rw [iterSubstreams_eq, iterSubstreams_eq, List.map_congr_left he]
  congr 1
  refine List.map_congr_left (fun k _ => List.filter_congr (fun t ht => ?_))
  rw [he t ht]

/-- The groups of a part of the stream that contains with a trace its whole group. -/
theorem iterSubstreams_filter (kf : τ → κ) (n : NumComp) (s : List τ) (p : τ → Bool)
    (hp : ∀ a ∈ s, ∀ b ∈ s, kf a = kf b → p a = p b) :
    iterSubstreams kf n (s.filter p) = (iterSubstreams kf n s).filter (fun g => g.all p) := by
  rw [iterSubstreams_eq, iterSubstreams_eq, List.filter_filter]
  have hcomm : ∀ L : List (List τ), L.filter (fun g => g.all p && n.accepts g.length) =
      (L.filter (fun g => g.all p)).filter (fun g => n.accepts g.length) := by
    intro L
    rw [List.filter_filter]
    exact List.filter_congr (fun g _ => Bool.and_comm _ _)
  rw [hcomm]
  congr 1
  rw [List.filter_map]
  have hK : ((s.filter p).map kf).toFinset.sort (· ≤ ·) =
      ((s.map kf).toFinset.sort (· ≤ ·)).filter
        ((fun g : List τ => g.all p) ∘ fun k => s.filter (fun t => decide (kf t = k))) := by
    have hperm : (((s.filter p).map kf).toFinset.sort (· ≤ ·)).Perm
        (((s.map kf).toFinset.sort (· ≤ ·)).filter
          ((fun g : List τ => g.all p) ∘ fun k => s.filter (fun t => decide (kf t = k)))) := by
      rw [List.perm_ext_iff_of_nodup (Finset.sort_nodup _ _) ((Finset.sort_nodup _ _).filter _)]
      intro k
      rw [List.mem_filter, Finset.mem_sort, Finset.mem_sort, List.mem_toFinset, List.mem_toFinset,
        List.mem_map, List.mem_map]
      simp only [Function.comp_apply, List.all_eq_true, List.mem_filter, decide_eq_true_eq]
      constructor
      · rintro ⟨t, ⟨ht, hpt⟩, rfl⟩
        refine ⟨⟨t, ht, rfl⟩, ?_⟩
        rintro q ⟨hq, hkq⟩
        rw [hp q hq t ht hkq]
        exact hpt
      · rintro ⟨⟨t, ht, rfl⟩, hall⟩
        exact ⟨t, ⟨ht, hall t ⟨ht, rfl⟩⟩, rfl⟩
    exact hperm.eq_of_pairwise' (Finset.pairwise_sort _ _)
      ((Finset.pairwise_sort _ _).sublist List.filter_sublist)
  rw [hK]
  refine List.map_congr_left (fun k hk => ?_)
  rw [List.mem_filter] at hk
  simp only [Function.comp_apply, List.all_eq_true] at hk
  rw [List.filter_filter]
  refine List.filter_congr (fun t ht => ?_)
  by_cases hkt : kf t = k
  · have := hk.2 t (List.mem_filter.2 ⟨ht, by simpa using hkt⟩)
    simp [hkt, this]
  · simp [hkt]

/-- Every group lies inside the part or outside of it. -/
theorem iterSubstreams_sides (kf : τ → κ) (n : NumComp) (s : List τ) (p : τ → Bool)
    (hp : ∀ a ∈ s, ∀ b ∈ s, kf a = kf b → p a = p b) (g : List τ) (hg : g ∈ iterSubstreams kf n s) :
    g.all p = true ∨ ∀ r ∈ g, p r = false := by
  rw [iterSubstreams_eq, List.mem_filter, List.mem_map] at hg
  obtain ⟨⟨k, -, rfl⟩, -⟩ := hg
  by_cases hall : (s.filter (fun t => decide (kf t = k))).all p = true
  · exact Or.inl hall
  · right
    intro r hr
    by_contra hpr
    apply hall
    rw [List.all_eq_true]
    intro q hq
    rw [List.mem_filter, decide_eq_true_eq] at hq hr
    rw [hp q hq.1 r hr.1 (hq.2.trans hr.2.symm)]
    simpa using hpr

end grouping

section sim
variable {K : Type}

/-- Two heaps agree on the traces of the part `p`. -/
def AgreeP (p : Nat → Bool) (h h' : Heap K) : Prop := ∀ r, p r = true → h r = h' r

theorem AgreeP.set {p : Nat → Bool} {h h' : Heap K} (hA : AgreeP p h h') (r : Nat) (t : Trace K) :
    AgreeP p (h.set r t) (h'.set r t) := by
  intro q hq
  by_cases e : q = r
  · subst e; rw [Heap.set_self, Heap.set_self]
  · rw [Heap.set_ne _ _ e, Heap.set_ne _ _ e]; exact hA q hq

theorem AgreeP.set_out {p : Nat → Bool} {h h' : Heap K} (hA : AgreeP p h h') (r : Nat) (t : Trace K)
    (hr : p r = false) : AgreeP p (h.set r t) h' := by
  intro q hq
  have e : q ≠ r := by rintro rfl; rw [hr] at hq; cases hq
  rw [Heap.set_ne _ _ e]; exact hA q hq

theorem forEach_sim {p : Nat → Bool} {h h' : Heap K} (hA : AgreeP p h h') (f : Trace K → Trace K)
    (s : List Nat) : AgreeP p (Heap.forEach f h s) (Heap.forEach f h' (s.filter p)) := by
  induction s generalizing h h' with
  | nil => exact hA
  | cons a s ih =>
    by_cases hp : p a = true
    · rw [List.filter_cons_of_pos hp]
      show AgreeP p (Heap.forEach f (h.set a (f (h a))) s)
        (Heap.forEach f (h'.set a (f (h' a))) (s.filter p))
      rw [hA a hp]
      exact ih (hA.set _ _)
    · rw [List.filter_cons_of_neg hp]
      exact ih (hA.set_out _ _ (by simpa using hp))

theorem forEachE_sim {p : Nat → Bool} {h h' h1 : Heap K} (hA : AgreeP p h h')
    (f : Trace K → Res (Trace K)) (s : List Nat) (hok : Heap.forEachE f h s = (h1, none)) :
    ∃ h1', Heap.forEachE f h' (s.filter p) = (h1', none) ∧ AgreeP p h1 h1' := by
  induction s generalizing h h' with
  | nil =>
    simp only [Heap.forEachE, Prod.mk.injEq, and_true] at hok
    subst hok
    exact ⟨h', rfl, hA⟩
  | cons a s ih =>
    unfold Heap.forEachE at hok
    cases hf : f (h a) with
    | error e => rw [hf] at hok; simp at hok
    | ok t =>
      rw [hf] at hok
      by_cases hp : p a = true
      · rw [List.filter_cons_of_pos hp]
        unfold Heap.forEachE
        rw [← hA a hp, hf]
        exact ih (hA.set _ _) hok
      · rw [List.filter_cons_of_neg hp]
        exact ih (hA.set_out _ _ (by simpa using hp)) hok

end sim

section stages
variable {K : Type} [Field K] [LinearOrder K] [IsStrictOrderedRing K] [FloorRing K]

theorem mirrorLoop_sim {p : Nat → Bool} {h h' h1 : Heap K} (hA : AgreeP p h h')
    (s : List Nat) (hok : mirrorLoop h s = (h1, none)) :
    ∃ h1', mirrorLoop h' (s.filter p) = (h1', none) ∧ AgreeP p h1 h1' := by
  induction s generalizing h h' with
  | nil =>
    simp only [mirrorLoop, Prod.mk.injEq, and_true] at hok
    subst hok
    exact ⟨h', rfl, hA⟩
  | cons a s ih =>
    unfold mirrorLoop at hok
    cases hf : (h a).getTime "onset" with
    | none => rw [hf] at hok; simp at hok
    | some o =>
      rw [hf] at hok
      by_cases hp : p a = true
      · rw [List.filter_cons_of_pos hp]
        unfold mirrorLoop
        rw [← hA a hp, hf]
        exact ih (hA.set _ _) hok
      · rw [List.filter_cons_of_neg hp]
        exact ih (hA.set_out _ _ (by simpa using hp)) hok

/-- A loop over groups, restricted to the groups inside the part `p`. -/
theorem groupBody_sim {p : Nat → Bool} (f : Heap K → List Nat → Heap K × Option PyErr)
    (hf : GroupLocal f) {h h' h1 : Heap K} (hA : AgreeP p h h') (gs : List (List Nat))
    (hgs : ∀ g ∈ gs, g.all p = true ∨ ∀ r ∈ g, p r = false) (hok : groupBody f h gs = (h1, none)) :
    ∃ h1', groupBody f h' (gs.filter (fun g => g.all p)) = (h1', none) ∧ AgreeP p h1 h1' := by
  induction gs generalizing h h' with
  | nil =>
    simp only [groupBody, Prod.mk.injEq, and_true] at hok
    subst hok
    exact ⟨h', rfl, hA⟩
  | cons g gs ih =>
    have hgs' : ∀ g ∈ gs, g.all p = true ∨ ∀ r ∈ g, p r = false :=
      fun q hq => hgs q (List.mem_cons_of_mem _ hq)
    unfold groupBody at hok
    cases hfg : f h g with
    | mk h2 e =>
      rw [hfg] at hok
      cases e with
      | some e => simp at hok
      | none =>
        simp only at hok
        by_cases hp : g.all p = true
        · rw [List.filter_cons_of_pos (by simpa using hp)]
          obtain ⟨l1, l2, l3⟩ := hf h h' g (fun r hr => hA r (List.all_eq_true.1 hp r hr))
          have l4 := (hf h' h g (fun r hr => (hA r (List.all_eq_true.1 hp r hr)).symm)).2.2
          rw [hfg] at l1 l2 l3
          unfold groupBody
          cases hfg' : f h' g with
          | mk h2' e' =>
            rw [hfg'] at l1 l2 l4
            simp only at l1 l2 l3 l4
            subst l1
            simp only
            refine ih ?_ hgs' hok
            intro r hr
            by_cases hrg : r ∈ g
            · exact l2 r hrg
            · rw [l3 r hrg, l4 r hrg]; exact hA r hr
        · rw [List.filter_cons_of_neg (by simpa using hp)]
          refine ih ?_ hgs' hok
          intro r hr
          have hout : ∀ q ∈ g, p q = false := (hgs g List.mem_cons_self).resolve_left hp
          have hrg : r ∉ g := by
            intro hrg
            rw [hout r hrg] at hr
            cases hr
          have l3 := (hf h h g (fun r hr => rfl)).2.2 r hrg
          rw [hfg] at l3
          rw [← hA r hr]
          exact l3

/-- The part `p` of the stream contains with a trace its whole record. -/
def WholeRecords (timeStr : K → Str) (p : Nat → Bool) (h : Heap K) (s : List Nat) : Prop :=
  ∀ q ∈ s, ∀ r ∈ s, SameRecord timeStr h q r → p q = p r

theorem iter3c_sim (timeStr : K → Str) (p : Nat → Bool) (h h' : Heap K) (hA : AgreeP p h h')
    (s : List Nat) (hw : WholeRecords timeStr p h s) (gs : List (List Nat))
    (hok : iter3c timeStr h s = .ok gs) :
    iter3c timeStr h' (s.filter p) = .ok (gs.filter (fun g => g.all p)) ∧
      ∀ g ∈ gs, g.all p = true ∨ ∀ r ∈ g, p r = false := by
  unfold iter3c iterMultipleComponents at hok ⊢
  simp only at hok ⊢
  cases hfs : s.findSome? (fun tr => errOf (onsetKey timeStr h tr)) with
  | some e => rw [hfs] at hok; simp at hok
  | none =>
    rw [hfs] at hok
    simp only [Except.ok.injEq] at hok
    rw [List.findSome?_eq_none_iff] at hfs
    have honset : ∀ r ∈ s, ∃ x, (h r).getTime "onset" = some x := by
      intro r hr
      have := hfs r hr
      cases hk : onsetKey timeStr h r with
      | error e => rw [hk] at this; simp [errOf] at this
      | ok y =>
        obtain ⟨x, hx, _⟩ := (onsetKey_ok timeStr h r y).1 hk
        exact ⟨x, hx⟩
    have heq : ∀ r, p r = true → onsetKey timeStr h' r = onsetKey timeStr h r := by
      intro r hr
      unfold onsetKey
      rw [hA r hr]
    have hnone : (s.filter p).findSome? (fun tr => errOf (onsetKey timeStr h' tr)) = none := by
      rw [List.findSome?_eq_none_iff]
      intro r hr
      rw [List.mem_filter] at hr
      rw [heq r hr.2]
      exact hfs r hr.1
    rw [hnone]
    simp only [Except.ok.injEq]
    have hkey : ∀ a ∈ s, ∀ b ∈ s, groupKey (h a).id (some (okD [] (onsetKey timeStr h a))) =
        groupKey (h b).id (some (okD [] (onsetKey timeStr h b))) → p a = p b := by
      intro a ha b hb hab
      obtain ⟨x, hx⟩ := honset a ha
      obtain ⟨y, hy⟩ := honset b hb
      rw [(onsetKey_ok timeStr h a _).2 ⟨x, hx, rfl⟩, (onsetKey_ok timeStr h b _).2 ⟨y, hy, rfl⟩] at hab
      simp only [groupKey, okD, toLex_inj, Prod.mk.injEq, WithBot.coe_inj] at hab
      exact hw a ha b hb ⟨hab.1, x, y, hx, hy, hab.2⟩
    constructor
    · rw [← hok, ← iterSubstreams_filter _ _ _ _ hkey]
      refine iterSubstreams_congr _ _ _ _ (fun r hr => ?_)
      have hr := (List.mem_filter.1 hr).2
      rw [heq r hr, hA r hr]
    · intro g hg
      rw [← hok] at hg
      exact iterSubstreams_sides _ _ _ _ hkey g hg

/-- What the steps before the deconvolution have to keep: the record a trace belongs to and its phase. -/
def recordOf (t : Trace K) : Str × Option (Val K) × Option (Val K) :=
  (t.id.dropLast, t.ext.get "onset", t.ext.get "phase")

/-- ObsPy's filter, trim, decimate and rotate keep the record a trace belongs to and its phase. -/
structure KeepsRecord (env : RfEnv K) : Prop where
  filter : ∀ t t', env.filter t = .ok t' → recordOf t' = recordOf t
  trim : ∀ t a b t', env.trim t a b = .ok t' → recordOf t' = recordOf t
  decimate : ∀ n t t', env.decimate n t = .ok t' → recordOf t' = recordOf t
  rotate : ∀ m h g r, recordOf ((env.rotate m h g).1 r) = recordOf (h r)

theorem wholeRecords_mono (timeStr : K → Str) (p : Nat → Bool) (h h1 : Heap K) (s s1 : List Nat)
    (hs : ∀ r ∈ s1, r ∈ s) (hk : ∀ r, recordOf (h1 r) = recordOf (h r))
    (hw : WholeRecords timeStr p h s) : WholeRecords timeStr p h1 s1 := by
  intro q hq r hr hqr
  refine hw q (hs q hq) r (hs r hr) ?_
  have e1 := hk q
  have e2 := hk r
  simp only [recordOf, Prod.mk.injEq] at e1 e2
  unfold SameRecord at hqr ⊢
  rw [← e1.1, ← e2.1]
  have g1 : (h q).getTime "onset" = (h1 q).getTime "onset" := getTime_congr e1.2.1.symm
  have g2 : (h r).getTime "onset" = (h1 r).getTime "onset" := getTime_congr e2.2.1.symm
  rw [g1, g2]
  exact hqr

/-- The state of the run on the part is the part of the state of the run on the whole stream. -/
def Sim (p : Nat → Bool) (st st' : SState K) : Prop :=
  st'.2 = st.2.filter p ∧ AgreeP p st.1 st'.1

/-- A step of `rf` that works on each record separately and keeps the record of a trace. -/
def StepSim (timeStr : K → Str) (p : Nat → Bool) (F : SState K → SRes K) : Prop :=
  ∀ st st' st1 : SState K, Sim p st st' → WholeRecords timeStr p st.1 st.2 → F st = (st1, none) →
    (∃ st1', F st' = (st1', none) ∧ Sim p st1 st1') ∧ (∀ r ∈ st1.2, r ∈ st.2) ∧
      ∀ r, recordOf (st1.1 r) = recordOf (st.1 r)

theorem stepSim_andThen (timeStr : K → Str) (p : Nat → Bool) (F G : SState K → SRes K)
    (hF : StepSim timeStr p F) (hG : StepSim timeStr p G) :
    StepSim timeStr p (fun st => (F st).andThen G) := by
  intro st st' st2 hS hW hok
  obtain ⟨st1, h1, h2⟩ := andThen_ok hok
  obtain ⟨⟨st1', a1, a2⟩, a3, a4⟩ := hF st st' st1 hS hW h1
  obtain ⟨⟨st2', b1, b2⟩, b3, b4⟩ := hG st1 st1' st2 a2 (wholeRecords_mono _ _ _ _ _ _ a3 a4 hW) h2
  refine ⟨⟨st2', ?_, b2⟩, fun r hr => a3 r (b3 r hr), fun r => (b4 r).trans (a4 r)⟩
  simp only [SRes.andThen, a1, b1]

theorem stepSim_id (timeStr : K → Str) (p : Nat → Bool) : StepSim (K := K) timeStr p (fun st => (st, none)) := by
  intro st st' st1 hS _ hok
  simp only [Prod.mk.injEq, and_true] at hok
  subst hok
  exact ⟨⟨st', rfl, hS⟩, fun r hr => hr, fun r => rfl⟩

theorem stepSim_traces (timeStr : K → Str) (p : Nat → Bool) (f : Trace K → Res (Trace K))
    (hf : ∀ t t', f t = .ok t' → recordOf t' = recordOf t) : StepSim timeStr p (forTraces f) := by
  intro st st' st1 hS _ hok
  unfold forTraces at hok
  simp only [Prod.mk.injEq] at hok
  obtain ⟨e1, e2⟩ := hok
  have hh : Heap.forEachE f st.1 st.2 = ((Heap.forEachE f st.1 st.2).1, none) := Prod.ext rfl e2
  obtain ⟨h1', a1, a2⟩ := forEachE_sim hS.2 f st.2 hh
  rw [← e1]
  refine ⟨⟨(h1', st.2.filter p), ?_, rfl, a2⟩, fun r hr => hr,
    fun r => forEachE_inv recordOf f hf st.1 st.2 r⟩
  unfold forTraces
  rw [hS.1, a1]

theorem cutTrace_record (trim : Trace K → TArg K → TArg K → Res (Trace K))
    (ht : ∀ t a b t', trim t a b = .ok t' → recordOf t' = recordOf t) (a b : TArg K) (ref : RefTime K)
    (t t' : Trace K) (h : cutTrace trim a b ref t = .ok t') : recordOf t' = recordOf t := by
  unfold cutTrace at h
  split at h
  · simp at h
  · split at h
    · simp at h
    · exact ht _ _ _ _ h

theorem stepSim_trim2 (timeStr : K → Str) (p : Nat → Bool)
    (trim : Trace K → TArg K → TArg K → Res (Trace K))
    (ht : ∀ t a b t', trim t a b = .ok t' → recordOf t' = recordOf t) (a b : TArg K) (ref : RefTime K) :
    StepSim timeStr p (trim2 trim a b ref) := by
  intro st st' st1 hS _ hok
  unfold trim2 at hok
  cases hf : Heap.forEachE (cutTrace trim a b ref) st.1 st.2 with
  | mk h1 e =>
    rw [hf] at hok
    cases e with
    | some e => simp at hok
    | none =>
      simp only [Prod.mk.injEq, and_true] at hok
      subst hok
      obtain ⟨h1', a1, a2⟩ := forEachE_sim hS.2 _ st.2 hf
      refine ⟨⟨(h1', (st.2.filter p).filter (fun r => (h1' r).npts ≠ 0)), ?_, ?_, a2⟩,
        fun r hr => (List.mem_filter.1 hr).1, fun r => ?_⟩
      · unfold trim2
        rw [hS.1, a1]
      · rw [List.filter_filter, List.filter_filter]
        refine List.filter_congr (fun r _ => ?_)
        by_cases hp : p r = true
        · simp only [hp, a2 r hp, Bool.and_true, Bool.true_and]
        · simp only [Bool.not_eq_true] at hp
          simp only [hp, Bool.and_false, Bool.false_and]
      · have := forEachE_inv recordOf _ (cutTrace_record trim ht a b ref) st.1 st.2 r
        rw [hf] at this
        exact this

theorem groupBody_inv {β : Type} (g : Trace K → β) (f : Heap K → List Nat → Heap K × Option PyErr)
    (hf : ∀ h gr r, g ((f h gr).1 r) = g (h r)) (h : Heap K) (gs : List (List Nat)) (r : Nat) :
    g ((groupBody f h gs).1 r) = g (h r) := by
  induction gs generalizing h with
  | nil => rfl
  | cons gr gs ih =>
    unfold groupBody
    have := hf h gr r
    cases hfg : f h gr with
    | mk h2 e =>
      rw [hfg] at this
      cases e with
      | some e => exact this
      | none => exact (ih h2).trans this

/-- A loop over groups, on the whole stream and on the part. -/
theorem forGroups_sim (timeStr : K → Str) (p : Nat → Bool)
    (f : Heap K → List Nat → Heap K × Option PyErr) (hl : GroupLocal f) (st st' st1 : SState K)
    (hS : Sim p st st') (hW : WholeRecords timeStr p st.1 st.2)
    (hok : forGroups timeStr f st = (st1, none)) :
    (∃ st1', forGroups timeStr f st' = (st1', none) ∧ Sim p st1 st1') ∧ st1.2 = st.2 ∧
      ∃ gs, st1.1 = (groupBody f st.1 gs).1 := by
  unfold forGroups at hok
  cases hi : iter3c timeStr st.1 st.2 with
  | error e => rw [hi] at hok; simp at hok
  | ok gs =>
    rw [hi] at hok
    simp only [Prod.mk.injEq] at hok
    obtain ⟨e1, e2⟩ := hok
    obtain ⟨i1, i2⟩ := iter3c_sim timeStr p st.1 st'.1 hS.2 st.2 hW gs hi
    have hb : groupBody f st.1 gs = ((groupBody f st.1 gs).1, none) := Prod.ext rfl e2
    obtain ⟨h1', b1, b2⟩ := groupBody_sim f hl hS.2 gs i2 hb
    rw [← e1]
    refine ⟨⟨(h1', st.2.filter p), ?_, rfl, b2⟩, rfl, gs, rfl⟩
    unfold forGroups
    rw [hS.1, i1]
    simp only [b1]

theorem stepSim_groups (timeStr : K → Str) (p : Nat → Bool)
    (f : Heap K → List Nat → Heap K × Option PyErr) (hl : GroupLocal f)
    (hf : ∀ h gr r, recordOf ((f h gr).1 r) = recordOf (h r)) : StepSim timeStr p (forGroups timeStr f) := by
  intro st st' st1 hS hW hok
  obtain ⟨h1, h2, gs, h3⟩ := forGroups_sim timeStr p f hl st st' st1 hS hW hok
  refine ⟨h1, fun r hr => h2 ▸ hr, fun r => ?_⟩
  rw [h3]
  exact groupBody_inv recordOf f hf st.1 gs r

/-- The preparation of the data and the sign of Q, on the whole stream and on the part. -/
theorem stepSim_prep (env : RfEnv K) (a : RfArgs K) (hk : KeepsRecord env)
    (hrot : ∀ m, GroupLocal (env.rotate m)) (p : Nat → Bool) :
    StepSim env.timeStr p (fun st => (rfPrep env a st).andThen qStage) := by
  have h1 : StepSim env.timeStr p (filterStage env a) := by
    unfold filterStage
    by_cases hf : a.filter = true
    · simp only [hf, if_true]; exact stepSim_traces _ _ _ hk.filter
    · simp only [hf, if_false]; exact stepSim_id _ _
  have h2 : StepSim env.timeStr p (trimStage env a) := by
    unfold trimStage
    cases a.trim with
    | none => exact stepSim_id _ _
    | some w => exact stepSim_trim2 _ _ _ hk.trim _ _ _
  have h3 : StepSim env.timeStr p (decimateStage env a) := by
    unfold decimateStage
    cases a.downsample with
    | none => exact stepSim_id _ _
    | some d =>
      refine stepSim_traces _ _ _ (fun t t' ht => ?_)
      unfold decimateTrace at ht
      split at ht
      · exact hk.decimate _ _ _ ht
      · simp only [Except.ok.injEq] at ht; rw [ht]
  have h4 : StepSim env.timeStr p (rotateStage env a) := by
    unfold rotateStage
    cases a.rotate with
    | none => exact stepSim_id _ _
    | some m => exact stepSim_groups _ _ _ (hrot m) (hk.rotate m)
  have h5 : StepSim (K := K) env.timeStr p qStage := by
    intro st st' st1 hS _ hok
    unfold qStage at hok
    simp only [Prod.mk.injEq, and_true] at hok
    subst hok
    refine ⟨⟨(Heap.forEach negQ st'.1 st'.2, st'.2), rfl, hS.1, ?_⟩, fun r hr => hr, fun r => ?_⟩
    · rw [hS.1]; exact forEach_sim hS.2 negQ st.2
    · exact Heap.forEach_inv recordOf negQ (fun t => by
        obtain ⟨n1, -, -, -, -, n6⟩ := negQ_get t
        unfold recordOf; rw [n1, n6]) st.1 st.2 r
  have h12 := stepSim_andThen _ _ _ _ h1 h2
  have h123 := stepSim_andThen _ _ _ _ h12 h3
  have h1234 := stepSim_andThen _ _ _ _ h123 h4
  exact stepSim_andThen _ _ _ _ h1234 h5

theorem put_phase (k : String) (hk : k ≠ "phase") (x : Val K) (t : Trace K) :
    (t.put k x).ext.get "phase" = t.ext.get "phase" := by
  rw [put_get, if_neg (fun e => hk e.symm)]

/-- `deconvolve` keeps the phase of every trace. -/
theorem deconvolve_phase (env : DeconvEnv K) (hk : KeepsExt env) (a : DeconvArgs K)
    (hm : a.method ≠ "func".toList) (h : Heap K) (s : List Nat) (r : Nat) :
    ((deconvolve env h s a).1 r).ext.get "phase" = (h r).ext.get "phase" := by
  unfold deconvolve
  cases hsel : deconvSelect h s a with
  | error e => rfl
  | ok q =>
    obtain ⟨m, src, rsp, nrm⟩ := q
    have hmf := deconvSelect_builtin h s a hm m src rsp nrm hsel
    simp only
    split
    · rfl
    · split
      · rfl
      · rename_i o _ idx _
        have hsn : ∀ r, (snapped h src rsp ((h src).start + (idx : K) * (h src).delta) r).ext.get "phase" =
            (h r).ext.get "phase" := fun r =>
          snapped_inv (fun t => t.ext.get "phase") (fun x t => put_phase "onset" (by decide) x t) h src rsp _ r
        split
        · exact hsn r
        · rw [runKernel_inv (fun t => t.ext.get "phase") (fun d t => rfl)
            (fun x t => put_phase "iterations" (by decide) x t) _ _ _ _ _ _ _ _ _ _ hmf]
          split
          · exact hsn r
          · by_cases hr : r = src
            · subst hr
              rw [Heap.set_self, hk.2, hk.1]
              exact hsn r
            · rw [Heap.set_ne _ _ hr]
              exact hsn r

theorem deconvolveCall_phase (env : RfEnv K) (hk : KeepsExt env.dec) (a : DeconvArgs K)
    (hm : a.method ≠ "func".toList) (h : Heap K) (s : List Nat) (r : Nat) :
    ((deconvolveCall env a h s).1 r).ext.get "phase" = (h r).ext.get "phase" := by
  have := deconvolve_phase env.dec hk a hm h s r
  unfold deconvolveCall
  cases hd : deconvolve env.dec h s a with
  | mk h' res =>
    rw [hd] at this
    cases res with
    | error e => exact this
    | ok l =>
      simp only
      rw [addInfoAll_get _ _ _ _ _ (by decide)]
      exact this

theorem mirrorLoop_phase (h : Heap K) (s : List Nat) (r : Nat) :
    ((mirrorLoop h s).1 r).ext.get "phase" = (h r).ext.get "phase" := by
  induction s generalizing h with
  | nil => rfl
  | cons q s ih =>
    unfold mirrorLoop
    cases (h q).getTime "onset" with
    | some o =>
      simp only
      rw [ih]
      by_cases hr : r = q
      · subst hr; rw [Heap.set_self, mirrorTrace_get _ _ _ (by decide)]
      · rw [Heap.set_ne _ _ hr]
    | none =>
      simp only
      by_cases hr : r = q
      · subst hr; rw [Heap.set_self]
      · rw [Heap.set_ne _ _ hr]

/-- Everything before the labels, on the whole stream and on the part. -/
theorem before_sim (env : RfEnv K) (a : RfArgs K) (m : Str) (hfunc : a.deconvolve ≠ some "func".toList)
    (hk : KeepsRecord env) (hrot : ∀ m, GroupLocal (env.rotate m)) (hnoise : NoiseLocal env.dec)
    (hext : KeepsExt env.dec) (p : Nat → Bool) (st st' st1 : SState K) (hS : Sim p st st')
    (hW : WholeRecords env.timeStr p st.1 st.2)
    (hok : ((rfBefore env a m st).andThen (mirrorStage m)) = (st1, none)) :
    (∃ st1', ((rfBefore env a m st').andThen (mirrorStage m)) = (st1', none) ∧ Sim p st1 st1') ∧
      (∀ r ∈ st1.2, r ∈ st.2) ∧ ∀ r, (st1.1 r).ext.get "phase" = (st.1 r).ext.get "phase" := by
  unfold rfBefore at hok ⊢
  obtain ⟨sb, hb, hmir⟩ := andThen_ok hok
  obtain ⟨sa, ha, hdec⟩ := andThen_ok hb
  obtain ⟨⟨sa', a1, a2⟩, a3, a4⟩ := stepSim_prep env a hk hrot p st st' sa hS hW ha
  have hWa := wholeRecords_mono _ _ _ _ _ _ a3 a4 hW
  have hdecS : (∃ sb', deconvolveStage env a m sa' = (sb', none) ∧ Sim p sb sb') ∧ sb.2 = sa.2 ∧
      ∀ r, (sb.1 r).ext.get "phase" = (sa.1 r).ext.get "phase" := by
    unfold deconvolveStage at hdec ⊢
    cases hd : a.deconvolve with
    | none =>
      rw [hd] at hdec
      simp only [Prod.mk.injEq, and_true] at hdec
      subst hdec
      exact ⟨⟨sa', rfl, a2⟩, rfl, fun r => rfl⟩
    | some d =>
      rw [hd] at hdec
      simp only at hdec ⊢
      have hf : (rfDeconvArgs a m d).method ≠ "func".toList := by
        intro e
        apply hfunc
        rw [hd]
        exact congrArg some e
      obtain ⟨g1, g2, gs, g3⟩ := forGroups_sim env.timeStr p _ (deconvolveCall_local env hnoise _ hf)
        sa sa' sb a2 hWa hdec
      refine ⟨g1, g2, fun r => ?_⟩
      rw [g3]
      exact groupBody_inv (fun t => t.ext.get "phase") _
        (fun h gr r => deconvolveCall_phase env hext _ hf h gr r) sa.1 gs r
  obtain ⟨⟨sb', b1, b2⟩, b3, b4⟩ := hdecS
  have hmirS : (∃ st1', mirrorStage m sb' = (st1', none) ∧ Sim p st1 st1') ∧ st1.2 = sb.2 ∧
      ∀ r, (st1.1 r).ext.get "phase" = (sb.1 r).ext.get "phase" := by
    unfold mirrorStage at hmir ⊢
    by_cases hs : m = "S".toList
    · rw [if_pos hs] at hmir ⊢
      simp only [Prod.mk.injEq] at hmir
      obtain ⟨e1, e2⟩ := hmir
      have hml : mirrorLoop sb.1 sb.2 = ((mirrorLoop sb.1 sb.2).1, none) := Prod.ext rfl e2
      obtain ⟨h1', c1, c2⟩ := mirrorLoop_sim b2.2 sb.2 hml
      rw [← e1]
      refine ⟨⟨(h1', sb.2.filter p), ?_, rfl, c2⟩, rfl, fun r => mirrorLoop_phase sb.1 sb.2 r⟩
      rw [b2.1]
      simp only [c1]
    · rw [if_neg hs] at hmir ⊢
      simp only [Prod.mk.injEq, and_true] at hmir
      subst hmir
      exact ⟨⟨sb', rfl, b2⟩, rfl, fun r => rfl⟩
  obtain ⟨⟨st1', c1, c2⟩, c3, c4⟩ := hmirS
  refine ⟨⟨st1', ?_, c2⟩, fun r hr => a3 r (b3 ▸ c3 ▸ hr), fun r => ?_⟩
  · have a1' : (rfPrep env a st').andThen qStage = (sa', none) := a1
    rw [a1']
    simp only [SRes.andThen, b1, c1]
  · rw [c4, b4]
    have := a4 r
    simp only [recordOf, Prod.mk.injEq] at this
    exact this.2.2

end stages

end Verif.Props
