import Verif.Model.Stream
import Verif.Spec.Stream
import Mathlib.Data.Rat.Floor
import Mathlib.Tactic.Ring
import Mathlib.Tactic.Linarith
import Mathlib.Tactic.FieldSimp

/-!
# Properties of `RFStream.rf` (C41-C44, C46)
-/

set_option linter.unusedSimpArgs false
set_option linter.unusedSectionVars false

namespace Verif.Props
open Verif.Py Verif.Model Verif.Spec

section unique
variable {K : Type} [DecidableEq K]

theorem uniqueHeader_eq_some (h : Heap K) (s : List Nat) (k : String) (v : Val K) :
    uniqueHeader h s k = some v ↔ CommonEntry h s k v := by
  unfold uniqueHeader CommonEntry
  have hmem : ∀ w, w ∈ s.filterMap (fun r => (h r).ext.get k) ↔ ∃ r ∈ s, (h r).ext.get k = some w := by
    intro w; simp [List.mem_filterMap]
  generalize s.filterMap (fun r => (h r).ext.get k) = l at hmem ⊢
  have h2 : (∀ r ∈ s, ∀ w, (h r).ext.get k = some w → w = v) ↔ ∀ w ∈ l, w = v := by
    constructor
    · intro H w hw
      obtain ⟨r, hr, e⟩ := (hmem w).1 hw
      exact H r hr w e
    · intro H r hr w e
      exact H w ((hmem w).2 ⟨r, hr, e⟩)
  rw [h2, ← hmem]
  cases l with
  | nil => simp
  | cons a l =>
    simp only [List.all_eq_true, decide_eq_true_eq]
    split
    · rename_i ha
      simp only [Option.some.injEq, List.mem_cons]
      constructor
      · rintro rfl
        exact ⟨Or.inl rfl, fun w hw => hw.elim id (ha w)⟩
      · rintro ⟨_, h⟩
        exact h a (Or.inl rfl)
    · rename_i ha
      simp only [reduceCtorEq, List.mem_cons, false_iff, not_and]
      intro _ h
      apply ha
      intro x hx
      rw [h x (Or.inr hx), h a (Or.inl rfl)]

theorem uniqueHeader_eq_none (h : Heap K) (s : List Nat) (k : String) :
    uniqueHeader h s k = none ↔ ¬ ∃ v, CommonEntry h s k v := by
  constructor
  · rintro e ⟨v, hv⟩
    rw [(uniqueHeader_eq_some h s k v).2 hv] at e
    simp at e
  · intro H
    cases e : uniqueHeader h s k with
    | none => rfl
    | some v => exact absurd ⟨v, (uniqueHeader_eq_some h s k v).1 e⟩ H

end unique

/-- `m not in 'PS'` lets four strings pass. -/
theorem isSubstr_PS (m : Str) : isSubstr m "PS".toList = true ↔
    m = [] ∨ m = "P".toList ∨ m = "S".toList ∨ m = "PS".toList := by
  show isSubstr m ['P', 'S'] = true ↔ m = [] ∨ m = ['P'] ∨ m = ['S'] ∨ m = ['P', 'S']
  match m with
  | [] => simp [isSubstr]
  | [a] => simp [isSubstr, List.isPrefixOf]
  | [a, b] => simp [isSubstr, List.isPrefixOf]
  | a :: b :: c :: l => simp [isSubstr, List.isPrefixOf]

section method
variable {K : Type} [Field K] [LinearOrder K] [FloorRing K]

/-- C41 for a method given by the caller: every string but 'P', 'S' and (this is the missing part, see
`C41_counterexample`) '' and 'PS' is rejected with `ValueError`; nothing is changed. -/
theorem C41_explicit_partial (env : RfEnv K) (a : RfArgs K) (st : SState K) (m : Str)
    (hm : a.method = some m) (hP : m ≠ "P".toList) (hS : m ≠ "S".toList)
    (h0 : m ≠ []) (h2 : m ≠ "PS".toList) : rf env a st = (st, some .valueError) := by
  have hsub : isSubstr m "PS".toList = false := by
    rw [Bool.eq_false_iff, ne_eq, isSubstr_PS]
    tauto
  unfold rf rfBody rfMethod requestedMethod
  simp only [hm, hsub]
  rfl

/-- C41 without explicit method: the stream must have a common phase, and its last letter must be
P or S (in either case); otherwise `ValueError`, and nothing is changed. -/
theorem C41_derived (env : RfEnv K) (a : RfArgs K) (st : SState K) (hm : a.method = none) :
    ((¬ ∃ v, CommonEntry st.1 st.2 "phase" v) → rf env a st = (st, some .valueError)) ∧
    (∀ (p : Str) (c : Char), CommonEntry st.1 st.2 "phase" (.str (p ++ [c])) →
      c.toUpper ≠ 'P' → c.toUpper ≠ 'S' → rf env a st = (st, some .valueError)) := by
  constructor
  · intro h
    unfold rf rfBody rfMethod requestedMethod
    simp only [hm, streamMethod, (uniqueHeader_eq_none st.1 st.2 "phase").2 h]
    rfl
  · intro p c h hP hS
    have hsub : isSubstr (upper [c]) "PS".toList = false := by
      rw [Bool.eq_false_iff, ne_eq, isSubstr_PS]
      show ¬ ([c.toUpper] = [] ∨ [c.toUpper] = ['P'] ∨ [c.toUpper] = ['S'] ∨ [c.toUpper] = ['P', 'S'])
      simp [hP, hS]
    unfold rf rfBody rfMethod requestedMethod
    simp only [hm, streamMethod, (uniqueHeader_eq_some st.1 st.2 "phase" _).2 h,
      List.getLast?_append, List.getLast?_singleton, Option.some_or, hsub]
    rfl

end method

section loops
variable {K : Type}

/-- An in-place loop keeps every attribute its body keeps (also with aliasing and exceptions). -/
theorem forEachE_inv {β : Type} (g : Trace K → β) (f : Trace K → Res (Trace K))
    (hf : ∀ t t', f t = .ok t' → g t' = g t) (h : Heap K) (s : List Nat) (r : Nat) :
    g ((Heap.forEachE f h s).1 r) = g (h r) := by
  induction s generalizing h with
  | nil => rfl
  | cons a s ih =>
    unfold Heap.forEachE
    cases hfa : f (h a) with
    | error e => rfl
    | ok t =>
      simp only []
      rw [ih]
      by_cases hr : r = a
      · subst hr; rw [Heap.set_self]; exact hf _ _ hfa
      · rw [Heap.set_ne _ _ hr]

theorem forEachE_not_mem (f : Trace K → Res (Trace K)) (h : Heap K) (s : List Nat) (r : Nat)
    (hr : r ∉ s) : (Heap.forEachE f h s).1 r = h r := by
  induction s generalizing h with
  | nil => rfl
  | cons a s ih =>
    simp only [List.mem_cons, not_or] at hr
    unfold Heap.forEachE
    cases hfa : f (h a) with
    | error e => rfl
    | ok t =>
      simp only []
      rw [ih _ hr.2, Heap.set_ne _ _ hr.1]

end loops

section label
variable {K : Type} [Field K] [LinearOrder K] [FloorRing K]

theorem put_get (t : Trace K) (k k' : String) (v : Val K) :
    (t.put k v).ext.get k' = if k' = k then some v else t.ext.get k' := Dict.get_set _ _ _ _

theorem addInfo_get (info : Str) (t t' : Trace K) (h : addInfo info t = .ok t') (k : String)
    (hk : k ≠ "processing") : t'.ext.get k = t.ext.get k := by
  unfold addInfo at h
  split at h
  · injection h with h; rw [← h, put_get, if_neg hk]
  · injection h with h
    rw [← h]
    split
    · rw [put_get, if_neg hk]
    · rfl
  · simp at h

theorem addInfoAll_get (info : Str) (h : Heap K) (s : List Nat) (r : Nat) (k : String)
    (hk : k ≠ "processing") : (addInfoAll info h s r).ext.get k = (h r).ext.get k :=
  forEachE_inv (fun t => t.ext.get k) _ (fun t t' ht => addInfo_get info t t' ht k hk) h s r

theorem addInfo_rest (info : Str) (t t' : Trace K) (h : addInfo info t = .ok t') :
    t'.data = t.data ∧ t'.start = t.start ∧ t'.sr = t.sr ∧ t'.net = t.net ∧ t'.sta = t.sta ∧
      t'.loc = t.loc ∧ t'.cha = t.cha := by
  unfold addInfo at h
  split at h
  · injection h with h; subst h; exact ⟨rfl, rfl, rfl, rfl, rfl, rfl, rfl⟩
  · injection h with h
    subst h
    split <;> exact ⟨rfl, rfl, rfl, rfl, rfl, rfl, rfl⟩
  · simp at h

/-- Recording the processing information changes nothing but the processing entry. -/
theorem addInfoAll_rest (info : Str) (h : Heap K) (s : List Nat) (r : Nat) :
    (addInfoAll info h s r).data = (h r).data ∧ (addInfoAll info h s r).start = (h r).start ∧
      (addInfoAll info h s r).sr = (h r).sr ∧ (addInfoAll info h s r).cha = (h r).cha ∧
      (addInfoAll info h s r).id = (h r).id := by
  have := forEachE_inv (fun t => (t.data, t.start, t.sr, t.net, t.sta, t.loc, t.cha)) (addInfo info)
    (fun t t' ht => by
      obtain ⟨h1, h2, h3, h4, h5, h6, h7⟩ := addInfo_rest info t t' ht
      simp [h1, h2, h3, h4, h5, h6, h7]) h s r
  simp only [Prod.mk.injEq] at this
  obtain ⟨h1, h2, h3, h4, h5, h6, h7⟩ := this
  exact ⟨h1, h2, h3, h7, by unfold Trace.id addInfoAll; rw [h4, h5, h6, h7]⟩

/-- The traces of the heaps agree on an entry, so the stream methods agree. -/
theorem uniqueHeader_congr (h h' : Heap K) (s : List Nat) (k : String)
    (he : ∀ r, (h r).ext.get k = (h' r).ext.get k) : uniqueHeader h s k = uniqueHeader h' s k := by
  unfold uniqueHeader
  simp only [he]

theorem streamMethod_congr (h h' : Heap K) (s : List Nat)
    (he : ∀ r, (h r).ext.get "phase" = (h' r).ext.get "phase") :
    streamMethod h s = streamMethod h' s := by
  unfold streamMethod
  rw [uniqueHeader_congr h h' s "phase" he]

theorem andThen_ok {x : SRes K} {f : SState K → SRes K} {y : SState K}
    (h : x.andThen f = (y, none)) : ∃ z, x = (z, none) ∧ f z = (y, none) := by
  obtain ⟨z, e⟩ := x
  cases e with
  | none => exact ⟨z, rfl, h⟩
  | some e => simp [SRes.andThen] at h

theorem streamMethod_set (m : Str) (c : Char) (hm : m = [c]) (hc : c.toUpper = c) (h : Heap K)
    (s : List Nat) (hs : s ≠ []) : streamMethod (setMethod m h s) s = .ok (some m) := by
  have hget : ∀ r ∈ s, (setMethod m h s r).ext.get "phase" = some (.str m) := by
    intro r hr
    exact Heap.forEach_estab (fun t => t.ext.get "phase" = some (.str m)) _
      (fun t => by rw [put_get, if_pos rfl]) h s r hr
  have : uniqueHeader (setMethod m h s) s "phase" = some (.str m) := by
    rw [uniqueHeader_eq_some]
    refine ⟨?_, fun r hr w hw => ?_⟩
    · obtain ⟨r, hr⟩ := List.exists_mem_of_ne_nil s hs
      exact ⟨r, hr, hget r hr⟩
    · rw [hget r hr] at hw
      simpa using hw.symm
  unfold streamMethod
  rw [this]
  subst hm
  simp [upper, hc]

/-- C44.  After a successful `rf` every trace has type 'rf', and the method of a non-empty stream is
the one that was asked for (or determined from the phase), whatever the phases were before. -/
theorem C44_labels (env : RfEnv K) (a : RfArgs K) (st st' : SState K)
    (hok : rf env a st = (st', none)) :
    (∀ r ∈ st'.2, (st'.1 r).ext.get "type" = some (.str "rf".toList)) ∧
    (∀ m : Str, m = "P".toList ∨ m = "S".toList → st'.2 ≠ [] →
      (a.method = some m ∨ a.method = none ∧ streamMethod st.1 st.2 = .ok (some m)) →
      streamMethod st'.1 st'.2 = .ok (some m)) := by
  unfold rf at hok
  obtain ⟨stb, hb, hfin⟩ := andThen_ok hok
  have hst' : st' = (addInfoAll env.infoRf stb.1 stb.2, stb.2) := by
    simp only [Prod.mk.injEq, and_true] at hfin
    exact hfin.symm
  subst hst'
  unfold rfBody at hb
  cases hmeth : rfMethod st.1 st.2 a.method with
  | error e => rw [hmeth] at hb; simp at hb
  | ok m0 =>
    rw [hmeth] at hb
    simp only [] at hb
    obtain ⟨stm, hstm, hlab⟩ := andThen_ok hb
    unfold labelStage at hlab
    simp only [] at hlab
    have htype : ∀ r ∈ stm.2, (setType "rf".toList stm.1 stm.2 r).ext.get "type"
        = some (.str "rf".toList) := fun r hr =>
      Heap.forEach_estab (fun t => t.ext.get "type" = some (.str "rf".toList)) _
        (fun t => by rw [put_get, if_pos rfl]) _ _ r hr
    cases hsm : streamMethod (setType "rf".toList stm.1 stm.2) stm.2 with
    | error e => rw [hsm] at hlab; simp at hlab
    | ok m' =>
      rw [hsm] at hlab
      simp only [Prod.mk.injEq, and_true] at hlab
      subst hlab
      simp only []
      constructor
      · intro r hr
        rw [addInfoAll_get _ _ _ _ _ (by decide)]
        split
        · unfold setMethod
          rw [Heap.forEach_inv (fun t => t.ext.get "type") _
            (fun t => by rw [put_get, if_neg (by decide)])]
          exact htype r hr
        · exact htype r hr
      · intro m hm hne hreq
        have hmm : m0 = m := by
          unfold rfMethod requestedMethod at hmeth
          rcases hreq with hreq | ⟨h1, h2⟩
          · rw [hreq] at hmeth
            simp only [] at hmeth
            split at hmeth
            · injection hmeth with hmeth; exact hmeth.symm
            · simp at hmeth
          · rw [h1] at hmeth
            simp only [h2] at hmeth
            split at hmeth
            · injection hmeth with hmeth; exact hmeth.symm
            · simp at hmeth
        subst hmm
        rw [streamMethod_congr _ _ _ (fun r => addInfoAll_get env.infoRf _ stm.2 r "phase" (by decide))]
        split
        · rcases hm with rfl | rfl
          · exact streamMethod_set _ 'P' rfl rfl _ _ hne
          · exact streamMethod_set _ 'S' rfl rfl _ _ hne
        · rename_i hnot
          rw [ne_eq, not_not] at hnot
          rw [hsm, hnot]

end label

section member
variable {K : Type} [Field K] [LinearOrder K] [FloorRing K]

theorem andThen_traces (x : SRes K) (f : SState K → SRes K) (hf : ∀ st, (f st).1.2 = st.2) :
    (x.andThen f).1.2 = x.1.2 := by
  obtain ⟨z, e⟩ := x
  cases e with
  | none => exact hf z
  | some e => rfl

theorem andThen_sublist (x : SRes K) (f : SState K → SRes K)
    (hf : ∀ st, (f st).1.2.Sublist st.2) : (x.andThen f).1.2.Sublist x.1.2 := by
  obtain ⟨z, e⟩ := x
  cases e with
  | none => exact hf z
  | some e => exact List.Sublist.refl _

theorem filterStage_traces (env : RfEnv K) (a : RfArgs K) (st : SState K) :
    (filterStage env a st).1.2 = st.2 := by
  unfold filterStage forTraces; split <;> rfl

theorem decimateStage_traces (env : RfEnv K) (a : RfArgs K) (st : SState K) :
    (decimateStage env a st).1.2 = st.2 := by
  unfold decimateStage forTraces; split <;> rfl

theorem forGroups_traces (timeStr : K → Str) (f : Heap K → List Nat → Heap K × Option PyErr)
    (st : SState K) : (forGroups timeStr f st).1.2 = st.2 := by
  unfold forGroups; split <;> rfl

theorem rotateStage_traces (env : RfEnv K) (a : RfArgs K) (st : SState K) :
    (rotateStage env a st).1.2 = st.2 := by
  unfold rotateStage; split
  · exact forGroups_traces _ _ _
  · rfl

theorem deconvolveStage_traces (env : RfEnv K) (a : RfArgs K) (m : Str) (st : SState K) :
    (deconvolveStage env a m st).1.2 = st.2 := by
  unfold deconvolveStage; split
  · exact forGroups_traces _ _ _
  · rfl

theorem mirrorStage_traces (m : Str) (st : SState K) : (mirrorStage m st).1.2 = st.2 := by
  unfold mirrorStage; split <;> rfl

theorem labelStage_traces (m : Str) (st : SState K) : (labelStage m st).1.2 = st.2 := by
  unfold labelStage
  simp only []
  split <;> rfl

theorem trimStage_sublist (env : RfEnv K) (a : RfArgs K) (st : SState K) :
    (trimStage env a st).1.2.Sublist st.2 := by
  unfold trimStage trim2; split
  · split
    · exact List.Sublist.refl _
    · exact List.filter_sublist
  · exact List.Sublist.refl _

theorem rfBefore_sublist (env : RfEnv K) (a : RfArgs K) (m : Str) (st : SState K) :
    (rfBefore env a m st).1.2.Sublist st.2 := by
  unfold rfBefore rfPrep
  rw [andThen_traces _ _ (deconvolveStage_traces env a m), andThen_traces _ qStage (fun st => rfl),
    andThen_traces _ _ (rotateStage_traces env a), andThen_traces _ _ (decimateStage_traces env a)]
  have := andThen_sublist (filterStage env a st) _ (trimStage_sublist env a)
  rwa [filterStage_traces] at this

/-- C46.  `rf` never adds or reorders traces, whether it succeeds or fails, and without trimming the
stream consists of the same trace objects in the same order. -/
theorem C46_membership (env : RfEnv K) (a : RfArgs K) (st : SState K) :
    (rf env a st).1.2.Sublist st.2 ∧ (a.trim = none → (rf env a st).1.2 = st.2) := by
  have hrf : (rf env a st).1.2 = (rfBody env a st).1.2 := andThen_traces _ _ (fun st => rfl)
  rw [hrf]
  unfold rfBody
  cases rfMethod st.1 st.2 a.method with
  | error e => exact ⟨List.Sublist.refl _, fun _ => rfl⟩
  | ok m =>
    simp only []
    rw [andThen_traces _ _ (labelStage_traces m), andThen_traces _ _ (mirrorStage_traces m)]
    refine ⟨rfBefore_sublist env a m st, fun ht => ?_⟩
    unfold rfBefore rfPrep
    rw [andThen_traces _ _ (deconvolveStage_traces env a m), andThen_traces _ qStage (fun st => rfl),
      andThen_traces _ _ (rotateStage_traces env a), andThen_traces _ _ (decimateStage_traces env a),
      andThen_traces _ _ (fun st => by unfold trimStage; rw [ht]), filterStage_traces]

/-- With distinct traces exactly one entry is appended to each of them. -/
theorem addInfoAll_mem (info : Str) (h : Heap K) (s : List Nat) (hn : s.Nodup)
    (hp : ∀ r ∈ s, ShortHistory 100 (h r)) (r : Nat) (hr : r ∈ s) :
    processingOf (addInfoAll info h s r) = processingOf (h r) ++ [info] := by
  unfold addInfoAll
  induction s generalizing h with
  | nil => simp at hr
  | cons a s ih =>
    rw [List.nodup_cons] at hn
    unfold Heap.forEachE
    have haOk : ∃ t, addInfo info (h a) = .ok t ∧ processingOf t = processingOf (h a) ++ [info] := by
      rcases hp a (List.mem_cons_self) with hl | ⟨l, hl, hlt⟩
      · refine ⟨(h a).put "processing" (.list [info]), ?_, ?_⟩
        · unfold addInfo; simp only [hl]
        · unfold processingOf; rw [put_get, if_pos rfl, hl]; rfl
      · refine ⟨(h a).put "processing" (.list (l ++ [info])), ?_, ?_⟩
        · unfold addInfo maxProcessing; simp only [hl]; rw [if_pos hlt]
        · unfold processingOf; rw [put_get, if_pos rfl, hl]
    obtain ⟨t, ht, htg⟩ := haOk
    rw [ht]
    simp only []
    rcases List.mem_cons.1 hr with rfl | hr'
    · rw [forEachE_not_mem _ _ _ _ hn.1, Heap.set_self]
      exact htg
    · have hne : ∀ q ∈ s, q ≠ a := fun q hq e => hn.1 (e ▸ hq)
      rw [ih (h.set a t) hn.2 (fun q hq => by
        rw [Heap.set_ne _ _ (hne q hq)]; exact hp q (List.mem_cons_of_mem _ hq)) hr',
        Heap.set_ne _ _ (hne r hr')]

/-- C46, processing entries: the decorated `rf` appends exactly one entry to every trace after the work of
the undecorated function, and changes nothing else.  (ObsPy keeps at most 100 entries, hence the
hypothesis.) -/
theorem C46_one_entry (env : RfEnv K) (a : RfArgs K) (st stb : SState K)
    (hb : rfBody env a st = (stb, none)) (hn : st.2.Nodup)
    (hp : ∀ r ∈ stb.2, ShortHistory 100 (stb.1 r)) :
    ∃ h', rf env a st = ((h', stb.2), none) ∧
      (∀ r ∈ stb.2, processingOf (h' r) = processingOf (stb.1 r) ++ [env.infoRf]) ∧
      (∀ r, (h' r).data = (stb.1 r).data ∧ (h' r).start = (stb.1 r).start ∧
        (h' r).sr = (stb.1 r).sr ∧ (h' r).id = (stb.1 r).id ∧
        ∀ k, k ≠ "processing" → (h' r).ext.get k = (stb.1 r).ext.get k) := by
  refine ⟨addInfoAll env.infoRf stb.1 stb.2, ?_, ?_, ?_⟩
  · unfold rf; rw [hb]; rfl
  · intro r hr
    refine addInfoAll_mem _ _ _ ?_ hp r hr
    have hs := (C46_membership env a st).1
    have : (rf env a st).1.2 = stb.2 := by unfold rf; rw [hb]; rfl
    rw [this] at hs
    exact hs.nodup hn
  · intro r
    obtain ⟨h1, h2, h3, h4, h5⟩ := addInfoAll_rest env.infoRf stb.1 stb.2 r
    exact ⟨h1, h2, h3, h5, fun k hk => addInfoAll_get _ _ _ _ _ hk⟩

/-- C46, processing entries of the deconvolution of one group: its responses get exactly one entry. -/
theorem C46_deconvolve_entry (env : RfEnv K) (da : DeconvArgs K) (h h' : Heap K) (g rsp : List Nat)
    (hd : deconvolve env.dec h g da = (h', .ok rsp)) (hn : rsp.Nodup)
    (hp : ∀ r ∈ rsp, ShortHistory 100 (h' r)) :
    ∃ h'', deconvolveCall env da h g = (h'', none) ∧
      ∀ r, processingOf (h'' r) =
        if r ∈ rsp then processingOf (h' r) ++ [env.infoDec] else processingOf (h' r) := by
  refine ⟨addInfoAll env.infoDec h' rsp, ?_, fun r => ?_⟩
  · unfold deconvolveCall; rw [hd]
  · split
    · rename_i hr; exact addInfoAll_mem _ _ _ hn hp r hr
    · rename_i hr
      unfold addInfoAll
      rw [forEachE_not_mem _ _ _ _ hr]

end member

end Verif.Props
