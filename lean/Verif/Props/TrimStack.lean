import Verif.Props.TrimMoveout
import Verif.Props.StackMoveout
import Verif.Props.OrderDec

/-!
# Windows of a stack and stacks of windows (C185)

The property expected: a window relative to the onset can be cut out before or after stacking.  It is false of the code:
`stack` adds sample by sample whatever the onsets are, while cutting out the window aligns the traces
(`C185_counterexample`).  If the onsets are at the same sample of all traces, the property holds up to the absolute times
(`C185_commutes_partial`); a window outside of the data is another exception: `stack` raises `IndexError`
(`C185_empty_partial`).
-/

set_option linter.unusedSimpArgs false
set_option linter.unusedSectionVars false

namespace Verif.Props
open Verif.Py Verif.Model Verif.Model.Simple Verif.Spec

section
variable {K : Type} [Field K] [LinearOrder K] [IsStrictOrderedRing K] [FloorRing K]

theorem foldl_cut (i n : ℕ) (rs : List (List K)) (r : List K) :
    ((rs.foldl (fun (a b : List K) => List.zipWith (· + ·) a b) r).drop i).take n =
      (rs.map fun q => (q.drop i).take n).foldl (fun (a b : List K) => List.zipWith (· + ·) a b) ((r.drop i).take n) := by
  induction rs generalizing r with
  | nil => rfl
  | cons q rs ih =>
    simp only [List.foldl_cons, List.map_cons]
    rw [ih, List.drop_zipWith, List.take_zipWith]

theorem npMean_cut (i n : ℕ) (rows : List (List K)) (d : List K) (h : npMean rows = .ok d) :
    npMean (rows.map fun q => (q.drop i).take n) = .ok ((d.drop i).take n) := by
  cases rows with
  | nil => simp [npMean] at h
  | cons r rs =>
    simp only [npMean, List.map_cons] at h ⊢
    split at h
    · rename_i hall
      injection h with h
      rw [if_pos, ← h, ← List.map_drop, ← List.map_take, foldl_cut, List.length_map]
      rw [List.all_eq_true] at hall ⊢
      intro q hq
      rw [List.mem_map] at hq
      obtain ⟨q', hq', rfl⟩ := hq
      have := hall q' hq'
      simp only [beq_iff_eq] at this
      simp only [List.length_take, List.length_drop, this, beq_self_eq_true]
    · simp at h

theorem id_samplesOf (t : Trace K) (i n : ℕ) : (samplesOf i n t).id = t.id := rfl

theorem stackOne_cut (h h1 : Heap K) (s : List ℕ) (i n : ℕ) (hh : ∀ r ∈ s, h1 r = samplesOf i n (h r)) (tr t : Trace K)
    (ident : Str) (o : K) (ho : tr.ext.get "onset" = some (.time o)) (hok : stackOne h s tr ident = .ok t) :
    ∃ t1, stackOne h1 s (samplesOf i n tr) ident = .ok t1 ∧ SameRelative (samplesOf i n t) t1 ∧
      t.start = 0 ∧ t.sr = tr.sr ∧ t.ext.get "onset" = some (.time (o - tr.start)) ∧ t1.start = 0 := by
  have hrows : (s.filter (fun r => (h1 r).id = ident)).map (fun r => (h1 r).data) =
      ((s.filter (fun r => (h r).id = ident)).map (fun r => (h r).data)).map fun q => (q.drop i).take n := by
    rw [List.map_map]
    have e1 : s.filter (fun r => (h1 r).id = ident) = s.filter (fun r => (h r).id = ident) := by
      refine List.filter_congr fun r hr => ?_
      rw [hh r hr, id_samplesOf]
    rw [e1]
    refine List.map_congr_left fun r hr => ?_
    rw [hh r (List.mem_of_mem_filter hr)]
    rfl
  have ho' : (samplesOf i n tr).ext.get "onset" = some (.time o) := ho
  unfold stackOne at hok ⊢
  split at hok
  · rename_i net sta loc cha hsplit
    cases hm : npMean ((s.filter (fun r => (h r).id = ident)).map (fun r => (h r).data)) with
    | error e => rw [hm] at hok; simp at hok
    | ok data =>
      rw [hm] at hok
      simp only [ho] at hok
      injection hok with hok
      simp only [hrows, npMean_cut i n _ _ hm, ho']
      refine ⟨_, rfl, ?_, ?_⟩
      · subst hok
        refine ⟨rfl, rfl, rfl, rfl, rfl, rfl, ⟨0 + (o - tr.start), 0 + (o - (samplesOf i n tr).start), ?_, ?_, ?_⟩, ?_⟩
        · exact (stackOne_ok.put_get_lite _ _ _ _).trans (if_pos rfl)
        · exact (stackOne_ok.put_get_lite _ _ _ _).trans (if_pos rfl)
        · simp only [samplesOf, Trace.put, Trace.delta]
          ring
        · intro k hk
          exact ((stackOne_ok.put_get_lite _ _ _ _).trans (if_neg hk)).trans
            ((stackOne_ok.put_get_lite _ _ _ _).trans (if_neg hk)).symm
      · subst hok
        refine ⟨rfl, rfl, ?_, rfl⟩
        rw [stackOne_ok.put_get_lite, if_pos rfl, zero_add]
  · simp at hok

theorem npMean_len (rows : List (List K)) (N : ℕ) (hr : ∀ q ∈ rows, q.length = N) (d : List K) (h : npMean rows = .ok d) :
    d.length = N := by
  have key : ∀ (rs : List (List K)) (r : List K), r.length = N → (∀ q ∈ rs, q.length = N) →
      (rs.foldl (fun (a b : List K) => List.zipWith (· + ·) a b) r).length = N := by
    intro rs
    induction rs with
    | nil => intro r hr _; exact hr
    | cons q rs ih =>
      intro r hr hq
      refine ih _ ?_ fun x hx => hq x (List.mem_cons_of_mem _ hx)
      rw [List.length_zipWith, hr, hq q List.mem_cons_self, min_self]
  cases rows with
  | nil => simp [npMean] at h
  | cons r rs =>
    simp only [npMean] at h
    split at h
    · injection h with h
      rw [← h, List.length_map]
      exact key rs r (hr r List.mem_cons_self) fun q hq => hr q (List.mem_cons_of_mem _ hq)
    · simp at h

theorem stackOne_npts (h : Heap K) (s : List ℕ) (N : ℕ) (hN : ∀ r ∈ s, (h r).npts = N) (tr t : Trace K) (ident : Str)
    (hok : stackOne h s tr ident = .ok t) : t.npts = N := by
  have hd : ∃ data, npMean ((s.filter (fun r => (h r).id = ident)).map (fun r => (h r).data)) = .ok data ∧ t.data = data := by
    unfold stackOne at hok
    split at hok
    · split at hok
      · simp at hok
      · rename_i data hm
        refine ⟨data, hm, ?_⟩
        simp only [] at hok
        cases ho : tr.ext.get "onset" with
        | none => rw [ho] at hok; injection hok with hok; rw [← hok]
        | some v =>
          rw [ho] at hok
          cases v with
          | time o => injection hok with hok; rw [← hok]; rfl
          | _ => simp at hok
    · simp at hok
  obtain ⟨data, hm, rfl⟩ := hd
  refine npMean_len _ N ?_ _ hm
  intro q hq
  rw [List.mem_map] at hq
  obtain ⟨r, hr, rfl⟩ := hq
  exact hN r (List.mem_of_mem_filter hr)

theorem mapM_related {α β γ : Type} (f : α → Res β) (g : α → Res γ) (R : β → γ → Prop) (P : β → Prop)
    (hfg : ∀ a b, f a = .ok b → P b ∧ ∃ c, g a = .ok c ∧ R b c) (l : List α) (out : List β) (h : l.mapM f = .ok out) :
    (∀ b ∈ out, P b) ∧ ∃ out', l.mapM g = .ok out' ∧ List.Forall₂ R out out' := by
  induction l generalizing out with
  | nil =>
    simp only [List.mapM_nil, pure, Except.pure, Except.ok.injEq] at h
    subst h
    exact ⟨fun b hb => by simp at hb, [], rfl, .nil⟩
  | cons a l ih =>
    rw [List.mapM_cons] at h ⊢
    cases ha : f a with
    | error e => rw [ha] at h; simp [bind, Except.bind] at h
    | ok b =>
      cases hl : l.mapM f with
      | error e => rw [ha, hl] at h; simp [bind, Except.bind] at h
      | ok bs =>
        rw [ha, hl] at h
        simp only [bind, Except.bind, pure, Except.pure, Except.ok.injEq] at h
        subst h
        obtain ⟨p1, c, hc, r1⟩ := hfg a b ha
        obtain ⟨p2, cs, hcs, r2⟩ := ih bs hl
        refine ⟨?_, c :: cs, ?_, .cons r1 r2⟩
        · intro x hx
          rcases List.mem_cons.1 hx with rfl | hx
          · exact p1
          · exact p2 x hx
        · rw [hc, hcs]; rfl

theorem cutTrace_samples (trim : Trace K → TArg K → TArg K → Res (Trace K)) (f : ℕ → K → K → K → Res (ℕ × ℕ))
    (hcut : ∀ (t : Trace K) (x y : K),
      trim t (.utc x) (.utc y) = (f t.npts t.sr (x - t.start) (y - t.start)).map fun p => samplesOf p.1 p.2 t)
    (a b : K) (t : Trace K) (o : K) (ho : t.ext.get "onset" = some (.time o)) :
    cutTrace trim (.sec a) (.sec b) (.key "onset") t =
      (f t.npts t.sr (o - t.start + a) (o - t.start + b)).map fun p => samplesOf p.1 p.2 t := by
  simp only [cutTrace, seconds2utc, statsTime, ho, show ¬ "onset" = "starttime" by decide,
    show ¬ "onset" = "endtime" by decide, if_false, hcut]
  rw [show o + a - t.start = o - t.start + a by ring, show o + b - t.start = o - t.start + b by ring]

/-- All traces of the stream have `N` samples at the same rate and the onset `d` after the start. -/
def Aligned (N : ℕ) (sr d : K) (st : SState K) : Prop :=
  ∀ r ∈ st.2, (st.1 r).npts = N ∧ (st.1 r).sr = sr ∧ ∃ o, (st.1 r).ext.get "onset" = some (.time o) ∧ o - (st.1 r).start = d

/-- The same samples are cut out of all traces. -/
theorem trim2_aligned (trim : Trace K → TArg K → TArg K → Res (Trace K)) (hcut : CutsSamples trim) (a b : K) (N : ℕ)
    (sr d : K) : (∃ i n, ∀ st : SState K, st.2.Nodup → Aligned N sr d st → ∃ st1,
        trim2 trim (.sec a) (.sec b) (.key "onset") st = (st1, none) ∧ (∀ r ∈ st.2, st1.1 r = samplesOf i n (st.1 r)) ∧
        st1.2 = if min n (N - i) = 0 then [] else st.2) ∨
      ∀ st : SState K, st.2.Nodup → Aligned N sr d st → st.2 ≠ [] → ∀ st1,
        trim2 trim (.sec a) (.sec b) (.key "onset") st ≠ (st1, none) := by
  obtain ⟨f, hcut⟩ := hcut
  cases hf : f N sr (d + a) (d + b) with
  | ok p =>
    left
    refine ⟨p.1, p.2, fun st hn hal => ?_⟩
    have hc : ∀ r ∈ st.2, cutTrace trim (.sec a) (.sec b) (.key "onset") (st.1 r) = .ok (samplesOf p.1 p.2 (st.1 r)) := by
      intro r hr
      obtain ⟨k1, k2, o, k3, k4⟩ := hal r hr
      rw [cutTrace_samples trim f hcut a b _ o k3, k1, k2, k4, hf]
      rfl
    have hfe := (forEachE_ok_iff (cutTrace trim (.sec a) (.sec b) (.key "onset")) st.1
      (fun r => if r ∈ st.2 then samplesOf p.1 p.2 (st.1 r) else st.1 r) st.2 hn).2
      ⟨fun r hr => by simp only [if_pos hr]; exact hc r hr, fun r hr => by simp only [if_neg hr]⟩
    unfold trim2
    rw [hfe]
    refine ⟨_, rfl, fun r hr => by simp only [if_pos hr], ?_⟩
    simp only []
    have hnp : ∀ r ∈ st.2, (if r ∈ st.2 then samplesOf p.1 p.2 (st.1 r) else st.1 r).npts = min p.2 (N - p.1) := by
      intro r hr
      rw [if_pos hr, npts_samplesOf, (hal r hr).1]
    split
    · rename_i h0
      rw [List.filter_eq_nil_iff]
      intro r hr
      simp [hnp r hr, h0]
    · rename_i h0
      rw [List.filter_eq_self]
      intro r hr
      simp [hnp r hr, h0]
  | error e =>
    right
    intro st hn hal hne st1 hok
    obtain ⟨r, hr⟩ := List.exists_mem_of_ne_nil _ hne
    obtain ⟨k1, k2, o, k3, k4⟩ := hal r hr
    unfold trim2 at hok
    rcases hl : Heap.forEachE (cutTrace trim (.sec a) (.sec b) (.key "onset")) st.1 st.2 with ⟨h', e'⟩
    rw [hl] at hok
    cases e' with
    | some e' => simp at hok
    | none =>
      have := ((forEachE_ok_iff _ _ _ _ hn).1 hl).1 r hr
      rw [cutTrace_samples trim f hcut a b _ o k3, k1, k2, k4, hf] at this
      simp [Except.map] at this

section main
variable (trim : Trace K → TArg K → TArg K → Res (Trace K)) (hcut : CutsSamples trim) (a b : K)
  (order : List Str → List Str) (st st1 : SState K) (hn : st.2.Nodup) (N : ℕ) (sr d : K) (hal : Aligned N sr d st)
  (h1 : trim2 trim (.sec a) (.sec b) (.key "onset") st = (st1, none)) (out : List (Trace K))
  (h2 : stack order st.1 st.2 = .ok out) (g : SState K) (hg : g.2.Nodup) (hg2 : g.2.map g.1 = out)

include hal h2 hg2 in
theorem stack_aligned : Aligned N sr d g := by
  intro r hr
  have hr' : g.1 r ∈ out := by rw [← hg2]; exact List.mem_map_of_mem hr
  cases hs : st.2 with
  | nil => rw [hs] at h2; simp [stack] at h2
  | cons r0 s =>
    have h0 := hal r0 (by rw [hs]; exact List.mem_cons_self)
    obtain ⟨k1, k2, o, k3, k4⟩ := h0
    have := (mapM_related (stackOne st.1 st.2 (st.1 r0)) (fun _ => (.ok () : Res Unit)) (fun _ _ => True)
      (fun t => t.npts = N ∧ t.sr = sr ∧ ∃ o, t.ext.get "onset" = some (.time o) ∧ o - t.start = d)
      (fun ident t ht => ⟨?_, (), rfl, trivial⟩) (order (st.2.map fun r => (st.1 r).id)) out (by
        rw [← h2, hs]; rfl)).1 _ hr'
    · exact this
    · obtain ⟨t1, -, -, e1, e2, e3, -⟩ := stackOne_cut st.1 (fun r => samplesOf 0 0 (st.1 r)) st.2 0 0 (fun _ _ => rfl)
        (st.1 r0) t ident o k3 ht
      exact ⟨stackOne_npts st.1 st.2 N (fun r hr => (hal r hr).1) _ _ _ ht, e2.trans k2, _, e3, by rw [e1, sub_zero, k4]⟩

include hcut hn hal h1 h2 hg hg2 in
/-- **C185, partial.**  The onset is at the same sample of all traces: the stack of the windows is the window of the stack
(same samples, same entries, the same onset relative to the start). -/
theorem C185_commutes_partial (hne : st1.2 ≠ []) : ∃ out1 g1, stack order st1.1 st1.2 = .ok out1 ∧
    trim2 trim (.sec a) (.sec b) (.key "onset") g = (g1, none) ∧ List.Forall₂ SameRelative (g1.2.map g1.1) out1 := by
  cases hs : st.2 with
  | nil => rw [hs] at h2; simp [stack] at h2
  | cons r0 s =>
    rcases trim2_aligned trim hcut a b N sr d with ⟨i, n, hall⟩ | hno
    · obtain ⟨x1, e1, e2, e3⟩ := hall st hn hal
      rw [h1, Prod.mk.injEq] at e1
      obtain ⟨rfl, -⟩ := e1
      have hmin : ¬ min n (N - i) = 0 := fun h => hne (by rw [e3, if_pos h])
      rw [if_neg hmin] at e3
      obtain ⟨g1, f1, f2, f3⟩ := hall g hg (stack_aligned order st N sr d hal out h2 g hg2)
      rw [if_neg hmin] at f3
      have hgm : g1.2.map g1.1 = out.map (samplesOf i n) := by
        rw [f3, ← hg2, List.map_map]
        exact List.map_congr_left fun r hr => f2 r hr
      obtain ⟨k1, k2, o, k3, k4⟩ := hal r0 (by rw [hs]; exact List.mem_cons_self)
      obtain ⟨-, out1, o1, o2⟩ := mapM_related (stackOne st.1 st.2 (st.1 r0))
        (stackOne st1.1 st.2 (samplesOf i n (st.1 r0))) (fun t t1 => SameRelative (samplesOf i n t) t1) (fun _ => True)
        (fun ident t ht => by
          obtain ⟨t1, c1, c2, -⟩ := stackOne_cut st.1 st1.1 st.2 i n e2 (st.1 r0) t ident o k3 ht
          exact ⟨trivial, t1, c1, c2⟩) (order (st.2.map fun r => (st.1 r).id)) out (by rw [← h2, hs]; rfl)
      refine ⟨out1, g1, ?_, f1, ?_⟩
      · rw [← o1, e3]
        have hids : st.2.map (fun r => (st1.1 r).id) = st.2.map fun r => (st.1 r).id :=
          List.map_congr_left fun r hr => by rw [e2 r hr]; rfl
        rw [← hids, hs]
        simp only [stack]
        rw [e2 r0 (by rw [hs]; exact List.mem_cons_self)]
      · rw [hgm, List.forall₂_map_left_iff]
        exact o2
    · exact absurd h1 (hno st hn hal (by rw [hs]; simp) st1)

include hcut hn hal h1 h2 hg hg2 in
/-- **C185, the exception.**  A window without samples: its stack raises `IndexError`, while the window of the stack is an
empty stream. -/
theorem C185_empty_partial (hne : st1.2 = []) : stack order st1.1 st1.2 = .error .indexError ∧
    ∃ g1, trim2 trim (.sec a) (.sec b) (.key "onset") g = (g1, none) ∧ g1.2 = [] := by
  refine ⟨by rw [hne]; rfl, ?_⟩
  have hs : st.2 ≠ [] := fun hs => by rw [hs] at h2; simp [stack] at h2
  rcases trim2_aligned trim hcut a b N sr d with ⟨i, n, hall⟩ | hno
  · obtain ⟨x1, e1, e2, e3⟩ := hall st hn hal
    rw [h1, Prod.mk.injEq] at e1
    obtain ⟨rfl, -⟩ := e1
    obtain ⟨g1, f1, f2, f3⟩ := hall g hg (stack_aligned order st N sr d hal out h2 g hg2)
    refine ⟨g1, f1, ?_⟩
    by_cases h : min n (N - i) = 0
    · rw [f3, if_pos h]
    · rw [e3, if_neg h] at hne
      exact absurd hne hs
  · exact absurd h1 (hno st hn hal hs st1)

end main

end

/-- Two traces of four samples at 1 Hz with a spike at the onset, `k` samples after the start. -/
def spikeHeap (k0 k1 : ℕ) : Heap ℚ := fun r =>
  let k := if r = 0 then k0 else k1
  ⟨[], "STA".toList, [], ['Q'], 10 * r, 1, (List.range 4).map fun j => if j = k then 1 else 0, [("onset", .time (10 * r + k))]⟩

/-- C185 applies: onset after one sample, window from the onset to one second later. -/
example : ∃ st1 out out1 g1, trim2 nearestTrim (.sec 0) (.sec 1) (.key "onset") (spikeHeap 1 1, [0, 1]) = (st1, none) ∧
    stack dedupOrder (spikeHeap 1 1) [0, 1] = .ok [out] ∧ stack dedupOrder st1.1 st1.2 = .ok out1 ∧
    trim2 nearestTrim (.sec 0) (.sec 1) (.key "onset") ((fun _ => out), [0]) = (g1, none) ∧
    List.Forall₂ SameRelative (g1.2.map g1.1) out1 ∧ out1.map Trace.data = [[1, 0]] := by
  let x := trim2 nearestTrim (.sec 0) (.sec 1) (.key "onset") (spikeHeap 1 1, [0, 1])
  let out : Trace ℚ := ((stack dedupOrder (spikeHeap 1 1) [0, 1]).toOption.getD []).headD (spikeHeap 1 1 0)
  have e : x.2 = none ∧ x.1.2 ≠ [] ∧ (stack dedupOrder x.1.1 x.1.2).map (fun l => l.map Trace.data) = .ok [[1, 0]] := by
    decide +kernel
  have hout : stack dedupOrder (spikeHeap 1 1) [0, 1] = .ok [out] := by
    cases h : stack dedupOrder (spikeHeap 1 1) [0, 1] with
    | error e =>
      have : (match stack dedupOrder (spikeHeap 1 1) [0, 1] with | .ok _ => true | .error _ => false) = true := by
        decide +kernel
      rw [h] at this
      simp at this
    | ok l =>
      have hl : (match stack dedupOrder (spikeHeap 1 1) [0, 1] with | .ok l => l.length | .error _ => 0) = 1 := by
        decide +kernel
      rw [h] at hl
      match l, hl with
      | [t], _ => simp only [out, h]; rfl
  obtain ⟨out1, g1, a1, a2, a3⟩ := C185_commutes_partial nearestTrim nearestTrim_cuts 0 1 dedupOrder (spikeHeap 1 1, [0, 1]) x.1
    (by decide) 4 1 1 (by
      intro r hr
      refine ⟨rfl, rfl, 10 * r + ((if r = 0 then 1 else 1 : ℕ) : ℚ), rfl, ?_⟩
      simp [spikeHeap]) (Prod.ext rfl e.1) [out] hout ((fun _ => out), [0]) (by decide) rfl e.2.1
  refine ⟨x.1, out, out1, g1, Prod.ext rfl e.1, hout, a1, a2, a3, ?_⟩
  have := e.2.2
  rw [a1] at this
  simpa [Except.map] using this

/-- **C185 is false of the code.**  The onset after one and after two samples: the stack of the windows has the amplitude 1
at the onset, in the stack it is 1/2. -/
theorem C185_counterexample : ∃ (h : Heap ℚ) (st1 : SState ℚ) (out : Trace ℚ) (g1 : SState ℚ),
    trim2 nearestTrim (.sec 0) (.sec 1) (.key "onset") (h, [0, 1]) = (st1, none) ∧
    stack dedupOrder h [0, 1] = .ok [out] ∧
    (stack dedupOrder st1.1 st1.2).map (fun l => l.map Trace.data) = .ok [[1, 0]] ∧
    trim2 nearestTrim (.sec 0) (.sec 1) (.key "onset") ((fun _ => out), [0]) = (g1, none) ∧
    g1.2.map (fun r => (g1.1 r).data) = [[1 / 2, 1 / 2]] := by
  let x := trim2 nearestTrim (.sec 0) (.sec 1) (.key "onset") (spikeHeap 1 2, [0, 1])
  let out : Trace ℚ := ((stack dedupOrder (spikeHeap 1 2) [0, 1]).toOption.getD []).headD (spikeHeap 1 2 0)
  let y := trim2 nearestTrim (.sec 0) (.sec 1) (.key "onset") ((fun _ => out), [0])
  have e : x.2 = none ∧ (stack dedupOrder x.1.1 x.1.2).map (fun l => l.map Trace.data) = .ok [[1, 0]] ∧ y.2 = none ∧
      y.1.2.map (fun r => (y.1.1 r).data) = [[1 / 2, 1 / 2]] := by
    decide +kernel
  have hout : stack dedupOrder (spikeHeap 1 2) [0, 1] = .ok [out] := by
    cases h : stack dedupOrder (spikeHeap 1 2) [0, 1] with
    | error e =>
      have : (match stack dedupOrder (spikeHeap 1 2) [0, 1] with | .ok _ => true | .error _ => false) = true := by
        decide +kernel
      rw [h] at this
      simp at this
    | ok l =>
      have hl : (match stack dedupOrder (spikeHeap 1 2) [0, 1] with | .ok l => l.length | .error _ => 0) = 1 := by
        decide +kernel
      rw [h] at hl
      match l, hl with
      | [t], _ => simp only [out, h]; rfl
  exact ⟨spikeHeap 1 2, x.1, out, y.1, Prod.ext rfl e.1, hout, e.2.1, Prod.ext rfl e.2.2.1, e.2.2.2⟩

end Verif.Props
