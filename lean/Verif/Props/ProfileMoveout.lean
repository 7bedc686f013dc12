import Verif.Props.StackMoveout
import Verif.Props.ProfileHeaders
import Verif.Props.Pipeline

/-!
# Move out correction before and after making a profile (C173)

The property expected: it does not matter if a stream is first corrected and then collected into a profile or first
collected and then corrected.  It is false of the code for traces of different slownesses: `profile` copies the slowness
of the first trace of a bin, so `moveout` of a profile corrects all traces of a bin with the slowness of the first one
(`C173_first`), the result depends on the order of the traces in the stream (`C173_counterexample`).  For bins whose
traces have one slowness the property holds (`C173_commutes_partial`), for models without NaN in the tables.
-/

set_option linter.unusedSimpArgs false
set_option linter.unusedSectionVars false

namespace Verif.Props
open Verif.Py Verif.Model Verif.Model.Simple Verif.Model.Profile Verif.Spec

section general
variable {K : Type} [Field K] [LinearOrder K] [IsStrictOrderedRing K] [FloorRing K]

/-- The mean of arrays given sample by sample. -/
theorem npMean_of (rows : List (List K)) (hne : rows ≠ []) (n : ℕ) (hrows : ∀ r ∈ rows, r.length = n) (d : List K)
    (hd : d.length = n) (hm : ∀ i < n, d.getD i 0 = meanAt rows i) : npMean rows = .ok d := by
  obtain ⟨d', hd'⟩ := npMean_total rows hne n hrows
  obtain ⟨-, h2, h3⟩ := npMean_ok rows d' hd'
  obtain ⟨r, hr⟩ := List.exists_mem_of_ne_nil rows hne
  have hl : d'.length = n := by rw [← h2 r hr, hrows r hr]
  rw [hd', Except.ok.injEq]
  refine List.ext_getElem (hl.trans hd.symm) fun i g1 g2 => ?_
  have e1 := h3 i g1
  have e2 := hm i (hl ▸ g1)
  rw [List.getD_eq_getElem _ _ g1] at e1
  rw [List.getD_eq_getElem _ _ g2] at e2
  rw [e1, e2]

variable (sqrt : K → K) (find : List K → K → ℕ) (nanCase : Trace K → Res (List K))
variable (within : K × K → List (K × K) → Bool) (boxes : List (Box K)) (crs : Bool)

/-- The traces of a bin with the same number of samples, the same sampling rate and the same time between start and
onset. -/
def SameShape (h : Heap K) (ms : List ℕ) (n : ℕ) (sr d : K) : Prop :=
  ∀ r ∈ ms, (h r).data.length = n ∧ (h r).sr = sr ∧ ∃ o, (h r).getTime "onset" = some o ∧ o - (h r).start = d

omit [Field K] [LinearOrder K] [IsStrictOrderedRing K] [FloorRing K] in
theorem rows_unique (ms : List ℕ) (f : ℕ → Res (List K)) (rows : List (List K)) (g : ℕ → List K)
    (h : ms.map f = rows.map .ok) (hg : ∀ r ∈ ms, f r = .ok (g r)) : ms.map g = rows := by
  induction ms generalizing rows with
  | nil =>
    cases rows with
    | nil => rfl
    | cons _ _ => simp at h
  | cons r ms ih =>
    cases rows with
    | nil => simp at h
    | cons w rows =>
      simp only [List.map_cons, List.cons.injEq] at h
      rw [List.map_cons, ih rows h.2 fun q hq => hg q (by simp [hq])]
      rw [hg r (by simp), Except.ok.injEq] at h
      rw [h.1]

/-- The corrected trace of a bin is the mean of the traces corrected with the tables of the first trace. -/
theorem profile_moved (m m2 : SimpleModel K) (hfresh : m.tRef = []) (ref x d : K)
    (heasy : EasierThan sqrt m ref x)
    (hfirst : ∀ v, v ∈ m.vp.head? ∨ v ∈ m.vs.head? → vslow sqrt v x ≠ none)
    (info : Str) (phase : Option Str) (h h' : Heap K) (s l : List ℕ) (next : ℕ) (hs : ∀ r ∈ s, r < next)
    (hprof : profile within boxes crs h s next = .ok (h', l)) (st2 : SState K)
    (hmove : streamMoveout sqrt find nanCase info phase ref m (h', l) = (m2, st2, none))
    (q : ℕ) (hq : q ∈ l) (k : K × Char) (hk : HasBin (h' q) k) (n : ℕ) (sr : K)
    (hsame : SameShape h (binMembers (boxSets within boxes) h s k) n sr d) (r0 : ℕ)
    (hr0 : (binMembers (boxSets within boxes) h s k).head? = some r0) (hx : (h r0).getNum "slowness" = some x) :
    ∃ p T0 T1 a b rows, moveoutPhase h' l phase = .ok p ∧ (stretch sqrt m x p ref).2 = .ok (T0, T1) ∧
      allSome T0 = some a ∧ allSome T1 = some b ∧
      (binMembers (boxSets within boxes) h s k).map (fun r => moveoutData find (h r) (((h r).getTime "onset").getD 0) p a b)
        = rows.map .ok ∧ npMean rows = .ok (st2.1 q).data := by
  obtain ⟨hnd, -⟩ := profile_ok within boxes crs h h' s l next hs hprof
  obtain ⟨k', r0', box, pr, hk', hr0', -, -, -, -, -, hent⟩ := C90_headers within boxes crs h h' s l next hs hprof q hq
  have := hk.unique hk'
  subst this
  rw [hr0, Option.some.injEq] at hr0'
  subst hr0'
  have hmem0 : r0 ∈ binMembers (boxSets within boxes) h s k := List.mem_of_mem_head? (by rw [hr0]; rfl)
  obtain ⟨hn0, hsr0, o, ho, hd0⟩ := hsame r0 hmem0
  have hsrq : (h' q).sr = (h r0).sr := by
    obtain ⟨-, -, -, key, -, -, h6⟩ := profile_ok within boxes crs h h' s l next hs hprof
    obtain ⟨a1, a2, a3, a4, a5, a6, a7⟩ := h6 q hq
    have : k = key q := hk.unique ⟨a1, by rw [a2]; rfl⟩
    subst this
    exact (a6 r0 hr0).1
  have hstartq : (h' q).start = 0 := by
    obtain ⟨-, -, -, key, -, -, h6⟩ := profile_ok within boxes crs h h' s l next hs hprof
    exact (h6 q hq).2.2.1
  have hoq : (h' q).getTime "onset" = some (o - (h r0).start) := by
    unfold Trace.getTime
    rw [hent "onset" (by decide), if_neg (by decide), profileEntry, if_pos rfl, ho]
    rfl
  have hxq : (h' q).getNum "slowness" = some x := by
    unfold Trace.getNum at hx ⊢
    rw [hent "slowness" (by decide), if_neg (by decide)]
    have : profileEntry box pr (h r0) "slowness" = (h r0).ext.get "slowness" := by
      unfold profileEntry
      simp
    rw [this]
    exact hx
  obtain ⟨p, hp, heach⟩ := C118_each_trace sqrt find nanCase info phase ref m m2 hfresh (h', l) st2 hnd hmove
  simp only at hp heach
  obtain ⟨W, hW, hWd⟩ := heach q hq
  obtain ⟨T0, T1, hst⟩ := step_stretch sqrt find nanCase m p ref x (h' q) W hxq hW
  obtain ⟨n0, n1⟩ := C31_no_nan_partial sqrt m hfresh x ref p heasy hfirst T0 T1 hst
  obtain ⟨a, ha⟩ := allSome_of T0 n0
  obtain ⟨b, hb⟩ := allSome_of T1 n1
  have hres := step_given sqrt find nanCase m p ref x T0 T1 a b hst ha hb (h' q) W _ hoq hxq hW
  rw [← hWd] at hres
  obtain ⟨hl, hmean⟩ := (C50_mean within boxes crs h h' s l next hs hprof q hq k hk).2 n (fun r hr => (hsame r hr).1)
  have hnp : npMean ((binMembers (boxSets within boxes) h s k).map fun r => (h r).data) = .ok (h' q).data := by
    refine npMean_of _ ?_ n ?_ _ hl hmean
    · intro hcon
      rw [List.map_eq_nil_iff] at hcon
      rw [hcon] at hmem0
      simp at hmem0
    · intro y hy
      obtain ⟨r, hr, rfl⟩ := List.mem_map.1 hy
      exact (hsame r hr).1
  rw [moveoutData_shift find (h' q) { h r0 with data := (h' q).data } _ o p a b rfl hsrq
    (by simp only [hstartq]; ring)] at hres
  obtain ⟨rows, hrows, hm⟩ := C139_mean find (h r0) o p a b _ _ hnp _ hres
  refine ⟨p, T0, T1, a, b, rows, hp, hst, ha, hb, ?_, hm⟩
  rw [← hrows, List.map_map]
  apply List.map_congr_left
  intro r hr
  obtain ⟨-, k2, o', k3, k4⟩ := hsame r hr
  rw [k3]
  exact moveoutData_shift find (h r) { h r0 with data := (h r).data } o' o p a b rfl (k2.trans hsr0.symm)
    (by simp only; rw [k4, hd0])

/-- **C173, what the code does.** A profile is corrected for move out.  `x` is the slowness of the first trace of a bin
in the order of the stream.  If the traces of the bin, all with the slowness `x` assigned, can be corrected (`T`), the
corrected trace of the profile is the mean of `T`, whatever the slownesses of the other traces are. -/
theorem C173_first (m m2 : SimpleModel K) (hfresh : m.tRef = []) (ref x d : K)
    (heasy : EasierThan sqrt m ref x)
    (hfirst : ∀ v, v ∈ m.vp.head? ∨ v ∈ m.vs.head? → vslow sqrt v x ≠ none)
    (info : Str) (phase : Option Str) (h h' : Heap K) (s l : List ℕ) (next : ℕ) (hs : ∀ r ∈ s, r < next)
    (hprof : profile within boxes crs h s next = .ok (h', l)) (st2 : SState K)
    (hmove : streamMoveout sqrt find nanCase info phase ref m (h', l) = (m2, st2, none))
    (q : ℕ) (hq : q ∈ l) (k : K × Char) (hk : HasBin (h' q) k) (n : ℕ) (sr : K)
    (hsame : SameShape h (binMembers (boxSets within boxes) h s k) n sr d) (r0 : ℕ)
    (hr0 : (binMembers (boxSets within boxes) h s k).head? = some r0) (hx : (h r0).getNum "slowness" = some x)
    (p : Str) (hp : moveoutPhase h' l phase = .ok p) (T : ℕ → Trace K)
    (hT : ∀ r ∈ binMembers (boxSets within boxes) h s k,
      (moveoutStep sqrt find nanCase p ref m ((h r).put "slowness" (.num x))).2 = .ok (T r)) :
    ∀ i < (st2.1 q).data.length, (st2.1 q).data.getD i 0
      = meanAt ((binMembers (boxSets within boxes) h s k).map fun r => (T r).data) i := by
  obtain ⟨p', T0, T1, a, b, rows, hp', hst, ha, hb, hrows, hm⟩ := profile_moved sqrt find nanCase within boxes crs m m2
    hfresh ref x d heasy hfirst info phase h h' s l next hs hprof st2 hmove q hq k hk n sr hsame r0 hr0 hx
  rw [hp, Except.ok.injEq] at hp'
  subst hp'
  have : (binMembers (boxSets within boxes) h s k).map (fun r => (T r).data) = rows := by
    refine rows_unique _ _ _ _ hrows fun r hr => ?_
    obtain ⟨-, -, o, k3, -⟩ := hsame r hr
    rw [k3]
    have hov : ((h r).put "slowness" (.num x)).getTime "onset" = some o := by
      unfold Trace.getTime at k3 ⊢
      rw [stackOne_ok.put_get_lite, if_neg (by decide)]
      exact k3
    have hxv : ((h r).put "slowness" (.num x)).getNum "slowness" = some x := by
      unfold Trace.getNum
      rw [stackOne_ok.put_get_lite, if_pos rfl]
    have := step_given sqrt find nanCase m p ref x T0 T1 a b hst ha hb _ (T r) o hov hxv (hT r hr)
    rw [moveoutData_shift find ((h r).put "slowness" (.num x)) (h r) o o p a b rfl rfl rfl] at this
    exact this
  rw [this]
  exact (npMean_ok rows _ hm).2.2

/-- The phase of the corrections is the same. -/
theorem profile_phase (phase : Option Str) (h h' : Heap K) (s l : List ℕ) (next : ℕ) (hs : ∀ r ∈ s, r < next)
    (hprof : profile within boxes crs h s next = .ok (h', l)) (p p2 : Str) (hp : moveoutPhase h s phase = .ok p)
    (hp2 : moveoutPhase h' l phase = .ok p2) : p2 = p := by
  cases phase with
  | some q =>
    simp only [moveoutPhase, Except.ok.injEq] at hp hp2
    rw [← hp, ← hp2]
  | none =>
    have key : ∀ (h : Heap K) (s : List ℕ) (p : Str), moveoutPhase h s none = .ok p →
        ∃ v, uniqueHeader h s "phase" = some v := by
      intro h s p hp
      cases hu : uniqueHeader h s "phase" with
      | none => simp [moveoutPhase, streamMethod, hu] at hp
      | some v => exact ⟨v, rfl⟩
    obtain ⟨v, hv⟩ := key h s p hp
    obtain ⟨v2, hv2⟩ := key h' l p2 hp2
    have hvv : v2 = v := by
      obtain ⟨-, a2⟩ := (uniqueHeader_eq_some h s "phase" v).1 hv
      obtain ⟨⟨q, hq, hq2⟩, -⟩ := (uniqueHeader_eq_some h' l "phase" v2).1 hv2
      obtain ⟨k, r, box, pr, -, hr, -, -, -, -, -, hent⟩ := C90_headers within boxes crs h h' s l next hs hprof q hq
      have hrs : r ∈ s := (List.mem_filter.1 (List.mem_of_mem_head? (Option.mem_def.2 hr))).1
      rw [hent "phase" (by decide), if_neg (by decide)] at hq2
      have : profileEntry box pr (h r) "phase" = (h r).ext.get "phase" := by
        unfold profileEntry
        simp
      rw [this] at hq2
      exact a2 r hrs v2 hq2
    subst hvv
    have : moveoutPhase h' l none = moveoutPhase h s none := by
      simp only [moveoutPhase, streamMethod, hv, hv2]
    rw [this, hp, Except.ok.injEq] at hp2
    exact hp2.symm

/-- **C173 (partial).** If the traces of a bin have the same slowness, number of samples, sampling rate and time between
start and onset, the trace of the bin in `profile().moveout()` is that in `moveout().profile()`. -/
theorem C173_commutes_partial (m m1 m2 : SimpleModel K) (hfresh : m.tRef = []) (ref x d : K)
    (heasy : EasierThan sqrt m ref x)
    (hfirst : ∀ v, v ∈ m.vp.head? ∨ v ∈ m.vs.head? → vslow sqrt v x ≠ none)
    (info info2 : Str) (phase : Option Str) (h h' : Heap K) (s l : List ℕ) (hn : s.Nodup) (next next1 : ℕ)
    (hs : ∀ r ∈ s, r < next) (hs1 : ∀ r ∈ s, r < next1)
    (hprof : profile within boxes crs h s next = .ok (h', l)) (st2 : SState K)
    (hmove2 : streamMoveout sqrt find nanCase info2 phase ref m (h', l) = (m2, st2, none))
    (st1 : SState K) (hmove1 : streamMoveout sqrt find nanCase info phase ref m (h, s) = (m1, st1, none))
    (crs1 : Bool) (h1 : Heap K) (l1 : List ℕ) (hprof1 : profile within boxes crs1 st1.1 st1.2 next1 = .ok (h1, l1))
    (q q1 : ℕ) (hq : q ∈ l) (hq1 : q1 ∈ l1) (k : K × Char) (hk : HasBin (h' q) k) (hk1 : HasBin (h1 q1) k) (n : ℕ)
    (sr : K) (hsr : 0 < sr) (hsame : SameShape h (binMembers (boxSets within boxes) h s k) n sr d)
    (hx : ∀ r ∈ binMembers (boxSets within boxes) h s k, (h r).getNum "slowness" = some x) :
    (st2.1 q).data = (h1 q1).data := by
  have hne : ∃ r0, (binMembers (boxSets within boxes) h s k).head? = some r0 := by
    obtain ⟨k', r0, -, -, hk', hr0, -⟩ := C90_headers within boxes crs h h' s l next hs hprof q hq
    rw [hk.unique hk']
    exact ⟨r0, hr0⟩
  obtain ⟨r0, hr0⟩ := hne
  have hmem0 : r0 ∈ binMembers (boxSets within boxes) h s k := List.mem_of_mem_head? (by rw [hr0]; rfl)
  obtain ⟨p2, T0, T1, a, b, rows, hp2, hst, ha, hb, hrows, hm⟩ := profile_moved sqrt find nanCase within boxes crs m m2
    hfresh ref x d heasy hfirst info2 phase h h' s l next hs hprof st2 hmove2 q hq k hk n sr hsame r0 hr0 (hx r0 hmem0)
  obtain ⟨p, hp, heach⟩ := C118_each_trace sqrt find nanCase info phase ref m m1 hfresh (h, s) st1 hn hmove1
  simp only at hp heach
  have := profile_phase within boxes crs phase h h' s l next hs hprof p p2 hp hp2
  subst this
  obtain ⟨hrefs, _, -, hbook⟩ := C40_bookkeeping sqrt find nanCase info phase ref m m1 (h, s) st1 hn hmove1
  have htimes := stream_times sqrt find nanCase info phase ref m m1 hfresh (h, s) st1 hn hmove1
  simp only at hrefs hbook htimes
  rw [hrefs] at hprof1
  have hbin : binMembers (boxSets within boxes) st1.1 s k = binMembers (boxSets within boxes) h s k := by
    unfold binMembers
    refine List.filter_congr fun r hr => ?_
    obtain ⟨⟨-, -, -, h4⟩, -⟩ := htimes r hr
    have h5 := (hbook r hr).2.2.2.2
    have : binOf (boxSets within boxes) (st1.1 r) = binOf (boxSets within boxes) (h r) := by
      unfold binOf Trace.getNum
      rw [h4, h5 "pp_latitude" (by decide), h5 "pp_longitude" (by decide)]
    rw [this]
  have hdat : ∀ r ∈ binMembers (boxSets within boxes) h s k, ∃ o, (h r).getTime "onset" = some o ∧
      moveoutData find (h r) o p2 a b = .ok (st1.1 r).data ∧ (st1.1 r).data.length = n := by
    intro r hr
    obtain ⟨k1, k2, o, k3, -⟩ := hsame r hr
    obtain ⟨V, hV, hVd⟩ := heach r (List.mem_filter.1 hr).1
    have hv := step_given sqrt find nanCase m p2 ref x T0 T1 a b hst ha hb (h r) V o k3 (hx r hr) hV
    rw [← hVd] at hv
    refine ⟨o, k3, hv, ?_⟩
    have hin : (h r).start ≤ o ∧ o ≤ (h r).endtime := by
      by_contra hcon
      unfold moveoutStep at hV
      simp only [k3, hx r hr, hcon, not_false_eq_true, if_true] at hV
      cases hV
    rw [(C34_length_and_prefix find (h r) o p2 a b _ (by rw [k2]; exact hsr) hin.1 hin.2 hv).1, k1]
  have hrows' : (binMembers (boxSets within boxes) h s k).map (fun r => (st1.1 r).data) = rows := by
    refine rows_unique _ _ _ _ hrows fun r hr => ?_
    obtain ⟨o, k3, k4, -⟩ := hdat r hr
    rw [k3]
    exact k4
  obtain ⟨hl, hmean⟩ := (C50_mean within boxes crs1 st1.1 h1 s l1 next1 hs1 hprof1 q1 hq1 k hk1).2 n (fun r hr => by
    rw [hbin] at hr
    exact (hdat r hr).choose_spec.2.2)
  rw [hbin, hrows'] at hmean
  have := npMean_of rows (npMean_ok rows _ hm).1 n (fun y hy => by
    rw [← hrows'] at hy
    obtain ⟨r, hr, rfl⟩ := List.mem_map.1 hy
    exact (hdat r hr).choose_spec.2.2) (h1 q1).data hl hmean
  rw [hm, Except.ok.injEq] at this
  exact this

end general

/-! ## Counterexample and examples -/

/-- A trace with amplitude 1 at 11 s and 12 s after the onset, sampling interval 1 s. -/
def spikeData : List ℝ := [0, 0, 0, 0, 0, 0, 0, 0, 0, 0, 0, 1, 1, 0, 0, 0]

/-- Traces with the same data and piercing point; trace 0 has slowness 0, the others `x`. -/
noncomputable def mixHeap (x : ℝ) : Heap ℝ := fun r =>
  ⟨[], "STA".toList, [], ['Q'], 0, 1, spikeData, [("onset", .time 0), ("slowness", .num (if r = 0 then 0 else x)),
    ("pp_latitude", .num 0), ("pp_longitude", .num 0)]⟩

/-- All traces belong to the only bin. -/
theorem mix_bin (x : ℝ) (r : ℕ) :
    binOf (boxSets (fun _ _ => true) [pipeBox]) (mixHeap x r) = some (5, 'Q') := rfl

theorem mix_members (x : ℝ) (s : List ℕ) :
    binMembers (boxSets (fun _ _ => true) [pipeBox]) (mixHeap x) s (5, 'Q') = s := by
  unfold binMembers
  rw [List.filter_eq_self]
  intro r _
  simp [mix_bin]

/-- The profile of such traces. -/
theorem mix_profile (x : ℝ) (r0 : ℕ) (s : List ℕ) (next : ℕ) (hs : ∀ r ∈ r0 :: s, r < next) :
    ∃ h' l, profile (fun _ _ => true) [pipeBox] false (mixHeap x) (r0 :: s) next = .ok (h', l) ∧ l ≠ [] ∧ l.Nodup ∧
      ∀ q ∈ l, HasBin (h' q) (5, 'Q') ∧ (h' q).start = 0 ∧ (h' q).sr = 1 ∧ (h' q).getTime "onset" = some 0 ∧
        (h' q).getNum "slowness" = some (if r0 = 0 then 0 else x) ∧ (h' q).data.length = 16 ∧
        ∀ i < 16, (h' q).data.getD i 0 = spikeData.getD i 0 := by
  obtain ⟨h', l, hp⟩ := C50_succeeds (fun _ _ => true) [pipeBox] false (mixHeap x) (r0 :: s) next hs
    (fun r _ => ⟨0, 0, 'Q', rfl, rfl, rfl⟩) (fun r _ => .inr ⟨0, rfl⟩) ⟨_, _, _, rfl, rfl⟩ (fun _ _ _ _ _ => rfl)
  obtain ⟨hnd, -, -, key, -, hkey, h6⟩ := profile_ok _ _ _ _ _ _ _ _ hs hp
  have hk : ∀ q ∈ l, key q = (5, 'Q') := by
    intro q hq
    obtain ⟨r, hr, hb⟩ := (hkey (key q)).1 ⟨q, hq, rfl⟩
    rw [mix_bin, Option.some.injEq] at hb
    exact hb.symm
  refine ⟨h', l, hp, ?_, hnd, fun q hq => ?_⟩
  · obtain ⟨q, hq, -⟩ := (hkey (5, 'Q')).2 ⟨r0, by simp, mix_bin x r0⟩
    exact List.ne_nil_of_mem hq
  · obtain ⟨a1, a2, a3, a4, a5, a6, a7⟩ := h6 q hq
    rw [hk q hq, mix_members] at *
    obtain ⟨b1, b2⟩ := a6 r0 rfl
    obtain ⟨c1, c2⟩ := a7 16 (fun _ _ => rfl)
    have hb : HasBin (h' q) (5, 'Q') := ⟨a1, by rw [a2]; rfl⟩
    refine ⟨hb, a3, b1, ?_, ?_, c1, fun i hi => ?_⟩
    · unfold Trace.getTime
      rw [b2 0 rfl]
      simp [mixHeap]
    · obtain ⟨k, r, box, pr, hk', hr, -, -, -, -, -, hent⟩ := C90_headers _ _ _ _ _ _ _ _ hs hp q hq
      rw [← hb.unique hk', mix_members, List.head?_cons, Option.some.injEq] at hr
      subst hr
      unfold Trace.getNum
      rw [hent "slowness" (by decide), if_neg (by decide)]
      have : profileEntry box pr (mixHeap x r0) "slowness" = (mixHeap x r0).ext.get "slowness" := by
        unfold profileEntry
        simp
      rw [this]
      rfl
    · rw [c2 i hi]
      unfold meanAt
      have hc : (((r0 :: s).map fun r => (mixHeap x r).data).map fun y => y.getD i 0)
          = List.replicate (s.length + 1) (spikeData.getD i 0) := by
        rw [List.map_map]
        rw [show (fun y : List ℝ => y.getD i 0) ∘ (fun r => (mixHeap x r).data) = fun _ => spikeData.getD i 0 from rfl]
        rw [List.map_const']
        rfl
      rw [hc, List.sum_replicate, List.length_map, List.length_cons, nsmul_eq_mul, mul_comm, mul_div_assoc,
        div_self (by positivity), mul_one]

/-- A trace of this kind can be corrected; the sample at 7 s, the delay time of the conversion at 78 km for slowness 0,
becomes 0 if the slowness is 0, and 1 if the slowness is such that the delay time is 11 s. -/
theorem mix_correctable (t : Trace ℝ) (y : ℝ) (hy : y = 0 ∨ y = pySlow) (h1 : t.start = 0) (h2 : t.sr = 1)
    (h3 : t.getTime "onset" = some 0) (h4 : t.getNum "slowness" = some y) (h5 : t.data.length = 16) :
    Correctable pyLayers t := by
  refine ⟨by rw [h2]; norm_num, 0, y, h3, h1.le, ?_, ?_, h4, ?_⟩
  · unfold Trace.endtime Trace.delta
    rw [h5, h1, h2]
    norm_num
  · unfold index0 Trace.npts
    rw [h5, h1]
    simp
  · rcases hy with rfl | rfl
    exacts [pyLayers_prop.2, pyLayers_prop.1]

theorem mix_records (t : Trace ℝ) (y c : ℝ) (hy : y = 0 ∧ c = 0 ∨ y = pySlow ∧ c = 1) (h1 : t.start = 0) (h2 : t.sr = 1)
    (h3 : t.getTime "onset" = some 0) (h4 : t.getNum "slowness" = some y) (h5 : t.data.length = 16)
    (h6 : ∀ i < 16, t.data.getD i 0 = spikeData.getD i 0) :
    Records (fun x k => delaySpec Real.sqrt 1 1 true pyLayers x k) pyLayers 0 1 7 c c t := by
  have hl : pyLayers.length - 1 = 2 := rfl
  rcases hy with ⟨rfl, rfl⟩ | ⟨rfl, rfl⟩
  · refine ⟨by rw [h2]; norm_num, 0, 0, 7, h3, h4, pyLayers_prop.2, ?_⟩
    rw [hl, h1, h2, h5, h6 7 (by norm_num), h6 (7 + 1) (by norm_num)]
    simp [py_delay, Trace.delta, h2, spikeData]
    norm_num
  · refine ⟨by rw [h2]; norm_num, 0, pySlow, 11, h3, h4, pyLayers_prop.1, ?_⟩
    rw [hl, h1, h2, h5, h6 11 (by norm_num), h6 (11 + 1) (by norm_num)]
    simp [py_delay, Trace.delta, h2, spikeData]
    norm_num

/-- Correction of a stream of such traces. -/
theorem mix_moved (h : Heap ℝ) (s : List ℕ) (hn : s.Nodup) (y : ℕ → ℝ) (hy : ∀ r ∈ s, y r = 0 ∨ y r = pySlow)
    (ht : ∀ r ∈ s, (h r).start = 0 ∧ (h r).sr = 1 ∧ (h r).getTime "onset" = some 0 ∧
        (h r).getNum "slowness" = some (y r) ∧ (h r).data.length = 16 ∧
        ∀ i < 16, (h r).data.getD i 0 = spikeData.getD i 0) :
    ∃ m' st', streamMoveout Real.sqrt npFind (fun _ => .error .other) [] (some "Ps".toList) 0 pyModel (h, s)
      = (m', st', none) ∧ ∀ r ∈ s, (st'.1 r).data.length = 16 ∧
        (st'.1 r).data.getD 7 0 = if y r = 0 then 0 else 1 := by
  obtain ⟨m', st', hok⟩ := C118_succeeds Real.sqrt npFind (fun _ => .error .other) [] (some "Ps".toList) "Ps".toList 0
    pyModel pyModel pyLayers rfl rfl rfl rfl ⟨rfl, fun t ht => by simp [pyModel, lookupRef] at ht⟩ (h, s) hn rfl
    (by decide) (by decide) (by decide) pyLayers_prop.2 (by simp [pyLayers]) (fun r hr => by
      obtain ⟨t1, t2, t3, t4, t5, -⟩ := ht r hr
      exact mix_correctable (h r) (y r) (hy r hr) t1 t2 t3 t4 t5)
  refine ⟨m', st', hok, fun r hr => ?_⟩
  obtain ⟨t1, t2, t3, t4, t5, t6⟩ := ht r hr
  have hpos : pySlow ≠ 0 := by norm_num [pySlow]
  have := moved_amplitude Real.sqrt npFind npFind_spec sqrtStrict_real (fun _ => .error .other) pyModel m' pyLayers rfl rfl
    rfl rfl 0 [] (some "Ps".toList) "Ps".toList (.inl rfl) pyLayers_prop.2 pyLayers_vel (h, s) st' hn rfl hok 1
    (by simp [pyLayers]) 7 (if y r = 0 then 0 else 1) (if y r = 0 then 0 else 1) r hr
    (mix_records (h r) (y r) _ (by
      rcases hy r hr with e | e
      · left; simp [e]
      · right; simp [e, hpos]) t1 t2 t3 t4 t5 t6)
  refine ⟨?_, le_antisymm this.2.2 this.2.1⟩
  obtain ⟨p, hp, heach⟩ := C118_each_trace Real.sqrt npFind _ [] (some "Ps".toList) 0 pyModel m' rfl (h, s) st' hn hok
  simp only [moveoutPhase, Except.ok.injEq] at hp
  subst hp
  obtain ⟨hsr, onset, s, c1, c2, c3, c4, c5, c6⟩ := mix_correctable (h r) (y r) (hy r hr) t1 t2 t3 t4 t5
  obtain ⟨t, ht, hd⟩ := heach r hr
  obtain ⟨-, -, h3, -⟩ := step_tables Real.sqrt npFind _ pyModel pyLayers rfl rfl rfl rfl s 0 "Ps".toList (by decide)
    (by decide) (by decide) c6 pyLayers_prop.2 (h r) t onset c1 c5 ht
  rw [hd, (C34_length_and_prefix npFind (h r) onset "Ps".toList _ _ _ hsr c2 c3 h3).1, t5]

/-- Correction, then profile. -/
theorem mix_after (x : ℝ) (hx : x = 0 ∨ x = pySlow) (s : List ℕ) (hn : s.Nodup) (hne : s ≠ []) (next : ℕ)
    (hs : ∀ r ∈ s, r < next) :
    ∃ m' st' h3 l, streamMoveout Real.sqrt npFind (fun _ => .error .other) [] (some "Ps".toList) 0 pyModel (mixHeap x, s)
        = (m', st', none) ∧ profile (fun _ _ => true) [pipeBox] false st'.1 st'.2 next = .ok (h3, l) ∧ l ≠ [] ∧
      (∀ r ∈ s, (st'.1 r).data.getD 7 0 = if (if r = 0 then 0 else x) = 0 then 0 else 1) ∧
      ∀ q ∈ l, HasBin (h3 q) (5, 'Q') ∧ (h3 q).data.getD 7 0 = meanAt (s.map fun r => (st'.1 r).data) 7 := by
  obtain ⟨mc, stc, c5, c6⟩ := mix_moved (mixHeap x) s hn (fun r => if r = 0 then 0 else x)
    (fun r _ => by by_cases h : r = 0 <;> simp [h, hx]) (fun r _ => ⟨rfl, rfl, rfl, rfl, rfl, fun _ _ => rfl⟩)
  obtain ⟨hrefs, _, -, hbook⟩ := C40_bookkeeping Real.sqrt npFind _ [] (some "Ps".toList) 0 pyModel mc _ stc hn c5
  have htimes := stream_times Real.sqrt npFind _ [] (some "Ps".toList) 0 pyModel mc rfl _ stc hn c5
  simp only at hrefs hbook htimes
  have hget : ∀ r ∈ s, (stc.1 r).ext.get "pp_latitude" = some (.num 0) ∧
      (stc.1 r).ext.get "pp_longitude" = some (.num 0) ∧ (stc.1 r).ext.get "onset" = some (.time 0) ∧
      (stc.1 r).cha = ['Q'] := by
    intro r hr
    have h5 := (hbook r hr).2.2.2.2
    refine ⟨?_, ?_, ?_, (htimes r hr).1.2.2.2⟩ <;> rw [h5 _ (by decide)] <;> rfl
  have hbin : ∀ r ∈ s, binOf (boxSets (fun _ _ => true) [pipeBox]) (stc.1 r) = some (5, 'Q') := by
    intro r hr
    obtain ⟨g1, g2, -, g4⟩ := hget r hr
    unfold binOf Trace.getNum
    rw [g1, g2, g4]
    rfl
  obtain ⟨hc, lc, hprof⟩ := C50_succeeds (fun _ _ => true) [pipeBox] false stc.1 s next hs
    (fun r hr => by
      obtain ⟨g1, g2, -, g4⟩ := hget r hr
      refine ⟨0, 0, 'Q', ?_, ?_, by rw [g4]; rfl⟩
      · unfold Trace.getNum; rw [g1]
      · unfold Trace.getNum; rw [g2])
    (fun r hr => .inr ⟨0, (hget r hr).2.2.1⟩) ⟨_, _, _, rfl, rfl⟩
    (fun r hr q hq _ => by rw [(c6 r hr).1, (c6 q hq).1])
  have hmem : binMembers (boxSets (fun _ _ => true) [pipeBox]) stc.1 s (5, 'Q') = s := by
    unfold binMembers
    rw [List.filter_eq_self]
    intro r hr
    simp [hbin r hr]
  obtain ⟨-, -, -, key, -, hkey, -⟩ := profile_ok _ _ _ _ _ _ _ _ hs hprof
  have hone := C50_one_per_bin _ _ _ _ _ _ _ _ hs hprof
  refine ⟨mc, stc, hc, lc, c5, by rw [hrefs]; exact hprof, ?_, fun r hr => (c6 r hr).2, fun q hq => ?_⟩
  · obtain ⟨r, hr⟩ := List.exists_mem_of_ne_nil s hne
    obtain ⟨q, hq, -⟩ := (hkey (5, 'Q')).2 ⟨r, hr, hbin r hr⟩
    exact List.ne_nil_of_mem hq
  · obtain ⟨b, hb, r, hr, hr2⟩ := hone.2.2 q hq
    rw [hbin r hr, Option.some.injEq] at hr2
    subst hr2
    refine ⟨hb, ?_⟩
    have := ((C50_mean _ _ _ _ _ _ _ _ hs hprof q hq _ hb).2 16 (fun r hr => (c6 r (List.mem_filter.1 hr).1).1)).2 7
      (by norm_num)
    rw [hmem] at this
    exact this

/-- **C173 is false of the code.** Two traces of one bin with the same samples and different slownesses.  The sample at
the delay time of a conversion for the reference slowness is 0 in the corrected profile of the stream, 1 in that of the
stream with the traces in reversed order, and 1/2 in the profile of the corrected stream. -/
theorem C173_counterexample : ∃ (h ha hb hc : Heap ℝ) (la lb lc : List ℕ) (ma mb mc : SimpleModel ℝ)
    (sta stb stc : SState ℝ),
    profile (fun _ _ => true) [pipeBox] false h [0, 1] 2 = .ok (ha, la) ∧
    streamMoveout Real.sqrt npFind (fun _ => .error .other) [] (some "Ps".toList) 0 pyModel (ha, la) = (ma, sta, none) ∧
    profile (fun _ _ => true) [pipeBox] false h [1, 0] 2 = .ok (hb, lb) ∧
    streamMoveout Real.sqrt npFind (fun _ => .error .other) [] (some "Ps".toList) 0 pyModel (hb, lb) = (mb, stb, none) ∧
    streamMoveout Real.sqrt npFind (fun _ => .error .other) [] (some "Ps".toList) 0 pyModel (h, [0, 1])
      = (mc, stc, none) ∧
    profile (fun _ _ => true) [pipeBox] false stc.1 stc.2 2 = .ok (hc, lc) ∧
    la ≠ [] ∧ lb ≠ [] ∧ lc ≠ [] ∧ (∀ q ∈ la, (sta.1 q).data.getD 7 0 = 0) ∧ (∀ q ∈ lb, (stb.1 q).data.getD 7 0 = 1) ∧
    ∀ q ∈ lc, (hc q).data.getD 7 0 = 1 / 2 := by
  have hpos : pySlow ≠ 0 := by norm_num [pySlow]
  obtain ⟨ha, la, a1, a2, a3, a4⟩ := mix_profile pySlow 0 [1] 2 (by decide)
  obtain ⟨hb, lb, b1, b2, b3, b4⟩ := mix_profile pySlow 1 [0] 2 (by decide)
  obtain ⟨ma, sta, a5, a6⟩ := mix_moved ha la a3 (fun _ => 0) (fun _ _ => .inl rfl) (fun q hq => by
    simpa using (a4 q hq).2)
  obtain ⟨mb, stb, b5, b6⟩ := mix_moved hb lb b3 (fun _ => pySlow) (fun _ _ => .inr rfl) (fun q hq => by
    simpa using (b4 q hq).2)
  obtain ⟨mc, stc, hc, lc, c1, c2, c3, c4, c5⟩ := mix_after pySlow (.inr rfl) [0, 1] (by decide) (by simp) 2 (by decide)
  refine ⟨mixHeap pySlow, ha, hb, hc, la, lb, lc, ma, mb, mc, sta, stb, stc, a1, a5, b1, b5, c1, c2, a2, b2, c3,
    fun q hq => ?_, fun q hq => ?_, fun q hq => ?_⟩
  · simpa using (a6 q hq).2
  · simpa [hpos] using (b6 q hq).2
  · rw [(c5 q hq).2]
    have e0 := c4 0 (by simp)
    have e1 := c4 1 (by simp)
    simp only [if_true, one_ne_zero, if_false, hpos] at e0 e1
    unfold meanAt
    simp only [List.map_cons, List.map_nil, List.sum_cons, List.sum_nil, e0, e1, List.length_cons, List.length_nil]
    norm_num

/-- The hypotheses of `C173_commutes_partial` are met by two traces of one slowness. -/
example : ∃ m1 m2 st1 st2 h' l h1 l1,
    profile (fun _ _ => true) [pipeBox] false (mixHeap pySlow) [1, 2] 3 = .ok (h', l) ∧
    streamMoveout Real.sqrt npFind (fun _ => .error .other) [] (some "Ps".toList) 0 pyModel (h', l) = (m2, st2, none) ∧
    streamMoveout Real.sqrt npFind (fun _ => .error .other) [] (some "Ps".toList) 0 pyModel (mixHeap pySlow, [1, 2])
      = (m1, st1, none) ∧
    profile (fun _ _ => true) [pipeBox] false st1.1 st1.2 3 = .ok (h1, l1) ∧ l ≠ [] ∧ l1 ≠ [] ∧
    ∀ q ∈ l, ∀ q1 ∈ l1, (st2.1 q).data = (h1 q1).data ∧ (h1 q1).data.getD 7 0 = 1 := by
  have hpos : pySlow ≠ 0 := by norm_num [pySlow]
  obtain ⟨h', l, b1, b2, b3, b4⟩ := mix_profile pySlow 1 [2] 3 (by decide)
  obtain ⟨m2, st2, b5, b6⟩ := mix_moved h' l b3 (fun _ => pySlow) (fun _ _ => .inr rfl) (fun q hq => by
    simpa using (b4 q hq).2)
  obtain ⟨m1, st1, h1, l1, c1, c2, c3, c4, c5⟩ := mix_after pySlow (.inr rfl) [1, 2] (by decide) (by simp) 3 (by decide)
  refine ⟨m1, m2, st1, st2, h', l, h1, l1, b1, b5, c1, c2, b2, c3, fun q hq q1 hq1 => ?_⟩
  have := C173_commutes_partial Real.sqrt npFind (fun _ => .error .other) (fun _ _ => true) [pipeBox] false pyModel m1 m2
    rfl 0 pySlow 0 (easier_of_sq_le _ _ _ _ (by rw [sq, zero_mul]; exact sq_nonneg _)) (fun v hv => by
      have hv' : v = 6 ∨ v = 39 / 10 := by simpa [pyModel, eq_comm] using hv
      rcases hv' with rfl | rfl <;> simp [vslow, pySlow, deg2km] <;> norm_num)
    [] [] (some "Ps".toList) (mixHeap pySlow) h' [1, 2] l (by decide) 3 3 (by decide) (by decide) b1 st2 b5 st1 c1 false
    h1 l1 c2 q q1 hq hq1 (5, 'Q') (b4 q hq).1 (c5 q1 hq1).1 16 1 one_pos
    (fun r _ => ⟨rfl, rfl, 0, rfl, by simp [mixHeap]⟩) (fun r hr => by
      rw [mix_members] at hr
      have : r ≠ 0 := by rintro rfl; simp at hr
      simp [mixHeap, Trace.getNum, Dict.get, this])
  refine ⟨this, ?_⟩
  rw [← this]
  simpa [hpos] using (b6 q hq).2

/-- The hypotheses of `C173_first` are met by two traces of different slownesses: with the slowness of the first one
assigned both can be corrected, and the corrected profile is their mean. -/
example : ∃ m2 st2 h' l, ∃ T : ℕ → Trace ℝ, profile (fun _ _ => true) [pipeBox] false (mixHeap pySlow) [1, 0] 2 = .ok (h', l) ∧
    streamMoveout Real.sqrt npFind (fun _ => .error .other) [] (some "Ps".toList) 0 pyModel (h', l) = (m2, st2, none) ∧
    (∀ r, (moveoutStep Real.sqrt npFind (fun _ => .error .other) "Ps".toList 0 pyModel
      ((mixHeap pySlow r).put "slowness" (.num pySlow))).2 = .ok (T r)) ∧ l ≠ [] ∧
    ∀ q ∈ l, (st2.1 q).data.getD 7 0 = meanAt ([1, 0].map fun r => (T r).data) 7 := by
  obtain ⟨h', l, b1, b2, b3, b4⟩ := mix_profile pySlow 1 [0] 2 (by decide)
  obtain ⟨m2, st2, b5, b6⟩ := mix_moved h' l b3 (fun _ => pySlow) (fun _ _ => .inr rfl) (fun q hq => by
    simpa using (b4 q hq).2)
  have hT : ∀ r, ∃ T, (moveoutStep Real.sqrt npFind (fun _ => .error .other) "Ps".toList 0 pyModel
      ((mixHeap pySlow r).put "slowness" (.num pySlow))).2 = .ok T := by
    intro r
    obtain ⟨T, hT, -⟩ := step_succeeds Real.sqrt npFind (fun _ => .error .other) pyModel pyLayers rfl rfl rfl rfl
      "Ps".toList 0 (by decide) (by decide) (by decide) pyLayers_prop.2 (by simp [pyLayers])
      ((mixHeap pySlow r).put "slowness" (.num pySlow)) (mix_correctable _ pySlow (.inr rfl) rfl rfl (by
        unfold Trace.getTime
        rw [stackOne_ok.put_get_lite, if_neg (by decide)]
        rfl) (by
        unfold Trace.getNum
        rw [stackOne_ok.put_get_lite, if_pos rfl]) rfl)
    exact ⟨T, hT⟩
  choose T hT using hT
  refine ⟨m2, st2, h', l, T, b1, b5, hT, b2, fun q hq => ?_⟩
  have := C173_first Real.sqrt npFind (fun _ => .error .other) (fun _ _ => true) [pipeBox] false pyModel m2
    rfl 0 pySlow 0 (easier_of_sq_le _ _ _ _ (by rw [sq, zero_mul]; exact sq_nonneg _)) (fun v hv => by
      have hv' : v = 6 ∨ v = 39 / 10 := by simpa [pyModel, eq_comm] using hv
      rcases hv' with rfl | rfl <;> simp [vslow, pySlow, deg2km] <;> norm_num)
    [] (some "Ps".toList) (mixHeap pySlow) h' [1, 0] l 2 (by decide) b1 st2 b5 q hq (5, 'Q') (b4 q hq).1 16 1
    (fun r _ => ⟨rfl, rfl, 0, rfl, by simp [mixHeap]⟩) 1 (by rw [mix_members]; rfl)
    (by simp [mixHeap, Trace.getNum, Dict.get]) "Ps".toList rfl T (fun r _ => hT r) 7 (by rw [(b6 q hq).1]; norm_num)
  rw [mix_members] at this
  exact this

end Verif.Props
