import Verif.Props.MoveoutModel

/-!
# S multiples (C33, C36), success of moveout, crash state of the loop (C39)
-/

set_option linter.unusedSimpArgs false
set_option linter.unusedSectionVars false

namespace Verif.Props
open Verif.Py Verif.Model.Simple Verif.Spec

section succeed
variable {K : Type} [Field K] [LinearOrder K] [IsStrictOrderedRing K] [FloorRing K]
  (find : List K → K → Nat)

/-- For all phases but S multiples moveout succeeds if the onset is not at the last sample. -/
theorem C34_succeeds (tr : Trace K) (onset : K) (phase : Str) (t0 t1 : List K)
    (hphase : isSMultiple phase = false) (hsr : 0 < tr.sr) (h0 : tr.start ≤ onset)
    (h1 : onset ≤ tr.endtime) (hlast : index0 tr onset + 2 ≤ tr.npts) (hne : t0 ≠ [])
    (hlen : t0.length = t1.length) : ∃ d, moveoutData find tr onset phase t0 t1 = .ok d := by
  obtain ⟨b0, b1, -⟩ := index0_bounds tr onset hsr h0 h1
  have hpos : 0 < t0.length := List.length_pos_iff.2 hne
  have hget : ∀ l : List K, 0 < l.length → ∃ x, getItem l (-1) = .ok x := by
    intro l hl
    unfold getItem
    simp only [show ((-1 : Int) < 0) from by decide, if_true]
    rw [if_pos (by omega), List.getElem?_eq_getElem (by omega)]
    exact ⟨_, rfl⟩
  obtain ⟨a, ha⟩ := hget t0 hpos
  obtain ⟨b, hb⟩ := hget t1 (by omega)
  unfold moveoutData
  rw [hphase, if_neg (by simp)]
  unfold moveoutP
  simp only [ha, hb, bind, Except.bind]
  have hi : index0 tr onset ≤ (if a > b then index0 tr onset + 1 else index0 tr onset) ∧
      (if a > b then index0 tr onset + 1 else index0 tr onset) + 1 ≤ tr.npts := by
    split <;> omega
  generalize (if a > b then index0 tr onset + 1 else index0 tr onset) = i0 at hi ⊢
  have hc : clampIdx tr.data.length i0 = i0.toNat := clampIdx_le (by omega) (by unfold Trace.npts at hi; omega)
  unfold interpAll
  simp only [hlen, ne_eq, not_true_eq_false, if_false, hne]
  rw [if_neg, if_neg]
  · exact ⟨_, rfl⟩
  · intro hcon
    have := congrArg List.length hcon
    simp at this
    omega
  · simp only [List.length_map, List.length_range, not_not, sliceFrom, List.length_drop, hc, Trace.npts]

end succeed

section ex

theorem sqrtStrict_real : SqrtStrict Real.sqrt := fun x _ hx =>
  ⟨Real.sqrt_nonneg x, fun h => Real.sqrt_lt_sqrt hx h⟩

/-- Three layers with vp = 6, vs = 3.9. For the slowness `h = 12/78` s/km the vertical
slownesses are 5/78 and 16/78. -/
noncomputable def pyLayers : List (Layer ℝ) := [⟨6, 39 / 10, 0⟩, ⟨6, 39 / 10, 78⟩, ⟨6, 39 / 10, 78⟩]

noncomputable def pyModel : SimpleModel ℝ :=
  ⟨[0, 0, 78], [0, 78, 78], [6, 6, 6], [39 / 10, 39 / 10, 39 / 10], []⟩

noncomputable def pySlow : ℝ := 12 / 78 * (1112 / 10)

/-- 1 Hz, 30 samples, onset at the first sample. -/
noncomputable def pyTrace : Trace ℝ :=
  ⟨[], [], [], ['Q'], 0, 1, (List.range 30).map (fun (k : Nat) => (k : ℝ)),
    [("onset", .time 0), ("slowness", .num pySlow)]⟩

theorem pyLayers_vel : ∀ l ∈ pyLayers, 0 < l.vs ∧ l.vs < l.vp ∧ 0 ≤ l.dz := by
  intro l hl
  simp only [pyLayers, List.mem_cons, List.not_mem_nil, or_false] at hl
  rcases hl with rfl | rfl | rfl <;> norm_num

theorem pyLayers_prop : Propagates pyLayers pySlow ∧ Propagates pyLayers 0 := by
  constructor <;>
  · intro l hl
    simp only [pyLayers, List.mem_cons, List.not_mem_nil, or_false] at hl
    rcases hl with rfl | rfl | rfl <;> norm_num [pySlow]

theorem py_q : qSpec Real.sqrt 6 pySlow = 5 / 78 ∧ qSpec Real.sqrt (39 / 10) pySlow = 16 / 78 ∧
    qSpec Real.sqrt 6 0 = 13 / 78 ∧ qSpec Real.sqrt (39 / 10) 0 = 20 / 78 := by
  refine ⟨?_, ?_, ?_, ?_⟩ <;>
  · simp only [qSpec, pySlow]
    rw [Real.sqrt_eq_iff_mul_self_eq] <;> norm_num

theorem py_delay (k : Nat) : delaySpec Real.sqrt 1 1 true pyLayers pySlow k
      = 11 * ((if k = 0 then 0 else if k = 1 then 1 else 2 : Nat) : ℝ) ∧
    delaySpec Real.sqrt 1 1 true pyLayers 0 k
      = 7 * ((if k = 0 then 0 else if k = 1 then 1 else 2 : Nat) : ℝ) := by
  obtain ⟨q1, q2, q3, q4⟩ := py_q
  unfold delaySpec
  match k with
  | 0 => simp [pyLayers]
  | 1 => constructor <;> · simp [pyLayers, q1, q2, q3, q4]; norm_num
  | (n + 2) =>
    constructor <;> · simp [pyLayers, q1, q2, q3, q4]; norm_num

/-- C36 applies: the conversion at 78 km, 11 s after the onset for the slowness of the trace, is moved to 7 s. -/
example : ∃ tr', (moveoutStep Real.sqrt npFind (fun _ => .error .other) "Ps".toList 0 pyModel
    pyTrace).2 = .ok tr' ∧ tr'.data[7]? = some 11 := by
  have hst := stretch_tables Real.sqrt pyModel pyLayers rfl rfl rfl rfl pySlow 0 "Ps".toList
    (by decide) (by decide) (by decide) pyLayers_prop.1 pyLayers_prop.2
  have hidx : index0 pyTrace 0 = 0 := by simp [index0, pyTrace]
  have hend : (0 : ℝ) ≤ pyTrace.endtime := by
    simp [Trace.endtime, pyTrace, Trace.delta]
  have hm : ∃ tr', (moveoutStep Real.sqrt npFind (fun _ => .error .other) "Ps".toList 0 pyModel
      pyTrace).2 = .ok tr' := by
    unfold moveoutStep
    have h1 : pyTrace.getTime "onset" = some 0 := rfl
    have h2 : pyTrace.getNum "slowness" = some pySlow := rfl
    simp only [h1, h2]
    rw [if_neg (by rw [not_not]; exact ⟨by simp [pyTrace], hend⟩)]
    rcases hS : stretch Real.sqrt pyModel pySlow "Ps".toList 0 with ⟨m', r⟩
    rw [hS] at hst
    simp only at hst
    subst hst
    simp only [allSome_map]
    obtain ⟨d, hd⟩ := C34_succeeds npFind pyTrace 0 "Ps".toList
      (mirrorK (delayList Real.sqrt "Ps".toList pyLayers pySlow))
      (mirrorK (delayList Real.sqrt "Ps".toList pyLayers 0)) (by decide) (by simp [pyTrace])
      (by simp [pyTrace]) hend (by rw [hidx]; simp [pyTrace, Trace.npts])
      (by intro hcon
          have := congrArg List.length hcon
          simp [mirrorK, delayList, pyLayers] at this)
      (by simp [mirrorK, slice, clampIdx, delayList])
    rw [hd]
    exact ⟨_, rfl⟩
  obtain ⟨tr', htr'⟩ := hm
  refine ⟨tr', htr', ?_⟩
  have := C36_conversion_partial Real.sqrt npFind npFind_spec sqrtStrict_real _ pyModel pyLayers rfl
    rfl rfl rfl pySlow 0 "Ps".toList (by decide) (by decide) (by decide) (by decide) pyLayers_prop.1
    pyLayers_prop.2 pyLayers_vel pyTrace tr' 0 (by simp [pyTrace]) rfl rfl htr' 1 (by simp [pyLayers])
    (fun x k => delaySpec Real.sqrt 1 1 true pyLayers x k) rfl (by simp [py_delay])
    (by rw [show pyLayers.length - 1 = 2 from rfl]; simp [py_delay])
    (by rw [show min 9 (pyLayers.length - 1) = 2 from rfl]; simp [py_delay, pyTrace, Trace.delta]; norm_num)
    11 7 (by simp [pyTrace]) (by simp [pyTrace]) (by simp [py_delay, pyTrace])
    (by simp [py_delay, pyTrace])
  rw [this]
  simp [pyTrace]

/-- C33 applies. -/
example : isSMultiple "Ps".toList = false ∧
    moveoutData npFind exTrace 3 "Ps".toList [-2, 0, 2, 4] [-2, 0, 2, 4]
      = .ok [1, 2, 3, 4, 5, 6, 7, 9, 0] := by decide +kernel

/-! ## S multiples -/

/-- **C33 is false for S multiples** if the data before the onset reaches further back than the table:
then also samples inside of the table are lost.  (Trace of ten samples with onset at sample 6,
identical tables covering one to minus three seconds.) -/
theorem C33_counterexample :
    moveoutData npFind (⟨[], [], [], [], 0, 1, [1, 2, 3, 4, 5, 6, 7, 8, 9, 10], []⟩ : Trace ℚ) 6
      "Sspp".toList [1, 0, -1, -2, -3] [1, 0, -1, -2, -3]
      = .ok [0, 0, 0, 0, 0, 6, 7, 8, 9, 10] := by decide +kernel

/-- **C36 is false for S multiples.** The table stretches the delay time 1 s to 2 s. The sample one second
before the onset (value 1 at index 5, onset at index 6) should move to index 4, but it stays at index 5. -/
theorem C36_counterexample :
    moveoutData npFind (⟨[], [], [], [], 0, 1, [0, 0, 0, 0, 0, 1, 0, 0], []⟩ : Trace ℚ) 6
      "Sspp".toList [1, 0, -1, -2, -3, -4, -5, -6, -7] [2, 0, -2, -4, -6, -8, -10, -12, -14]
      = .ok [0, 0, 0, 0, 1 / 2, 1, 0, 0] := by decide +kernel

section smult
variable {K : Type} [Field K] [LinearOrder K] [IsStrictOrderedRing K] [FloorRing K]
  (find : List K → K → Nat)

/-- **C33, S multiples.** With identical decreasing tables covering all samples before the onset
nothing is changed. -/
theorem C33_s_multiple_partial (hf : FindSpec find) (tr : Trace K) (onset : K)
    (phase : Str) (T d : List K) (hsr : 0 < tr.sr) (hstart : tr.start ≤ onset)
    (hend : onset ≤ tr.endtime) (hphase : isSMultiple phase = true)
    (h : moveoutData find tr onset phase T T = .ok d) (hs : T.Pairwise (· ≥ ·))
    (hfirst : tr.delta ≤ T.getD 0 0)
    (hlast : T.getD (T.length - 1) 0 ≤ tr.start - onset) : d = tr.data := by
  obtain ⟨b0, b1, b2⟩ := index0_bounds tr onset hsr hstart hend
  have hle : index0 tr onset ≤ (tr.data.length : Int) := by
    by_cases hn : tr.npts = 0
    · rw [b2 hn]; omega
    · have := b1 hn; unfold Trace.npts at this; omega
  have hfl : (index0 tr onset : K) ≤ (onset - tr.start) * tr.sr := Int.floor_le _
  have hfl' : (onset - tr.start) * tr.sr < (index0 tr onset : K) + 1 := Int.lt_floor_add_one _
  unfold moveoutData at h
  rw [hphase, if_pos rfl] at h
  obtain ⟨p1, p2, p3, p4, rfl⟩ := moveoutS_ok find tr onset T T d h
  have hc := clampIdx_le b0 hle
  set n := (index0 tr onset).toNat with hn
  have hcast : (index0 tr onset : K) = (n : K) := by
    have : index0 tr onset = (n : Int) := by omega
    rw [this]; push_cast; rfl
  rw [hcast] at hfl hfl' p3 p4 ⊢
  set x : Nat → K := fun k => tr.start - onset + (n : K) * tr.delta + (k : K) * tr.delta with hx
  have hδ : 0 < tr.delta := by unfold Trace.delta; positivity
  have hδn : (onset - tr.start) = (onset - tr.start) * tr.sr * tr.delta := by
    unfold Trace.delta; field_simp
  have hx0 : ∀ k, - tr.delta ≤ x k := by
    intro k
    have h1 : onset - tr.start ≤ ((n : K) + 1) * tr.delta := by
      rw [hδn]; exact mul_le_mul_of_nonneg_right hfl'.le hδ.le
    have h2 : 0 ≤ (k : K) * tr.delta := by positivity
    simp only [hx]; nlinarith
  have hx1 : ∀ k < n, x k ≤ onset - tr.start := by
    intro k hk
    have h1 : (n : K) * tr.delta ≤ onset - tr.start := by
      rw [hδn]; exact mul_le_mul_of_nonneg_right hfl hδ.le
    have h2 : (k : K) * tr.delta ≤ (n : K) * tr.delta :=
      mul_le_mul_of_nonneg_right (by exact_mod_cast hk.le) hδ.le
    simp only [hx]; linarith
  have hxmono : ∀ i j, i < j → x i < x j := by
    intro i j hij
    have : (i : K) * tr.delta < (j : K) * tr.delta :=
      mul_lt_mul_of_pos_right (by exact_mod_cast hij) hδ
    simp only [hx]; linarith
  set U := T.map fun x => -x with hU
  have hUne : U ≠ [] := by simpa [hU] using p2
  have hUl : U.length = T.length := by simp [hU]
  have hpos : 0 < T.length := List.length_pos_iff.2 p2
  have hUget : ∀ i, U.getD i 0 = - T.getD i 0 := by
    intro i
    by_cases hi : i < T.length
    · rw [List.getD_eq_getElem _ _ (by omega), List.getD_eq_getElem _ _ hi]; simp [hU]
    · rw [List.getD_eq_default _ _ (by omega), List.getD_eq_default _ _ (by omega)]; simp
  have hUinc : Increasing U := by
    rw [increasing_iff_pairwise, hU, List.pairwise_map]
    exact hs.imp fun h => neg_le_neg h
  have hin0 : ∀ k, U.getD 0 0 ≤ x k := by
    intro k; rw [hUget]; have := hx0 k; linarith
  have hin1 : ∀ k < n, x k ≤ U.getD (U.length - 1) 0 := by
    intro k hk; rw [hUget, hUl]; have := hx1 k hk; linarith
  have hnewt : ((List.range n).map x).map (interp1 find U U (some 0) (some 0))
      = (List.range n).map x := by
    rw [List.map_map]
    apply List.map_congr_left
    intro k hk
    have hk := List.mem_range.1 hk
    simp only [Function.comp_def]
    have hr : interp1 find U U (some 0) (some 0) (x k) = interp1 find U U (some 0) none (x k) := by
      unfold interp1
      rw [if_neg (not_lt.2 (hin0 k)), if_neg (not_lt.2 (hin0 k)), if_neg (not_lt.2 (hin1 k hk)),
        if_neg (not_lt.2 (hin1 k hk))]
    rw [hr, interp1_self find hf U (some 0) (x k) hUne hUinc (hin0 k) (hin1 k hk)]
  rw [hnewt] at p3 p4 ⊢
  have hinc : Increasing ((List.range n).map x) := by
    intro i j hij hj
    rw [List.length_map, List.length_range] at hj
    rw [getD_map_range x (by omega), getD_map_range x hj]
    rcases Nat.lt_or_eq_of_le hij with h | rfl
    · exact (hxmono i j h).le
    · rfl
  have hdata : ((List.range n).map x).map (interp1 find ((List.range n).map x)
      (sliceTo tr.data (index0 tr onset)).reverse (some 0) (some 0))
      = (sliceTo tr.data (index0 tr onset)).reverse := by
    apply List.ext_getElem?
    intro k
    rw [List.getElem?_map, List.getElem?_map]
    by_cases hk : k < n
    · rw [List.getElem?_range hk]
      simp only [Option.map_some]
      have := interp1_knot find hf ((List.range n).map x)
        (sliceTo tr.data (index0 tr onset)).reverse (some 0) (some 0) p4 hinc k (by simpa using hk)
        (by
          intro j hj he
          rw [List.length_map, List.length_range] at hj
          rw [getD_map_range x hj, getD_map_range x hk] at he
          have : j = k := by
            by_contra hne
            rcases lt_or_gt_of_ne hne with h | h
            · have := hxmono j k h; rw [he] at this; exact lt_irrefl _ this
            · have := hxmono k j h; rw [he] at this; exact lt_irrefl _ this
          rw [this])
      rw [getD_map_range x hk] at this
      rw [this]
      have hl : k < (sliceTo tr.data (index0 tr onset)).reverse.length := by
        rw [List.length_map, List.length_range] at p3
        rw [List.length_reverse, ← p3]; exact hk
      rw [List.getElem?_eq_getElem hl, List.getD_eq_getElem _ _ hl]
    · rw [List.length_map, List.length_range] at p3
      rw [List.getElem?_eq_none (by simpa using hk),
        List.getElem?_eq_none (by rw [List.length_reverse, ← p3]; omega)]
      rfl
  rw [hdata, List.reverse_reverse]
  simp [sliceTo, sliceFrom]

example : moveoutData npFind exTrace 6 "Sspp".toList [1, 0, -1, -2, -3, -4, -5, -6, -7]
    [1, 0, -1, -2, -3, -4, -5, -6, -7] = .ok exTrace.data := by decide +kernel

end smult

/-! ## C39 -/
section crash
variable {K : Type} [Field K] [LinearOrder K] [FloorRing K] (sqrt : K → K)
  (find : List K → K → Nat)

/-- Loop over `pre ++ post`: first `pre`, then `post` if `pre` succeeded. -/
theorem moveout_append (nanCase : Trace K → Res (List K)) (phase : Str) (ref : K)
    (m : SimpleModel K) (h : Heap K) (pre post : List Nat) :
    moveout sqrt find nanCase phase ref m h (pre ++ post) =
      match moveout sqrt find nanCase phase ref m h pre with
      | (m', h', none) => moveout sqrt find nanCase phase ref m' h' post
      | r => r := by
  induction pre generalizing m h with
  | nil => simp [moveout]
  | cons r pre ih =>
    simp only [List.cons_append, moveout]
    rcases hstep : moveoutStep sqrt find nanCase phase ref m (h r) with ⟨m', res⟩
    cases res with
    | ok tr => simp only; exact ih _ _
    | error e => rfl

/-- Objects that are not in the stream are never touched. -/
theorem moveout_frame (nanCase : Trace K → Res (List K)) (phase : Str) (ref : K)
    (m : SimpleModel K) (h : Heap K) (s : List Nat) (r : Nat) (hr : r ∉ s) :
    (moveout sqrt find nanCase phase ref m h s).2.1 r = h r := by
  induction s generalizing m h with
  | nil => rfl
  | cons a s ih =>
    simp only [List.mem_cons, not_or] at hr
    simp only [moveout]
    rcases hstep : moveoutStep sqrt find nanCase phase ref m (h a) with ⟨m', res⟩
    cases res with
    | ok tr => simp only; rw [ih _ _ hr.2, Heap.set_ne _ _ hr.1]
    | error e => rfl

/-- **C39 (partial).** An onset outside of the data raises `ValueError`; neither this trace nor any later
one is changed. What is missing: traces before the offending one are already corrected, see
`C39_counterexample`. -/
theorem C39_rejects_partial (nanCase : Trace K → Res (List K)) (phase : Str) (ref : K)
    (m : SimpleModel K) (h : Heap K) (pre post : List Nat) (r : Nat) (onset : K)
    (hr : r ∉ pre) (hon : (h r).getTime "onset" = some onset)
    (hbad : onset < (h r).start ∨ (h r).endtime < onset)
    (hpre : (moveout sqrt find nanCase phase ref m h pre).2.2 = none) :
    (moveout sqrt find nanCase phase ref m h (pre ++ r :: post)).2.2 = some .valueError ∧
    (∀ r', r' ∉ pre → (moveout sqrt find nanCase phase ref m h (pre ++ r :: post)).2.1 r' = h r') := by
  rw [moveout_append]
  have hf := moveout_frame sqrt find nanCase phase ref m h pre
  rcases hp : moveout sqrt find nanCase phase ref m h pre with ⟨m', h', e⟩
  rw [hp] at hpre hf
  simp only at hpre hf
  subst hpre
  have hrr := hf r hr
  have hstep : moveoutStep sqrt find nanCase phase ref m' (h' r) = (m', .error .valueError) := by
    unfold moveoutStep
    rw [hrr, hon]
    simp only
    rw [if_pos]
    rintro ⟨h1, h2⟩
    rcases hbad with hb | hb
    · exact absurd h1 (not_le.2 hb)
    · exact absurd h2 (not_le.2 hb)
  simp only [moveout, hstep]
  exact ⟨trivial, hf⟩

/-- The stream without offending trace at the front: nothing is changed at all if the first trace is bad. -/
theorem C39_first_trace (nanCase : Trace K → Res (List K)) (phase : Str) (ref : K)
    (m : SimpleModel K) (h : Heap K) (post : List Nat) (r : Nat) (onset : K)
    (hon : (h r).getTime "onset" = some onset)
    (hbad : onset < (h r).start ∨ (h r).endtime < onset) :
    moveout sqrt find nanCase phase ref m h (r :: post) = (m, h, some .valueError) := by
  have hstep : moveoutStep sqrt find nanCase phase ref m (h r) = (m, .error .valueError) := by
    unfold moveoutStep
    rw [hon]
    simp only
    rw [if_pos]
    rintro ⟨h1, h2⟩
    rcases hbad with hb | hb
    · exact absurd h1 (not_le.2 hb)
    · exact absurd h2 (not_le.2 hb)
  simp only [moveout, hstep]

end crash

/-- A rational model; for the slowness 0 the square roots are rational. -/
def qModel : SimpleModel ℚ := ⟨[0, 1, 2], [0, 1, 1], [2, 2, 2], [1, 1, 1], []⟩

/-- Agrees with the square root on the arguments occurring for `qModel` and slowness 0. -/
def qSqrt (x : ℚ) : ℚ := if x = 1 then 1 else if x = 1 / 4 then 1 / 2 else 0

/-- Two traces; the onset of the second one is before its data. -/
def qHeap : Heap ℚ := fun r =>
  ⟨[], [], [], ['Q'], 0, 2, [5, 6, 7, 8, 9], [("onset", .time (if r = 0 then 0 else -1)), ("slowness", .num 0)]⟩

/-- **C39 is false of the code**: `ValueError` is raised because of the second trace, but the first
trace has already been changed. -/
theorem C39_counterexample :
    (moveout qSqrt npFind (fun t => .ok t.data) "Ps".toList 0 qModel qHeap [0, 1]).2.2
      = some .valueError ∧
    ((moveout qSqrt npFind (fun t => .ok t.data) "Ps".toList 0 qModel qHeap [0, 1]).2.1 0).data
      = [5, 6, 9, 0, 0] ∧ (qHeap 0).data = [5, 6, 7, 8, 9] := by
  decide +kernel

end ex
end Verif.Props
