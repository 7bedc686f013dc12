import Verif.Props.TrimStack
import Verif.Props.HarmonicsExamples
import Verif.Props.HarmonicsCounter
import Verif.Props.HarmonicsLayout

/-!
# Windows of harmonics and harmonics of windows (C187)

The property expected: a window relative to the onset can be cut out before or after the harmonic decomposition, with both
methods.  It is false of the code: samples with the same index are fitted whatever the onsets are, and the header of the
result is that of the first trace of the stream (`C187_counterexample`).  With the onset at the same sample of all traces the
results are the same in all samples and header entries (`C187_one_component_partial`, `C187_two_components_partial`).
-/

set_option linter.unusedSimpArgs false
set_option linter.unusedSectionVars false

namespace Verif.Props
open Verif.Py Verif.Model Verif.Model.Harmonics Verif.Spec

theorem harmTrace_cut (i n k : ℕ) (t : Trace ℝ) (comps : Str) (two : Bool) (d : List ℝ) :
    harmTrace (cleanTrace (samplesOf i n t)) comps two k ((d.drop i).take n) =
      samplesOf i n (harmTrace (cleanTrace t) comps two k d) := by
  unfold harmTrace
  split
  · rfl
  · split
    · simp only []
      split <;> rfl
    · rfl

theorem harmOut_cut (i n : ℕ) (t : Trace ℝ) (comps : Str) (two : Bool) (hd : List (List ℝ)) :
    harmOut (samplesOf i n t) comps two (hd.map fun d => (d.drop i).take n) =
      (harmOut t comps two hd).map (samplesOf i n) := by
  unfold harmOut
  rw [List.zipIdx_map, List.map_map, List.map_map]
  refine List.map_congr_left fun p _ => ?_
  exact harmTrace_cut i n p.2 t comps two p.1

theorem addInfo_cut (i n : ℕ) (info : Str) (t : Trace ℝ) :
    (match addInfo info (samplesOf i n t) with | .ok t' => t' | .error _ => samplesOf i n t) =
      samplesOf i n (match addInfo info t with | .ok t' => t' | .error _ => t) := by
  unfold addInfo
  rw [show (samplesOf i n t).ext = t.ext from rfl]
  cases t.ext.get "processing" with
  | none => rfl
  | some v =>
    cases v with
    | list l =>
      simp only []
      split <;> rfl
    | _ => rfl

theorem harmonics_cut (E : LstsqEnv) (info : Str) (a : HArgs) (h h1 : Heap ℝ) (s : List ℕ) (i n : ℕ) (f : Trace ℝ)
    (comps : Str) (two : Bool) (hd : List (List ℝ)) (hb : harmonicsBody E a h s = .ok (harmOut f comps two hd))
    (hb1 : harmonicsBody E a h1 s = .ok (harmOut (samplesOf i n f) comps two (hd.map fun d => (d.drop i).take n))) :
    ∃ out, harmonics E info a h s = .ok out ∧ harmonics E info a h1 s = .ok (out.map (samplesOf i n)) := by
  refine ⟨_, by unfold harmonics; rw [hb], ?_⟩
  unfold harmonics
  rw [hb1, harmOut_cut]
  simp only [Except.ok.injEq, List.map_map]
  refine List.map_congr_left fun p _ => ?_
  exact addInfo_cut i n info p

/-- The samples of all harmonics, cut. -/
theorem range_cut (F : ℕ → ℕ → ℝ) (m N i n : ℕ) :
    ((List.range m).map fun (k : ℕ) => (List.range (min n (N - i))).map fun (j : ℕ) => F k (i + j)) =
      ((List.range m).map fun (k : ℕ) => (List.range N).map fun (j : ℕ) => F k j).map fun d => (d.drop i).take n := by
  rw [List.map_map]
  refine List.map_congr_left fun k _ => ?_
  simp only [Function.comp]
  refine List.ext_getElem (by simp [List.length_take]) fun j h1 h2 => ?_
  simp only [List.getElem_map, List.getElem_range, List.getElem_take, List.getElem_drop]

section
variable (h h1 : Heap ℝ) (s : List ℕ) (i n : ℕ) (hh : ∀ r ∈ s, h1 r = samplesOf i n (h r))

include hh in
theorem ofComponent_cut (c : Char) : ofComponent h1 s c = ofComponent h s c := by
  unfold ofComponent
  exact List.filter_congr fun r hr => by rw [hh r hr]; rfl

include hh in
theorem byTime_cut (l : List ℕ) (hl : ∀ r ∈ l, r ∈ s) : byTime h1 l = byTime h l := by
  unfold byTime
  have := List.map_insertionSort (fun a b => timeKey h1 a ≤ timeKey h1 b) (fun a b => timeKey h a ≤ timeKey h b) id l ?_
  · simpa using this
  · intro a ha b hb
    unfold timeKey
    rw [hh a (hl a ha), hh b (hl b hb)]
    exact Iff.rfl

include hh in
theorem usable_cut (l : List ℕ) (hl : ∀ r ∈ l, r ∈ s) (B : ℕ → ℝ) (N : ℕ) (hu : Usable h s l B N) :
    Usable h1 s l B (min n (N - i)) where
  nonempty := hu.nonempty
  time r hr := by rw [hh r (hl r hr)]; exact hu.time r hr
  baz r hr := by rw [hh r (hl r hr)]; exact hu.baz r hr
  npts r hr := by
    rw [hh r (hl r hr)]
    have := npts_samplesOf (h r) i n
    unfold Trace.npts at this
    rw [this, hu.npts r hr]
  first := by
    obtain ⟨f, hf, hN⟩ := hu.first
    exact ⟨f, hf, by rw [hh f (List.mem_of_mem_head? (by rw [hf]; rfl)), npts_samplesOf, hN]⟩

include hh in
theorem data_cut (l : List ℕ) (hl : ∀ r ∈ l, r ∈ s) (N : ℕ) (j : ℕ) (hj : j < min n (N - i)) :
    (l.map fun r => (h1 r).data.getD j 0) = l.map fun r => (h r).data.getD (i + j) 0 := by
  refine List.map_congr_left fun r hr => ?_
  rw [hh r (hl r hr)]
  show (((h r).data.drop i).take n).getD j 0 = _
  rw [List.getD_eq_getElem?_getD, List.getD_eq_getElem?_getD, List.getElem?_take_of_lt (by omega), List.getElem?_drop]

end

theorem ofComponent_mem (h : Heap ℝ) (s : List ℕ) (c : Char) : ∀ r ∈ ofComponent h s c, r ∈ s :=
  fun _ hr => List.mem_of_mem_filter hr

/-- The harmonics have the same number of samples and the same onset as the traces. -/
theorem harmonics_aligned (E : LstsqEnv) (info : Str) (args : HArgs) (st : SState ℝ) (N : ℕ) (sr d : ℝ)
    (hal : Aligned N sr d st) (out : List (Trace ℝ)) (ho : harmonics E info args st.1 st.2 = .ok out)
    (hd : ∀ t ∈ out, t.data.length = N) (g : SState ℝ) (hg : g.2.map g.1 = out) : Aligned N sr d g := by
  intro r hr
  have hr' : g.1 r ∈ out := by rw [← hg]; exact List.mem_map_of_mem hr
  obtain ⟨f, hf, -, -, hall⟩ := C76_layout_partial E info args st.1 st.2 out ho
  obtain ⟨k, hk⟩ := List.getElem?_of_mem hr'
  obtain ⟨-, -, e1, e2, -, -, e3⟩ := hall k _ hk
  obtain ⟨-, f2, o, f3, f4⟩ := hal f (List.mem_of_mem_head? (by rw [hf]; rfl))
  exact ⟨hd _ hr', e2.trans f2, o, (e3 "onset").trans f3, by rw [e1]; exact f4⟩

section main
variable (E : LstsqEnv) (hE : LstsqOk E) (info : Str) (args : HArgs)
  (trim : Trace ℝ → TArg ℝ → TArg ℝ → Res (Trace ℝ)) (hcut : CutsSamples trim) (a b : ℝ)
  (st st1 : SState ℝ) (hn : st.2.Nodup) (N : ℕ) (sr d : ℝ) (hal : Aligned N sr d st)
  (h1 : trim2 trim (.sec a) (.sec b) (.key "onset") st = (st1, none)) (hne : st1.2 ≠ [])

include hcut hn hal h1 hne in
theorem harmonics_window (hst : st.2 ≠ [])
    (key : ∀ i n, (∀ r ∈ st.2, st1.1 r = samplesOf i n (st.1 r)) → 0 < min n (N - i) →
      ∃ (f : Trace ℝ) (comps : Str) (two : Bool) (hd : List (List ℝ)), (∀ q ∈ hd, q.length = N) ∧
        harmonicsBody E args st.1 st.2 = .ok (harmOut f comps two hd) ∧
        harmonicsBody E args st1.1 st.2 =
          .ok (harmOut (samplesOf i n f) comps two (hd.map fun q => (q.drop i).take n))) :
    ∃ out, harmonics E info args st.1 st.2 = .ok out ∧ ∀ g : SState ℝ, g.2.Nodup → g.2.map g.1 = out →
      ∃ g1, trim2 trim (.sec a) (.sec b) (.key "onset") g = (g1, none) ∧
        harmonics E info args st1.1 st1.2 = .ok (g1.2.map g1.1) := by
  rcases trim2_aligned trim hcut a b N sr d with ⟨i, n, hall⟩ | hno
  · obtain ⟨x1, e1, e2, e3⟩ := hall st hn hal
    rw [h1, Prod.mk.injEq] at e1
    obtain ⟨rfl, -⟩ := e1
    have hmin : ¬ min n (N - i) = 0 := fun h => hne (by rw [e3, if_pos h])
    rw [if_neg hmin] at e3
    obtain ⟨f, comps, two, hd, hlen, hb, hb1⟩ := key i n e2 (by omega)
    obtain ⟨out, ho, ho1⟩ := harmonics_cut E info args st.1 st1.1 st.2 i n f comps two hd hb hb1
    obtain ⟨out', ho', hdat⟩ := harmonics_data E info args st.1 st.2 f comps two hd hb
    rw [ho] at ho'
    injection ho' with ho'
    subst ho'
    refine ⟨out, ho, fun g hg hg2 => ?_⟩
    obtain ⟨g1, f1, f2, f3⟩ := hall g hg (harmonics_aligned E info args st N sr d hal out ho (fun t ht =>
      hlen _ (by rw [← hdat]; exact List.mem_map_of_mem ht)) g hg2)
    rw [if_neg hmin] at f3
    refine ⟨g1, f1, ?_⟩
    rw [e3, ho1, f3, ← hg2, List.map_map]
    congr 1
    exact List.map_congr_left fun r hr => (f2 r hr).symm
  · exact absurd h1 (hno st hn hal hst st1)

include hE hcut hn hal h1 hne in
/-- **C187, partial, one component.**  The onset is at the same sample of all traces: the harmonics of the windows are the
windows of the harmonics, with the same header entries. -/
theorem C187_one_component_partial (c : Char) (B : ℕ → ℝ) (hcomp : args.components = [c]) (hc : c = 'R' ∨ c = 'Q' ∨ c = 'T')
    (hsc : args.scalars = none) (hm : args.method = "time".toList ∨ args.method = "freq".toList)
    (hu : Usable st.1 st.2 (ofComponent st.1 st.2 c) B N) :
    ∃ out, harmonics E info args st.1 st.2 = .ok out ∧ ∀ g : SState ℝ, g.2.Nodup → g.2.map g.1 = out →
      ∃ g1, trim2 trim (.sec a) (.sec b) (.key "onset") g = (g1, none) ∧
        harmonics E info args st1.1 st1.2 = .ok (g1.2.map g1.1) := by
  have hst : st.2 ≠ [] := by
    obtain ⟨f, hf, -⟩ := hu.first
    intro h
    rw [h] at hf
    simp at hf
  refine harmonics_window E info args trim hcut a b st st1 hn N sr d hal h1 hne hst fun i n hh hmin => ?_
  have hl := ofComponent_mem st.1 st.2 c
  have hoc := ofComponent_cut st.1 st1.1 st.2 i n hh c
  obtain ⟨f, hf, hb⟩ := body_one E hE args st.1 st.2 c B N hcomp hc hsc (hm.imp id fun h => ⟨h, by omega⟩) hu
  obtain ⟨f', hf', hb1⟩ := body_one E hE args st1.1 st.2 c B (min n (N - i)) hcomp hc hsc (hm.imp id fun h => ⟨h, hmin⟩)
    (by rw [hoc]; exact usable_cut st.1 st1.1 st.2 i n hh _ hl B N hu)
  rw [hf] at hf'
  injection hf' with hf'
  subst hf'
  refine ⟨st.1 f, [c], false, _, ?_, hb, ?_⟩
  · intro q hq
    obtain ⟨k, -, rfl⟩ := List.mem_map.1 hq
    simp
  · rw [hb1, hoc, byTime_cut st.1 st1.1 st.2 i n hh _ hl, hh f (List.mem_of_mem_head? (by rw [hf]; rfl))]
    congr 2
    rw [← range_cut]
    refine List.map_congr_left fun k _ => List.map_congr_left fun j hj => ?_
    rw [data_cut st.1 st1.1 st.2 i n hh _ (fun r hr => hl r ((byTime_mem _ _ _).1 hr)) N j (List.mem_range.1 hj)]

include hE hcut hn hal h1 hne in
/-- **C187, partial, two components.** -/
theorem C187_two_components_partial (c : Char) (B B' : ℕ → ℝ) (hcomp : args.components = [c, 'T']) (hc : c = 'R' ∨ c = 'Q')
    (hm : args.method = "time".toList ∨ args.method = "freq".toList)
    (hu : Usable st.1 st.2 (ofComponent st.1 st.2 c) B N) (hut : Usable st.1 st.2 (ofComponent st.1 st.2 'T') B' N)
    (hcount : (ofComponent st.1 st.2 c).length = (ofComponent st.1 st.2 'T').length) :
    ∃ out, harmonics E info args st.1 st.2 = .ok out ∧ ∀ g : SState ℝ, g.2.Nodup → g.2.map g.1 = out →
      ∃ g1, trim2 trim (.sec a) (.sec b) (.key "onset") g = (g1, none) ∧
        harmonics E info args st1.1 st1.2 = .ok (g1.2.map g1.1) := by
  have hst : st.2 ≠ [] := by
    obtain ⟨f, hf, -⟩ := hu.first
    intro h
    rw [h] at hf
    simp at hf
  refine harmonics_window E info args trim hcut a b st st1 hn N sr d hal h1 hne hst fun i n hh hmin => ?_
  have hl := ofComponent_mem st.1 st.2 c
  have hlT := ofComponent_mem st.1 st.2 'T'
  have hoc := ofComponent_cut st.1 st1.1 st.2 i n hh c
  have hoT := ofComponent_cut st.1 st1.1 st.2 i n hh 'T'
  obtain ⟨f, hf, hb⟩ := body_two E hE args st.1 st.2 c B N hcomp hc (hm.imp id fun h => ⟨h, by omega⟩) hu ⟨B', hut⟩ hcount
  obtain ⟨f', hf', hb1⟩ := body_two E hE args st1.1 st.2 c B (min n (N - i)) hcomp hc (hm.imp id fun h => ⟨h, hmin⟩)
    (by rw [hoc]; exact usable_cut st.1 st1.1 st.2 i n hh _ hl B N hu)
    ⟨B', by rw [hoT]; exact usable_cut st.1 st1.1 st.2 i n hh _ hlT B' N hut⟩ (by rw [hoc, hoT]; exact hcount)
  rw [hf] at hf'
  injection hf' with hf'
  subst hf'
  refine ⟨st.1 f, [c, 'T'], true, _, ?_, hb, ?_⟩
  · intro q hq
    obtain ⟨k, -, rfl⟩ := List.mem_map.1 hq
    simp
  · rw [hb1, hoc, hoT, byTime_cut st.1 st1.1 st.2 i n hh _ hl, byTime_cut st.1 st1.1 st.2 i n hh _ hlT,
      hh f (List.mem_of_mem_head? (by rw [hf]; rfl))]
    congr 2
    rw [← range_cut]
    refine List.map_congr_left fun k _ => List.map_congr_left fun j hj => ?_
    rw [data_cut st.1 st1.1 st.2 i n hh _ (fun r hr => hl r ((byTime_mem _ _ _).1 hr)) N j (List.mem_range.1 hj),
      data_cut st.1 st1.1 st.2 i n hh _ (fun r hr => hlT r ((byTime_mem _ _ _).1 hr)) N j (List.mem_range.1 hj)]

end main

/-! ### Cases -/

/-- The sample at the onset is cut out if the onset is `m` samples after the start. -/
theorem trim2_onset (st : SState ℝ) (hn : st.2.Nodup) (m : ℕ → ℕ)
    (hm : ∀ r ∈ st.2, (st.1 r).sr = 1 ∧ (st.1 r).ext.get "onset" = some (.time ((st.1 r).start + (m r : ℝ))) ∧
      m r < (st.1 r).npts) :
    trim2 nearestTrim (.sec 0) (.sec 0) (.key "onset") st =
      ((fun r => if r ∈ st.2 then samplesOf (m r) 1 (st.1 r) else st.1 r, st.2), none) := by
  have hc : ∀ r ∈ st.2, cutTrace nearestTrim (.sec 0) (.sec 0) (.key "onset") (st.1 r) = .ok (samplesOf (m r) 1 (st.1 r)) := by
    intro r hr
    obtain ⟨k1, k2, -⟩ := hm r hr
    simp only [cutTrace, seconds2utc, statsTime, k2, show ¬ "onset" = "starttime" by decide,
      show ¬ "onset" = "endtime" by decide, if_false, nearestTrim, add_zero, add_sub_cancel_left, k1, mul_one, lt_irrefl]
    have hfl : ⌊(m r : ℝ) + 1 / 2⌋ = (m r : ℤ) := by
      rw [Int.floor_eq_iff]
      push_cast
      constructor <;> linarith
    rw [hfl]
    congr 2
    omega
  have hfe := (forEachE_ok_iff (cutTrace nearestTrim (.sec 0) (.sec 0) (.key "onset")) st.1
    (fun r => if r ∈ st.2 then samplesOf (m r) 1 (st.1 r) else st.1 r) st.2 hn).2
    ⟨fun r hr => by simp only [if_pos hr]; exact hc r hr, fun r hr => by simp only [if_neg hr]⟩
  unfold trim2
  rw [hfe]
  simp only [Prod.mk.injEq, true_and, and_true]
  rw [List.filter_eq_self]
  intro r hr
  have := (hm r hr).2.2
  simp only [if_pos hr, npts_samplesOf, ne_eq, decide_not, Bool.not_eq_true', decide_eq_false_iff_not]
  omega

/-- Trace 0 of component Z with the onset at sample `m`, the others of component R with the onset at the second sample; the
value of the first sample is 0, of the second 1. -/
noncomputable def hwHeap (m : ℕ) : Heap ℝ := fun r =>
  { net := [], sta := [], loc := [], cha := if r = 0 then ['Z'] else ['R'], start := 10 * r, sr := 1,
    data := [0, 1],
    ext := [("event_time", .time 0), ("back_azimuth", .num 0), ("onset", .time (10 * r + (if r = 0 then m else 1 : ℕ)))] }

theorem hwUsable (m : ℕ) : Usable (hwHeap m) [0, 1] (ofComponent (hwHeap m) [0, 1] 'R') (fun _ => 0) 2 where
  nonempty := by show [1] ≠ []; simp
  time r _ := ⟨0, rfl⟩
  baz _ _ := rfl
  npts _ _ := rfl
  first := ⟨0, rfl, rfl⟩

theorem hwTrim (m : ℕ) (hm : m < 2) : trim2 nearestTrim (.sec 0) (.sec 0) (.key "onset") (hwHeap m, [0, 1]) =
    ((fun r => if r ∈ [0, 1] then samplesOf (if r = 0 then m else 1) 1 (hwHeap m r) else hwHeap m r, [0, 1]), none) :=
  trim2_onset (hwHeap m, [0, 1]) (by simp) (fun r => if r = 0 then m else 1) fun r _ => ⟨rfl, rfl, by
    show (if r = 0 then m else 1) < 2
    split <;> omega⟩

/-- C187 with the frequency method and a time window with one sample of two. -/
example : ∃ out, harmonics someLstsq [] { hlArgs with method := "freq".toList } (hwHeap 1) [0, 1] = .ok out ∧
    ∀ g : SState ℝ, g.2.Nodup → g.2.map g.1 = out →
      ∃ g1, trim2 nearestTrim (.sec 0) (.sec 0) (.key "onset") g = (g1, none) ∧
        harmonics someLstsq [] { hlArgs with method := "freq".toList }
          (fun r => if r ∈ [0, 1] then samplesOf (if r = 0 then 1 else 1) 1 (hwHeap 1 r) else hwHeap 1 r) [0, 1] =
          .ok (g1.2.map g1.1) :=
  C187_one_component_partial someLstsq someLstsq_ok [] _ nearestTrim nearestTrim_cuts 0 0 (hwHeap 1, [0, 1]) (_, [0, 1])
    (by simp) 2 1 1 (by
      intro r _
      refine ⟨rfl, rfl, _, rfl, ?_⟩
      show (10 * (r : ℝ) + ((if r = 0 then 1 else 1 : ℕ) : ℝ)) - 10 * r = 1
      simp) (hwTrim 1 (by norm_num)) (by simp) 'R' (fun _ => 0) rfl (Or.inl rfl) rfl (Or.inr rfl) (hwUsable 1)

/-- C187 with both components: the onset is at the first sample. -/
example : ∃ out, harmonics someLstsq [] hpArgs (fun r => (hqHeap r).put "onset" (.time 0)) hqStream = .ok out ∧
    ∀ g : SState ℝ, g.2.Nodup → g.2.map g.1 = out →
      ∃ g1, trim2 nearestTrim (.sec 0) (.sec 0) (.key "onset") g = (g1, none) ∧
        harmonics someLstsq [] hpArgs (fun r => if r ∈ hqStream then samplesOf 0 1 ((hqHeap r).put "onset" (.time 0))
          else (hqHeap r).put "onset" (.time 0)) hqStream = .ok (g1.2.map g1.1) := by
  have hU : ∀ l : List ℕ, l ≠ [] → Usable (fun r => (hqHeap r).put "onset" (.time 0)) hqStream l
      (fun r => hpBaz (hqEvent r)) 2 := fun l hl =>
    ⟨hl, fun r _ => ⟨(hqEvent r : ℝ), rfl⟩, fun _ _ => rfl, fun _ _ => rfl, 10, rfl, rfl⟩
  have hR : ofComponent (fun r => (hqHeap r).put "onset" (.time 0)) hqStream 'R' = [2, 3, 1, 4, 5] := rfl
  have hT : ofComponent (fun r => (hqHeap r).put "onset" (.time 0)) hqStream 'T' = [10, 6, 7, 8, 9] := rfl
  refine C187_two_components_partial someLstsq someLstsq_ok [] hpArgs nearestTrim nearestTrim_cuts 0 0
    (fun r => (hqHeap r).put "onset" (.time 0), hqStream) (_, hqStream) (by unfold hqStream; decide) 2 1 0
    (fun r _ => ⟨rfl, rfl, 0, rfl, sub_zero _⟩)
    (trim2_onset _ (by unfold hqStream; decide) (fun _ => 0) fun r _ => ⟨rfl, ?_, by show 0 < 2; norm_num⟩)
    (by unfold hqStream; simp) 'R' _ _ rfl (Or.inl rfl) (Or.inl rfl) (hU _ (by rw [hR]; simp)) (hU _ (by rw [hT]; simp)) rfl
  show some (Val.time (0 : ℝ)) = some (.time (0 + ((0 : ℕ) : ℝ)))
  simp

/-- **C187 is false of the code.**  The first trace is of another component and has its onset at the first sample, the onset
of the trace which is decomposed is at the second: the window of the harmonics has the first sample, the harmonics of the
window have the second. -/
theorem C187_counterexample (E : LstsqEnv) (hE : LstsqOk E) (info : Str) :
    ∃ (h : Heap ℝ) (st1 g1 : SState ℝ) (out outw : List (Trace ℝ)),
      trim2 nearestTrim (.sec 0) (.sec 0) (.key "onset") (h, [0, 1]) = (st1, none) ∧
      harmonics E info hlArgs h [0, 1] = .ok out ∧ harmonics E info hlArgs st1.1 st1.2 = .ok outw ∧
      trim2 nearestTrim (.sec 0) (.sec 0) (.key "onset") (fun r => out.getD r (h 0), List.range out.length) = (g1, none) ∧
      g1.2.map (fun r => (g1.1 r).data) ≠ outw.map fun t => t.data := by
  set h1 : Heap ℝ := fun r => if r ∈ [0, 1] then samplesOf (if r = 0 then 0 else 1) 1 (hwHeap 0 r) else hwHeap 0 r with hh1
  have ht := hwTrim 0 (by norm_num)
  rw [← hh1] at ht
  have hu1 : Usable h1 [0, 1] (ofComponent h1 [0, 1] 'R') (fun _ => 0) 1 :=
    ⟨by decide, by
      intro r hr
      have : r ∈ [0, 1] := List.mem_of_mem_filter hr
      exact ⟨0, by rw [hh1]; simp only [if_pos this]; rfl⟩, by
      intro r hr
      have : r ∈ [0, 1] := List.mem_of_mem_filter hr
      rw [hh1]; simp only [if_pos this]; rfl, by
      intro r hr
      have : r ∈ [0, 1] := List.mem_of_mem_filter hr
      rw [hh1]; simp only [if_pos this]
      by_cases h0 : r = 0 <;> simp [h0, samplesOf, hwHeap], 0, rfl, rfl⟩
  obtain ⟨f, hf, hb⟩ := body_one E hE hlArgs (hwHeap 0) [0, 1] 'R' (fun _ => 0) 2 rfl (Or.inl rfl) rfl (Or.inl rfl)
    (hwUsable 0)
  obtain ⟨f', hf', hb1⟩ := body_one E hE hlArgs h1 [0, 1] 'R' (fun _ => 0) 1 rfl (Or.inl rfl) rfl (Or.inl rfl) hu1
  obtain ⟨out, ho, hd⟩ := harmonics_data E info hlArgs (hwHeap 0) [0, 1] _ _ _ _ hb
  obtain ⟨outw, how, hdw⟩ := harmonics_data E info hlArgs h1 [0, 1] _ _ _ _ hb1
  obtain ⟨f0, hf0, -, -, hall⟩ := C76_layout_partial E info hlArgs (hwHeap 0) [0, 1] out ho
  injection hf0 with hf0
  subst hf0
  have hlen : out.length = 5 := by
    have := congrArg List.length hd
    simpa using this
  have hdat : ∀ r < out.length, (out.getD r (hwHeap 0 0)).data = (List.range 2).map fun (i : ℕ) =>
      (E.real ((byTime (hwHeap 0) (ofComponent (hwHeap 0) [0, 1] 'R')).map fun _ => rowOne hlArgs.azim 0)
          ((byTime (hwHeap 0) (ofComponent (hwHeap 0) [0, 1] 'R')).map fun r => (hwHeap 0 r).data.getD i 0)).getD r 0 := by
    intro r hr
    have := congrArg (fun l => l[r]?) hd
    simp only [List.getElem?_map, List.getElem?_range (by omega : r < 5), List.getElem?_eq_getElem hr, Option.map_some,
      Option.some.injEq] at this
    rw [List.getD_eq_getElem _ _ hr, this]
  have htg := trim2_onset (fun r => out.getD r (hwHeap 0 0), List.range out.length) List.nodup_range (fun _ => 0) (by
    intro r hr
    have hr' := List.mem_range.1 hr
    have hk : out[r]? = some (out.getD r (hwHeap 0 0)) := by
      rw [List.getElem?_eq_getElem hr', List.getD_eq_getElem _ _ hr']
    obtain ⟨-, -, e1, e2, -, -, e3⟩ := hall r _ hk
    refine ⟨e2, (e3 "onset").trans ?_, ?_⟩
    · rw [e1]
      show some (Val.time (10 * ((0 : ℕ) : ℝ) + ((0 : ℕ) : ℝ))) = _
      rfl
    · show 0 < (out.getD r (hwHeap 0 0)).data.length
      rw [hdat r hr']
      simp)
  refine ⟨hwHeap 0, (h1, [0, 1]), _, out, outw, ht, ho, how, htg, ?_⟩
  rw [hdw]
  intro he
  have hk : ∀ k < 5, (E.real [rowOne 0 0] [0]).getD k 0 = (E.real [rowOne 0 0] [1]).getD k 0 := by
    intro k hk
    have := congrArg (fun l => l[k]?) he
    simp only [List.getElem?_map, hlen, List.getElem?_range hk, Option.map_some, Option.some.injEq,
      if_pos (List.mem_range.2 hk)] at this
    have e := hdat k (by omega)
    replace this : ((out.getD k (hwHeap 0 0)).data.drop 0).take 1 = _ := this
    rw [e] at this
    exact (List.cons.inj this).1
  have e1 := exact_real E hE 0
  have e2 := exact_real E hE 1
  rw [hk 0 (by norm_num), hk 1 (by norm_num), hk 3 (by norm_num), e2] at e1
  norm_num at e1

end Verif.Props
