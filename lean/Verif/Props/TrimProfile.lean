import Verif.Props.TrimStack
import Verif.Props.ProfileHeaders

/-!
# Windows of a profile and profiles of windows (C186)

The property expected: a window relative to the onset can be cut out before or after the calculation of a profile.  It is
false of the code for the same reason as for stacks (C185): traces are added sample by sample whatever their onsets are
(`C186_counterexample`).  With the onset at the same sample of all traces it holds (`C186_commutes_partial`).
-/

set_option linter.unusedSimpArgs false
set_option linter.unusedSectionVars false

namespace Verif.Props
open Verif.Py Verif.Model Verif.Model.Profile Verif.Spec

section
variable {K : Type} [Field K] [LinearOrder K] [IsStrictOrderedRing K] [FloorRing K]
variable (within : K × K → List (K × K) → Bool) (boxes : List (Box K)) (crs crs1 : Bool)

theorem cut_getD (x : List K) (i n j : ℕ) (hj : j < n) : ((x.drop i).take n).getD j 0 = x.getD (i + j) 0 := by
  rw [List.getD_eq_getElem?_getD, List.getD_eq_getElem?_getD, List.getElem?_take, if_pos hj, List.getElem?_drop]

/-- **C186, partial.**  The onset is at the same sample of all traces: the window of the profile has the same traces (samples,
headers, onset relative to the start) as the profile of the windows. -/
theorem C186_commutes_partial (trim : Trace K → TArg K → TArg K → Res (Trace K)) (hcut : CutsSamples trim) (a b : K)
    (h : Heap K) (s : List ℕ) (st1 : SState K) (hn : s.Nodup) (N : ℕ) (sr d : K) (hal : Aligned N sr d (h, s))
    (h1 : trim2 trim (.sec a) (.sec b) (.key "onset") (h, s) = (st1, none)) (hne : st1.2 ≠ [])
    (next next1 : ℕ) (hs : ∀ r ∈ s, r < next) (hs1 : ∀ r ∈ s, r < next1) (h' hw : Heap K) (l lw : List ℕ)
    (hprof : profile within boxes crs h s next = .ok (h', l))
    (hprof1 : profile within boxes crs1 st1.1 st1.2 next1 = .ok (hw, lw)) :
    ∃ g, trim2 trim (.sec a) (.sec b) (.key "onset") (h', l) = (g, none) ∧ g.2 = l ∧
      (∀ q ∈ l, ∃ q1 ∈ lw, SameRelative (g.1 q) (hw q1)) ∧ ∀ q1 ∈ lw, ∃ q ∈ l, SameRelative (g.1 q) (hw q1) := by
  have hsne : s ≠ [] := by
    rintro rfl
    obtain ⟨e, -⟩ := C49_trim2 trim _ _ _ _ _ hn h1
    exact hne (by rw [e]; rfl)
  rcases trim2_aligned trim hcut a b N sr d with ⟨i, n, hall⟩ | hno
  swap
  · exact absurd h1 (hno (h, s) hn hal hsne st1)
  obtain ⟨x1, e1, e2, e3⟩ := hall (h, s) hn hal
  rw [h1, Prod.mk.injEq] at e1
  obtain ⟨rfl, -⟩ := e1
  have hmin : ¬ min n (N - i) = 0 := fun h => hne (by rw [e3, if_pos h])
  rw [if_neg hmin] at e3
  simp only at e2 e3
  rw [e3] at hprof1
  obtain ⟨p1, p2, p3, key, p4, p5, p6⟩ := profile_ok within boxes crs h h' s l next hs hprof
  obtain ⟨w1, w2, w3, keyw, w4, w5, w6⟩ := profile_ok within boxes crs1 st1.1 hw s lw next1 hs1 hprof1
  have hbinOf : ∀ r ∈ s, binOf (boxSets within boxes) (st1.1 r) = binOf (boxSets within boxes) (h r) := by
    intro r hr
    rw [e2 r hr]
    rfl
  have hbin : ∀ k, binMembers (boxSets within boxes) st1.1 s k = binMembers (boxSets within boxes) h s k := by
    intro k
    unfold binMembers
    exact List.filter_congr fun r hr => by rw [hbinOf r hr]
  have hmem : ∀ q ∈ l, ∃ r, (binMembers (boxSets within boxes) h s (key q)).head? = some r ∧ r ∈ s := by
    intro q hq
    obtain ⟨r, hr, hr2⟩ := (p5 (key q)).1 ⟨q, hq, rfl⟩
    have : r ∈ binMembers (boxSets within boxes) h s (key q) := List.mem_filter.2 ⟨hr, by simpa using hr2⟩
    cases hb : binMembers (boxSets within boxes) h s (key q) with
    | nil => rw [hb] at this; simp at this
    | cons r0 rest =>
      have h0 : r0 ∈ binMembers (boxSets within boxes) h s (key q) := by rw [hb]; exact List.mem_cons_self
      exact ⟨r0, rfl, List.mem_of_mem_filter h0⟩
  have halp : Aligned N sr d (h', l) := by
    intro q hq
    obtain ⟨r, hr, hrs⟩ := hmem q hq
    obtain ⟨a1, a2, a3, a4, a5, a6, a7⟩ := p6 q hq
    obtain ⟨c1, c2, o, c3, c4⟩ := hal r hrs
    refine ⟨(a7 N fun r hr => (hal r (List.mem_of_mem_filter hr)).1).1, ((a6 r hr).1).trans c2, _, (a6 r hr).2 o c3, ?_⟩
    simp only at a3 c4 ⊢
    rw [a3, sub_zero, c4]
  obtain ⟨g, g1, g2, g3⟩ := hall (h', l) p1 halp
  rw [if_neg hmin] at g3
  simp only at g2 g3
  have main : ∀ q ∈ l, ∀ q1 ∈ lw, key q = keyw q1 → SameRelative (g.1 q) (hw q1) := by
    intro q hq q1 hq1 hk
    obtain ⟨r, hr, hrs⟩ := hmem q hq
    obtain ⟨a1, a2, a3, a4, a5, a6, a7⟩ := p6 q hq
    obtain ⟨b1, b2, b3, b4, b5, b6, b7⟩ := w6 q1 hq1
    rw [← hk, hbin] at b5 b6 b7
    obtain ⟨c1, c2, o, c3, c4⟩ := hal r hrs
    obtain ⟨k', r', box, pr, v1, v2, v3, v4, v5, v6, v7, v8⟩ := C90_headers within boxes crs h h' s l next hs hprof q hq
    obtain ⟨k'', r'', box', pr', u1, u2, u3, u4, u5, u6, u7, u8⟩ :=
      C90_headers within boxes crs1 st1.1 hw s lw next1 hs1 hprof1 q1 hq1
    have hkq : k' = key q := v1.unique ⟨a1, by rw [a2]; rfl⟩
    have hkq1 : k'' = key q := u1.unique ⟨by rw [hk]; exact b1, by rw [hk, b2]; rfl⟩
    rw [hkq, hr, Option.some.injEq] at v2
    rw [hkq1, hbin, hr, Option.some.injEq] at u2
    subst v2 u2
    have hbox : boxOf within boxes (st1.1 r) = boxOf within boxes (h r) := by rw [e2 r hrs]; rfl
    rw [hbox, v3, Option.some.injEq] at u3
    subst u3
    rw [v4, Option.some.injEq] at u4
    subst u4
    have hrow : ∀ r ∈ binMembers (boxSets within boxes) h s (key q), (h r).data.length = N :=
      fun r hr => (hal r (List.mem_of_mem_filter hr)).1
    obtain ⟨l1, l2⟩ := a7 N hrow
    obtain ⟨m1, m2⟩ := b7 (min n (N - i)) (fun r hr => by
      rw [e2 r (List.mem_of_mem_filter hr)]
      show (((h r).data.drop i).take n).length = _
      rw [List.length_take, List.length_drop, hrow r hr])
    rw [g2 q hq]
    have ho1 := (a6 r hr).2 o c3
    have ho2 := (b6 r hr).2 o (by rw [e2 r hrs]; exact c3)
    refine ⟨v5.trans u5.symm, v6.trans u6.symm, v7.trans u7.symm, ?_, ?_, ?_, ⟨_, _, ho1, ho2, ?_⟩, ?_⟩
    · show (h' q).cha = _
      rw [a2, b2, hk]
    · show (h' q).sr = _
      rw [(a6 r hr).1, (b6 r hr).1, e2 r hrs]
      rfl
    · show (((h' q).data.drop i).take n) = (hw q1).data
      have hl1 : (((h' q).data.drop i).take n).length = min n (N - i) := by
        rw [List.length_take, List.length_drop, l1]
      refine List.ext_getElem (by rw [hl1, m1]) fun j hj1 hj2 => ?_
      have hj : j < min n (N - i) := by rw [← hl1]; exact hj1
      have e : ∀ (x : List K) (hx : j < x.length), x[j] = x.getD j 0 := fun x hx => by simp [List.getD_eq_getElem?_getD, hx]
      rw [e _ hj1, e _ hj2, cut_getD _ _ _ _ (by omega), l2 (i + j) (by omega), m2 j hj]
      unfold meanAt
      simp only [List.map_map, List.length_map]
      congr 2
      refine List.map_congr_left fun r hr => ?_
      simp only [Function.comp]
      rw [e2 r (List.mem_of_mem_filter hr)]
      exact (cut_getD _ _ _ _ (by omega)).symm
    · show o - (h r).start - ((h' q).start + (i : K) * (h' q).delta) = o - (st1.1 r).start - (hw q1).start
      rw [a3, b3, e2 r hrs]
      show _ = o - ((h r).start + (i : K) * (h r).delta) - 0
      unfold Trace.delta
      rw [(a6 r hr).1]
      ring
    · intro k hko
      show (h' q).ext.get k = (hw q1).ext.get k
      by_cases hkn : k = "num"
      · subst hkn; rw [a5, b5]
      · rw [v8 k hkn, u8 k hkn, e2 r hrs]
        unfold profileEntry
        rw [if_neg hko, if_neg hko]
        rfl
  refine ⟨g, g1, g3, fun q hq => ?_, fun q1 hq1 => ?_⟩
  · obtain ⟨r, hr, hr2⟩ := (p5 (key q)).1 ⟨q, hq, rfl⟩
    obtain ⟨q1, hq1, hk⟩ := (w5 (key q)).2 ⟨r, hr, by rw [hbinOf r hr, hr2]⟩
    exact ⟨q1, hq1, main q hq q1 hq1 hk.symm⟩
  · obtain ⟨r, hr, hr2⟩ := (w5 (keyw q1)).1 ⟨q1, hq1, rfl⟩
    obtain ⟨q, hq, hk⟩ := (p5 (keyw q1)).2 ⟨r, hr, by rw [← hbinOf r hr, hr2]⟩
    exact ⟨q, hq, main q hq q1 hq1 hk⟩

end

/-- The traces of `spikeHeap` with a piercing point. -/
def spikeHeapP (k0 k1 : ℕ) : Heap ℚ := fun r =>
  { spikeHeap k0 k1 r with ext := (spikeHeap k0 k1 r).ext ++ [("pp_latitude", .num 0), ("pp_longitude", .num 0)] }

/-- A profile of one box. -/
def spikeBox : Box ℚ := ⟨[], 10, 5, (0, 0), some ⟨(0, 0), 0, 10, 1⟩⟩

/-- Profile before and after cutting out the first two samples from the onset on; samples of the traces. -/
def spikeProfiles (k0 k1 : ℕ) : List (List ℚ) × List (List ℚ) :=
  let x := trim2 nearestTrim (.sec 0) (.sec 1) (.key "onset") (spikeHeapP k0 k1, [0, 1])
  let y := match profile (fun _ _ => true) [spikeBox] false (spikeHeapP k0 k1) [0, 1] 2 with
    | .ok p => let g := trim2 nearestTrim (.sec 0) (.sec 1) (.key "onset") p
               g.1.2.map fun q => (g.1.1 q).data
    | .error _ => []
  let z := match profile (fun _ _ => true) [spikeBox] false x.1.1 x.1.2 2 with
    | .ok p => p.2.map fun q => (p.1 q).data
    | .error _ => []
  (y, z)

/-- C186: two traces with the onset at the same sample. -/
example : spikeProfiles 1 1 = ([[1, 0]], [[1, 0]]) := by decide +kernel

/-- C186 applies. -/
example : ∃ st1 p w, trim2 nearestTrim (.sec 0) (.sec 1) (.key "onset") (spikeHeapP 1 1, [0, 1]) = (st1, none) ∧
    profile (fun _ _ => true) [spikeBox] false (spikeHeapP 1 1) [0, 1] 2 = .ok p ∧
    profile (fun _ _ => true) [spikeBox] false st1.1 st1.2 2 = .ok w ∧
    ∃ g, trim2 nearestTrim (.sec 0) (.sec 1) (.key "onset") p = (g, none) ∧ g.2 = p.2 ∧
      ∀ q ∈ p.2, ∃ q1 ∈ w.2, SameRelative (g.1 q) (w.1 q1) := by
  let x := trim2 nearestTrim (.sec 0) (.sec 1) (.key "onset") (spikeHeapP 1 1, [0, 1])
  have ex : x.2 = none ∧ x.1.2 ≠ [] := by decide +kernel
  cases h1 : profile (fun _ _ => true) [spikeBox] false (spikeHeapP 1 1) [0, 1] 2 with
  | error e =>
    have : (match profile (fun _ _ => true) [spikeBox] false (spikeHeapP 1 1) [0, 1] 2 with
      | .ok _ => true | .error _ => false) = true := by decide +kernel
    rw [h1] at this
    simp at this
  | ok p =>
    cases h2 : profile (fun _ _ => true) [spikeBox] false x.1.1 x.1.2 2 with
    | error e =>
      have : (match profile (fun _ _ => true) [spikeBox] false x.1.1 x.1.2 2 with
        | .ok _ => true | .error _ => false) = true := by decide +kernel
      rw [h2] at this
      simp at this
    | ok w =>
      obtain ⟨g, g1, g2, g3, -⟩ := C186_commutes_partial (fun _ _ => true) [spikeBox] false false nearestTrim nearestTrim_cuts
        0 1 (spikeHeapP 1 1) [0, 1] x.1 (by decide) 4 1 1 (by
          intro r hr
          refine ⟨rfl, rfl, 10 * r + ((if r = 0 then 1 else 1 : ℕ) : ℚ), rfl, ?_⟩
          simp [spikeHeapP, spikeHeap]) (Prod.ext rfl ex.1) ex.2 2 2 (by decide) (by decide) p.1 w.1 p.2 w.2 h1 h2
      exact ⟨x.1, p, w, Prod.ext rfl ex.1, rfl, h2, g, g1, g2, g3⟩

/-- **C186 is false of the code.**  The onset after one and after two samples: in the window of the profile the amplitude at the
onset is 1/2, in the profile of the windows it is 1. -/
theorem C186_counterexample : ∃ (h : Heap ℚ) (st1 : SState ℚ) (p w : Heap ℚ × List ℕ) (g : SState ℚ),
    trim2 nearestTrim (.sec 0) (.sec 1) (.key "onset") (h, [0, 1]) = (st1, none) ∧
    profile (fun _ _ => true) [spikeBox] false h [0, 1] 2 = .ok p ∧
    profile (fun _ _ => true) [spikeBox] false st1.1 st1.2 2 = .ok w ∧
    trim2 nearestTrim (.sec 0) (.sec 1) (.key "onset") p = (g, none) ∧
    g.2.map (fun q => (g.1 q).data) = [[1 / 2, 1 / 2]] ∧ w.2.map (fun q => (w.1 q).data) = [[1, 0]] := by
  let x := trim2 nearestTrim (.sec 0) (.sec 1) (.key "onset") (spikeHeapP 1 2, [0, 1])
  have ex : x.2 = none := by decide +kernel
  have key : spikeProfiles 1 2 = ([[1 / 2, 1 / 2]], [[1, 0]]) := by decide +kernel
  unfold spikeProfiles at key
  rw [Prod.mk.injEq] at key
  obtain ⟨k1, k2⟩ := key
  cases h1 : profile (fun _ _ => true) [spikeBox] false (spikeHeapP 1 2) [0, 1] 2 with
  | error e => rw [h1] at k1; simp at k1
  | ok p =>
    cases h2 : profile (fun _ _ => true) [spikeBox] false x.1.1 x.1.2 2 with
    | error e =>
      replace k2 : (match profile (fun _ _ => true) [spikeBox] false x.1.1 x.1.2 2 with
        | .ok p => p.2.map fun q => (p.1 q).data
        | .error _ => []) = [[1, 0]] := k2
      rw [h2] at k2
      simp at k2
    | ok w =>
      replace k2 : (match profile (fun _ _ => true) [spikeBox] false x.1.1 x.1.2 2 with
        | .ok p => p.2.map fun q => (p.1 q).data
        | .error _ => []) = [[1, 0]] := k2
      rw [h2] at k2
      rw [h1] at k1
      have hg : (trim2 nearestTrim (.sec 0) (.sec 1) (.key "onset") p).2 = none := by
        have : (match profile (fun _ _ => true) [spikeBox] false (spikeHeapP 1 2) [0, 1] 2 with
          | .ok p => decide ((trim2 nearestTrim (.sec 0) (.sec 1) (.key "onset") p).2 = none)
          | .error _ => false) = true := by decide +kernel
        rw [h1] at this
        simpa using this
      exact ⟨spikeHeapP 1 2, x.1, p, w, _, Prod.ext rfl ex, h1, h2, Prod.ext rfl hg, k1, k2⟩

end Verif.Props
