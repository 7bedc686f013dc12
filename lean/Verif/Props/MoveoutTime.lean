import Verif.Props.Moveout

/-!
# Moveout of samples: C33, C36
-/

set_option linter.unusedSimpArgs false
set_option linter.unusedSectionVars false

namespace Verif.Props
open Verif.Py Verif.Model.Simple Verif.Spec

section time
variable {K : Type} [Field K] [LinearOrder K] [IsStrictOrderedRing K]

theorem find_inside (find : List K → K → Nat) (hf : FindSpec find) (xp : List K) (x : K)
    (hne : xp ≠ []) (h0 : xp.getD 0 0 ≤ x) (h1 : x < xp.getD (xp.length - 1) 0) :
    find xp x + 1 < xp.length ∧ xp.getD (find xp x) 0 ≤ x ∧ x < xp.getD (find xp x + 1) 0 := by
  obtain ⟨a, b, c⟩ := hf xp x hne h0 h1.le
  have : find xp x + 1 < xp.length := by
    by_contra hcon
    have he : find xp x = xp.length - 1 := by omega
    rw [he] at b
    exact absurd (lt_of_le_of_lt b h1) (lt_irrefl _)
  exact ⟨this, b, c this⟩

theorem interp1_inside (find : List K → K → Nat) (hf : FindSpec find) (xp fp : List K)
    (left right : Option K) (x : K) (hne : xp ≠ []) (h0 : xp.getD 0 0 ≤ x)
    (h1 : x < xp.getD (xp.length - 1) 0) :
    interp1 find xp fp left right x =
      (fp.getD (find xp x + 1) 0 - fp.getD (find xp x) 0) /
        (xp.getD (find xp x + 1) 0 - xp.getD (find xp x) 0) * (x - xp.getD (find xp x) 0)
        + fp.getD (find xp x) 0 := by
  obtain ⟨a, b, c⟩ := find_inside find hf xp x hne h0 h1
  unfold interp1
  rw [if_neg (not_lt.2 h0), if_neg (not_lt.2 h1.le)]
  simp only
  rw [if_neg (by omega)]
  split
  · rename_i he; rw [he]; simp
  · rfl

theorem interp1_last (find : List K → K → Nat) (hf : FindSpec find) (xp fp : List K)
    (left : Option K) (x : K) (hne : xp ≠ []) (hs : Increasing xp)
    (h1 : xp.getD (xp.length - 1) 0 ≤ x) :
    interp1 find xp fp left none x = fp.getD (xp.length - 1) 0 := by
  have hpos : 0 < xp.length := List.length_pos_iff.2 hne
  have h0 : xp.getD 0 0 ≤ x := (hs 0 (xp.length - 1) (by omega) (by omega)).trans h1
  unfold interp1
  rw [if_neg (not_lt.2 h0)]
  split
  · rfl
  · rename_i h2
    have hx : x = xp.getD (xp.length - 1) 0 := le_antisymm (not_lt.1 h2) h1
    obtain ⟨a, b, c⟩ := hf xp x hne h0 (not_lt.1 h2)
    have he : find xp x + 1 = xp.length := by
      by_contra hcon
      have hlt := c (by omega)
      have := hs (find xp x + 1) (xp.length - 1) (by omega) (by omega)
      rw [hx] at hlt
      rw [hx] at this
      exact absurd (lt_of_lt_of_le hlt this) (lt_irrefl _)
    simp only [he, if_true]
    congr 1; omega

theorem interp1_left (find : List K → K → Nat) (xp fp : List K)
    (left right : Option K) (x : K) (h0 : xp.getD 0 0 ≤ x) :
    interp1 find xp fp left right x = interp1 find xp fp none right x := by
  unfold interp1
  rw [if_neg (not_lt.2 h0), if_neg (not_lt.2 h0)]

/-- Interpolating a table by itself changes nothing inside of the table. -/
theorem interp1_self (find : List K → K → Nat) (hf : FindSpec find) (T : List K)
    (left : Option K) (x : K) (hne : T ≠ []) (hs : Increasing T) (h0 : T.getD 0 0 ≤ x)
    (h1 : x ≤ T.getD (T.length - 1) 0) : interp1 find T T left none x = x := by
  rcases lt_or_eq_of_le h1 with h1 | h1
  · obtain ⟨a, b, c⟩ := find_inside find hf T x hne h0 h1
    rw [interp1_inside find hf T T left none x hne h0 h1]
    have : T.getD (find T x + 1) 0 - T.getD (find T x) 0 ≠ 0 := by
      have := lt_of_le_of_lt b c
      exact (sub_pos.2 this).ne'
    rw [div_self this]; ring
  · rw [interp1_last find hf T T left x hne hs h1.ge, ← h1]

theorem interp1_ge (find : List K → K → Nat) (hf : FindSpec find) (xp fp : List K)
    (y : K) (hne : xp ≠ []) (hs : Increasing xp) (hfs : Increasing fp)
    (hlen : xp.length = fp.length) (i : Nat) (hi : i < xp.length) (hy : xp.getD i 0 ≤ y) :
    fp.getD i 0 ≤ interp1 find xp fp none none y := by
  have hpos : 0 < xp.length := List.length_pos_iff.2 hne
  have h0 : xp.getD 0 0 ≤ y := (hs 0 i (by omega) hi).trans hy
  rcases lt_or_ge y (xp.getD (xp.length - 1) 0) with h1 | h1
  · obtain ⟨a, b, c⟩ := find_inside find hf xp y hne h0 h1
    rw [interp1_inside find hf xp fp none none y hne h0 h1]
    have hik : i ≤ find xp y := by
      by_contra hcon
      have := hs (find xp y + 1) i (by omega) hi
      linarith
    have h2 := hfs i (find xp y) hik (by omega)
    have h3 := hfs (find xp y) (find xp y + 1) (by omega) (by omega)
    have h4 : 0 ≤ (fp.getD (find xp y + 1) 0 - fp.getD (find xp y) 0) /
        (xp.getD (find xp y + 1) 0 - xp.getD (find xp y) 0) * (y - xp.getD (find xp y) 0) := by
      refine mul_nonneg (div_nonneg ?_ ?_) ?_ <;> linarith
    linarith
  · rw [interp1_last find hf xp fp none y hne hs h1]
    exact hfs i (xp.length - 1) (by omega) (by omega)

/-- Tables in which different entries stay different give a strictly monotone interpolation. -/
theorem interp1_strict (find : List K → K → Nat) (hf : FindSpec find) (xp fp : List K)
    (hne : xp ≠ []) (hs : Increasing xp) (hfs : Increasing fp)
    (hlen : xp.length = fp.length)
    (hcomp : ∀ i j, i < xp.length → j < xp.length → xp.getD i 0 < xp.getD j 0 →
      fp.getD i 0 < fp.getD j 0)
    (x y : K) (h0 : xp.getD 0 0 ≤ x) (h1 : x < xp.getD (xp.length - 1) 0) (hxy : x < y) :
    interp1 find xp fp none none x < interp1 find xp fp none none y := by
  obtain ⟨a, b, c⟩ := find_inside find hf xp x hne h0 h1
  have hlt := lt_of_le_of_lt b c
  have hflt := hcomp _ _ (by omega) a hlt
  rcases lt_or_ge y (xp.getD (find xp x + 1) 0) with hy | hy
  · rw [interp1_chord find hf xp fp none none hs (find xp x) a x b c,
      interp1_chord find hf xp fp none none hs (find xp x) a y (b.trans hxy.le) hy]
    have hpos : 0 < (fp.getD (find xp x + 1) 0 - fp.getD (find xp x) 0) /
        (xp.getD (find xp x + 1) 0 - xp.getD (find xp x) 0) :=
      div_pos (sub_pos.2 hflt) (sub_pos.2 hlt)
    have := mul_lt_mul_of_pos_left (sub_lt_sub_right hxy (xp.getD (find xp x) 0)) hpos
    linarith
  · refine lt_of_lt_of_le ?_ (interp1_ge find hf xp fp y hne hs hfs hlen (find xp x + 1) a hy)
    rw [interp1_inside find hf xp fp none none x hne h0 h1]
    have hd : 0 < xp.getD (find xp x + 1) 0 - xp.getD (find xp x) 0 := sub_pos.2 hlt
    have : (fp.getD (find xp x + 1) 0 - fp.getD (find xp x) 0) /
        (xp.getD (find xp x + 1) 0 - xp.getD (find xp x) 0) * (x - xp.getD (find xp x) 0)
        < fp.getD (find xp x + 1) 0 - fp.getD (find xp x) 0 := by
      rw [div_mul_eq_mul_div, div_lt_iff₀ hd]
      exact mul_lt_mul_of_pos_left (by linarith) (sub_pos.2 hflt)
    linarith

/-- Time of sample `i` relative to the onset. -/
def sampleTime (tr : Trace K) (onset : K) (i : Nat) : K := tr.start + (i : K) / tr.sr - onset

theorem getD_map_range {n k : Nat} (f : Nat → K) (h : k < n) :
    ((List.range n).map f).getD k 0 = f k := by
  rw [List.getD_eq_getElem _ _ (by simpa using h)]; simp

variable [FloorRing K]

/-- Core of C33 and C36: a sample whose time is stretched to the time of sample `k'` is moved there. -/
theorem moved (find : List K → K → Nat) (hf : FindSpec find) (tr : Trace K) (onset : K)
    (phase : Str) (t0 t1 d : List K) (hsr : 0 < tr.sr) (hstart : tr.start ≤ onset)
    (hend : onset ≤ tr.endtime) (hphase : isSMultiple phase = false)
    (h : moveoutData find tr onset phase t0 t1 = .ok d)
    (hs0 : t0.Pairwise (· ≤ ·)) (hs1 : t1.Pairwise (· ≤ ·))
    (hcomp : ∀ i j, i < t0.length → j < t0.length → t0.getD i 0 < t0.getD j 0 →
      t1.getD i 0 < t1.getD j 0)
    (hfirst : ∀ i : Nat, (onset - tr.start) * tr.sr < (i : K) + 1 →
      t0.getD 0 0 ≤ sampleTime tr onset i)
    (k k' : Nat) (hk : k < tr.data.length) (hk' : k' < tr.data.length)
    (hik : (if t1.getD (t1.length - 1) 0 < t0.getD (t0.length - 1) 0 then index0 tr onset + 1
      else index0 tr onset) ≤ k)
    (hik' : (if t1.getD (t1.length - 1) 0 < t0.getD (t0.length - 1) 0 then index0 tr onset + 1
      else index0 tr onset) ≤ k')
    (hlt : sampleTime tr onset k < t0.getD (t0.length - 1) 0)
    (hval : interp1 find t0 t1 none none (sampleTime tr onset k) = sampleTime tr onset k') :
    d[k']? = tr.data[k]? := by
  obtain ⟨b0, b1, -⟩ := index0_bounds tr onset hsr hstart hend
  have b1 := b1 (by unfold Trace.npts; omega)
  unfold Trace.npts at b1
  unfold moveoutData at h
  rw [hphase, if_neg (by simp)] at h
  obtain ⟨a, b, ha, hb, p1, p2, p3, p4, hd⟩ := moveoutP_ok find tr onset t0 t1 d h
  have hn0 : 0 < t0.length := List.length_pos_iff.2 p2
  have getlast : ∀ (l : List K) (x : K), 0 < l.length → getItem l (-1) = .ok x →
      l.getD (l.length - 1) 0 = x := by
    intro l x hl hx
    unfold getItem at hx
    simp only [show ((-1 : Int) < 0) from by decide, if_true] at hx
    rw [if_pos (by omega)] at hx
    have : ((-1 + (l.length : Int)).toNat) = l.length - 1 := by omega
    rw [this] at hx
    rw [List.getD_eq_getElem _ _ (by omega)]
    rw [List.getElem?_eq_getElem (by omega)] at hx
    simpa using hx
  rw [← getlast t0 a hn0 ha, ← getlast t1 b (by omega) hb] at p3 p4 hd
  simp only [gt_iff_lt] at p3 p4 hd
  have hi0 : index0 tr onset ≤ (if t1.getD (t1.length - 1) 0 < t0.getD (t0.length - 1) 0 then
      index0 tr onset + 1 else index0 tr onset) := by split <;> omega
  generalize (if t1.getD (t1.length - 1) 0 < t0.getD (t0.length - 1) 0 then index0 tr onset + 1
      else index0 tr onset) = i0 at *
  have hc := clampIdx_le (n := tr.data.length) (i := i0) (by omega) (by omega)
  obtain ⟨n0, rfl⟩ : ∃ n0 : Nat, i0 = n0 := ⟨i0.toNat, by omega⟩
  simp only [Int.toNat_natCast, Int.cast_natCast] at hd hc p3 p4
  have htime : ∀ j : Nat, tr.start - onset + (n0 : K) * tr.delta + (j : K) * tr.delta
      = sampleTime tr onset (n0 + j) := by
    intro j; unfold sampleTime Trace.delta; push_cast; ring
  simp only [htime] at hd p3 p4
  have hin : ∀ j : Nat, t0.getD 0 0 ≤ sampleTime tr onset (n0 + j) := by
    intro j
    apply hfirst
    have h1 : (onset - tr.start) * tr.sr < (index0 tr onset : K) + 1 := Int.lt_floor_add_one _
    have h2 : (index0 tr onset : K) ≤ ((n0 + j : Nat) : K) := by
      have : index0 tr onset ≤ ((n0 + j : Nat) : Int) := by push_cast; omega
      exact_mod_cast this
    linarith
  have hsT : ∀ i j : Nat, i ≤ j → sampleTime tr onset i ≤ sampleTime tr onset j := by
    intro i j hij
    unfold sampleTime
    have : (i : K) / tr.sr ≤ (j : K) / tr.sr :=
      div_le_div_of_nonneg_right (by exact_mod_cast hij) hsr.le
    linarith
  have hsT' : ∀ i j : Nat, i < j → sampleTime tr onset i < sampleTime tr onset j := by
    intro i j hij
    unfold sampleTime
    have : (i : K) / tr.sr < (j : K) / tr.sr := div_lt_div_of_pos_right (by exact_mod_cast hij) hsr
    linarith
  have inc0 := (increasing_iff_pairwise t0).2 hs0
  have inc1 := (increasing_iff_pairwise t1).2 hs1
  set F : Nat → K := fun j => interp1 find t0 t1 none none (sampleTime tr onset (n0 + j)) with hF
  have hmapF : ((List.range (tr.npts - n0)).map fun (k : Nat) => sampleTime tr onset (n0 + k)).map
      (interp1 find t0 t1 (some 0) none) = (List.range (tr.npts - n0)).map F := by
    rw [List.map_map]
    apply List.map_congr_left
    intro j _
    simp only [Function.comp_def, hF]
    exact interp1_left find t0 t1 _ none _ (hin j)
  rw [hmapF] at hd p3 p4
  set N := tr.npts - n0 with hN
  have hNlen : N = tr.data.length - n0 := by rw [hN]; rfl
  have hinc : Increasing ((List.range N).map F) := by
    intro i j hij hj
    rw [List.length_map, List.length_range] at hj
    rw [getD_map_range F (by omega), getD_map_range F hj]
    exact interp1_mono find hf t0 t1 none none p1 p2 inc0 inc1 (by simp) (by simp) _ _
      (hsT _ _ (by omega))
  have hkN : k - n0 < N := by omega
  have hk'N : k' - n0 < N := by omega
  have hkk : n0 + (k - n0) = k := by omega
  have hkk' : n0 + (k' - n0) = k' := by omega
  have hknot := interp1_knot find hf ((List.range N).map F) (sliceFrom tr.data n0) none (some 0) p4
    hinc (k - n0) (by simpa using hkN) (by
      intro j hj he
      rw [List.length_map, List.length_range] at hj
      rw [getD_map_range F hj, getD_map_range F hkN] at he
      have : j = k - n0 := by
        by_contra hne
        rcases lt_or_gt_of_ne hne with hlt' | hgt
        · have h2 : sampleTime tr onset (n0 + j) < sampleTime tr onset k := hsT' _ _ (by omega)
          have h1 := interp1_strict find hf t0 t1 p2 inc0 inc1 p1 hcomp
            (sampleTime tr onset (n0 + j)) (sampleTime tr onset k) (hin j) (h2.trans hlt) h2
          simp only [hF, hkk] at he
          rw [he] at h1; exact lt_irrefl _ h1
        · have h2 : sampleTime tr onset k < sampleTime tr onset (n0 + j) := hsT' _ _ (by omega)
          have hin' := hin (k - n0)
          rw [hkk] at hin'
          have h1 := interp1_strict find hf t0 t1 p2 inc0 inc1 p1 hcomp
            (sampleTime tr onset k) (sampleTime tr onset (n0 + j)) hin' hlt h2
          simp only [hF, hkk] at he
          rw [he] at h1; exact lt_irrefl _ h1
      rw [this])
  rw [getD_map_range F hkN] at hknot
  have hFk : F (k - n0) = sampleTime tr onset k' := by
    simp only [hF, hkk]; exact hval
  rw [hFk] at hknot
  rw [hd]
  rw [List.getElem?_append_right (by simp [sliceTo, hc]; omega)]
  simp only [sliceTo, hc, List.length_take]
  have : k' - min n0 tr.data.length = k' - n0 := by omega
  rw [this, List.getElem?_map, List.getElem?_map, List.getElem?_range hk'N]
  simp only [Option.map_some, hkk', hknot]
  rw [List.getElem?_eq_getElem hk, List.getD_eq_getElem _ _ (by simp [sliceFrom, hc]; omega)]
  simp only [sliceFrom, hc, List.getElem_drop, hkk]

/-- **C33, P branch, for given tables.** If both tables are the same sorted table (reaching below the time
of the onset sample), no sample earlier than the last table entry is changed. -/
theorem C33_same_table_partial (find : List K → K → Nat) (hf : FindSpec find) (tr : Trace K) (onset : K)
    (phase : Str) (T d : List K) (hsr : 0 < tr.sr) (hstart : tr.start ≤ onset)
    (hend : onset ≤ tr.endtime) (hphase : isSMultiple phase = false)
    (h : moveoutData find tr onset phase T T = .ok d) (hs : T.Pairwise (· ≤ ·))
    (hfirst : ∀ i : Nat, (onset - tr.start) * tr.sr < (i : K) + 1 →
      T.getD 0 0 ≤ sampleTime tr onset i)
    (k : Nat) (hlt : sampleTime tr onset k < T.getD (T.length - 1) 0) : d[k]? = tr.data[k]? := by
  have hlen := C34_length_and_prefix find tr onset phase T T d hsr hstart hend h
  by_cases hk : k < tr.data.length
  · by_cases hi : index0 tr onset ≤ k
    · have hne : T ≠ [] := by
        unfold moveoutData at h
        rw [hphase, if_neg (by simp)] at h
        obtain ⟨a, b, ha, hb, p1, p2, -⟩ := moveoutP_ok find tr onset T T d h
        exact p2
      refine moved find hf tr onset phase T T d hsr hstart hend hphase h hs hs
        (fun _ _ _ _ h => h) hfirst k k hk hk (by simpa using hi) (by simpa using hi) hlt ?_
      apply interp1_self find hf T none _ hne ((increasing_iff_pairwise T).2 hs) _ hlt.le
      apply hfirst
      have h1 : (onset - tr.start) * tr.sr < (index0 tr onset : K) + 1 := Int.lt_floor_add_one _
      have h2 : (index0 tr onset : K) ≤ (k : K) := by exact_mod_cast hi
      linarith
    · apply hlen.2.1 hphase
      have h1 : (index0 tr onset : K) ≤ (onset - tr.start) * tr.sr := Int.floor_le _
      have h2 : ((k : K) + 1) ≤ (index0 tr onset : K) := by
        have : (k : Int) + 1 ≤ index0 tr onset := by omega
        exact_mod_cast this
      linarith
  · rw [List.getElem?_eq_none (by omega), List.getElem?_eq_none (by omega)]

/-- **C36, P branch, for given tables.** The sample at the delay time `t0[i]` is moved to the
sample at the delay time `t1[i]`. -/
theorem C36_moves_sample_partial (find : List K → K → Nat) (hf : FindSpec find) (tr : Trace K)
    (onset : K) (phase : Str) (t0 t1 d : List K) (hsr : 0 < tr.sr) (hstart : tr.start ≤ onset)
    (hend : onset ≤ tr.endtime) (hphase : isSMultiple phase = false)
    (h : moveoutData find tr onset phase t0 t1 = .ok d)
    (hs0 : t0.Pairwise (· ≤ ·)) (hs1 : t1.Pairwise (· ≤ ·))
    (hcomp : ∀ i j, i < t0.length → j < t0.length →
      (t0.getD i 0 < t0.getD j 0 ↔ t1.getD i 0 < t1.getD j 0))
    (hfirst : ∀ i : Nat, (onset - tr.start) * tr.sr < (i : K) + 1 →
      t0.getD 0 0 ≤ sampleTime tr onset i)
    (i : Nat) (hi : i < t0.length) (hpos0 : 0 < t0.getD i 0) (hpos1 : 0 < t1.getD i 0)
    (hlast : t0.getD i 0 < t0.getD (t0.length - 1) 0)
    (k k' : Nat) (hk : k < tr.data.length) (hk' : k' < tr.data.length)
    (hkt : sampleTime tr onset k = t0.getD i 0) (hkt' : sampleTime tr onset k' = t1.getD i 0) :
    d[k']? = tr.data[k]? := by
  have hidx : ∀ j : Nat, 0 < sampleTime tr onset j → index0 tr onset + 1 ≤ j := by
    intro j hj
    unfold sampleTime at hj
    have h1 : (onset - tr.start) * tr.sr < j := by
      have : onset - tr.start < (j : K) / tr.sr := by linarith
      rwa [lt_div_iff₀ hsr] at this
    have h2 : (index0 tr onset : K) ≤ (onset - tr.start) * tr.sr := Int.floor_le _
    have : (index0 tr onset : K) < ((j : Int) : K) := by push_cast; linarith
    have := Int.cast_lt.1 this
    omega
  have hp : t0 ≠ [] ∧ t0.length = t1.length := by
    unfold moveoutData at h
    rw [hphase, if_neg (by simp)] at h
    obtain ⟨a, b, ha, hb, p1, p2, -⟩ := moveoutP_ok find tr onset t0 t1 d h
    exact ⟨p2, p1⟩
  have e1 := hidx k (by rw [hkt]; exact hpos0)
  have e2 := hidx k' (by rw [hkt']; exact hpos1)
  refine moved find hf tr onset phase t0 t1 d hsr hstart hend hphase h hs0 hs1
    (fun a b ha hb => (hcomp a b ha hb).1) hfirst k k' hk hk' (by split <;> omega)
    (by split <;> omega) (by rw [hkt]; exact hlast) ?_
  rw [hkt, hkt']
  refine interp1_knot find hf t0 t1 none none hp.1 ((increasing_iff_pairwise t0).2 hs0) i hi ?_
  intro j hj he
  apply le_antisymm
  · by_contra hcon
    have := (hcomp i j hi hj).2 (not_le.1 hcon)
    rw [he] at this; exact lt_irrefl _ this
  · by_contra hcon
    have := (hcomp j i hj hi).2 (not_le.1 hcon)
    rw [he] at this; exact lt_irrefl _ this

end time
end Verif.Props
