import Verif.Model.Deconvolve
import Verif.Spec.Deconvolve
import Mathlib.Tactic.Linarith
import Mathlib.Tactic.Ring
import Mathlib.Tactic.FieldSimp
import Mathlib.Algebra.Order.Ring.Rat
import Mathlib.Data.Rat.Floor

/-!
# `deconvolve()`: onset snapping, selection, normalisation, frame, windows: C04 - C08
-/

set_option linter.unusedSimpArgs false
set_option linter.unusedSectionVars false

namespace Verif.Props
open Verif.Py Verif.Model Verif.Spec

section nearest
variable {K : Type} [Field K] [LinearOrder K] [IsStrictOrderedRing K]

theorem getItem_lt {α : Type} (l : List α) (i : Nat) (hi : i < l.length) :
    getItem l (i : Int) = .ok l[i] := by
  have h : ¬ ((i : Int) < 0) := by omega
  simp [getItem, hi, h]

theorem getItem_ge {α : Type} (l : List α) (i : Nat) (hi : l.length ≤ i) :
    getItem l (i : Int) = .error .indexError := by
  have h : ¬ ((i : Int) < 0) := by omega
  simp [getItem, hi, h]

theorem getItem_error {α : Type} (l : List α) (i : Int) (e : PyErr)
    (h : getItem l i = .error e) : e = .indexError := by
  unfold getItem at h
  simp only at h
  repeat' split at h
  all_goals simp_all

/-- C04 (array level): inside or before an ascending axis `__find_nearest` returns a nearest entry. -/
theorem findNearest_ok (a : List K) (v : K) (hs : a.Pairwise (· ≤ ·)) (hv : ∃ x ∈ a, v ≤ x) :
    ∃ i, findNearest a v = .ok i ∧ Nearest a v i := by
  set idx := searchsortedLeft a v with hidx
  have hlt : idx < a.length := by
    obtain ⟨x, hx, hvx⟩ := hv
    exact List.findIdx_lt_length_of_exists ⟨x, hx, by simpa using hvx⟩
  have hge : v ≤ a[idx] := by
    have := List.findIdx_getElem (xs := a) (p := fun x => decide (v ≤ x)) (w := hlt)
    exact of_decide_eq_true this
  have hbefore : ∀ j (hj : j < idx), a[j]'(hj.trans hlt) < v := by
    intro j hj
    have := List.not_of_lt_findIdx (xs := a) (p := fun x => decide (v ≤ x)) hj
    simpa using this
  have hmono : ∀ i j (hi : i ≤ j) (hj : j < a.length), a[i]'(hi.trans_lt hj) ≤ a[j] := by
    intro i j hi hj
    rcases hi.eq_or_lt with rfl | hlt'
    · exact le_rfl
    · exact List.pairwise_iff_getElem.1 hs i j _ hj hlt'
  -- the candidates are the two neighbours
  have hright : ∀ j (hj : j < a.length), idx ≤ j → |v - a[idx]| ≤ |v - a[j]| := by
    intro j hj hij
    have := hmono idx j hij hj
    rw [abs_of_nonpos (by linarith), abs_of_nonpos (by linarith)]; linarith
  unfold findNearest
  rw [← hidx]
  simp only []
  rw [getItem_lt a idx hlt]
  rcases Nat.eq_zero_or_pos idx with h0 | hpos
  · have hl : ∃ l, getItem a ((idx : Int) - 1) = .ok l := by
      refine ⟨a[a.length - 1]'(by omega), ?_⟩
      rw [h0]
      simp only [getItem, Nat.cast_zero, zero_sub, Int.reduceNeg]
      have h1 : (-1 + (a.length : Int)).toNat = a.length - 1 := by omega
      have h2 : (0 : Int) ≤ -1 + (a.length : Int) := by omega
      simp [h1, h2, show a.length - 1 < a.length by omega]
    obtain ⟨l, hl⟩ := hl
    refine ⟨idx, ?_, a[idx], by simp, ?_⟩
    · rw [hl]; simp [h0, pure, Except.pure, bind, Except.bind]
    · intro y hy
      obtain ⟨j, hj, rfl⟩ := List.getElem_of_mem hy
      exact hright j hj (by omega)
  · have hcast : ((idx : Int) - 1) = ((idx - 1 : Nat) : Int) := by omega
    have hl : a[idx - 1]'(by omega) < v := hbefore (idx - 1) (by omega)
    rw [hcast, getItem_lt a (idx - 1) (by omega)]
    have hleft : ∀ j (hj : j < a.length), j < idx → |v - a[idx - 1]| ≤ |v - a[j]| := by
      intro j hj hij
      have h1 := hmono j (idx - 1) (by omega) (by omega)
      have h2 := hbefore j hij
      rw [abs_of_pos (by linarith), abs_of_pos (by linarith)]; linarith
    simp only [bind, Except.bind, pure, Except.pure]
    by_cases hcmp : |v - a[idx - 1]| < |v - a[idx]|
    · refine ⟨idx - 1, by rw [if_pos ⟨hpos, Or.inr hcmp⟩], a[idx - 1], by simp, ?_⟩
      intro y hy
      obtain ⟨j, hj, rfl⟩ := List.getElem_of_mem hy
      rcases lt_or_ge j idx with hji | hji
      · exact hleft j hj hji
      · exact hcmp.le.trans (hright j hj hji)
    · refine ⟨idx, by rw [if_neg (by simp [hcmp]; omega)], a[idx], by simp, ?_⟩
      intro y hy
      obtain ⟨j, hj, rfl⟩ := List.getElem_of_mem hy
      rcases lt_or_ge j idx with hji | hji
      · exact (not_lt.1 hcmp).trans (hleft j hj hji)
      · exact hright j hj hji

/-- Beyond the last entry `__find_nearest` raises `IndexError` although the last entry is the nearest:
the guard `idx == len(array)` of line 17 comes too late. -/
theorem findNearest_error (a : List K) (v : K) (hv : ∀ x ∈ a, x < v) :
    findNearest a v = .error .indexError := by
  have hidx : searchsortedLeft a v = a.length := by
    unfold searchsortedLeft
    rw [List.findIdx_eq_length]
    intro x hx
    simpa using hv x hx
  unfold findNearest
  rw [hidx]
  simp only []
  rw [getItem_ge a a.length le_rfl]
  cases h : getItem a ((a.length : Int) - 1) with
  | ok l => rfl
  | error e =>
    rw [getItem_error _ _ _ h]; rfl

theorem times_sorted (t : Trace K) (hsr : 0 < t.sr) : (times t).Pairwise (· ≤ ·) := by
  unfold times
  rw [List.pairwise_map]
  refine List.pairwise_lt_range.imp ?_
  intro i j hij
  have hd : 0 < t.delta := by unfold Trace.delta; positivity
  exact mul_le_mul_of_nonneg_right (by exact_mod_cast hij.le) hd.le

theorem mem_times (t : Trace K) (x : K) :
    x ∈ times t ↔ ∃ i : Nat, i < t.npts ∧ (i : K) * t.delta = x := by
  simp [times]

theorem times_get (t : Trace K) (i : Nat) (x : K) (h : (times t)[i]? = some x) :
    i < t.npts ∧ x = (i : K) * t.delta := by
  unfold times at h
  simp only [List.getElem?_map, Option.map_eq_some_iff, List.getElem?_eq_some_iff,
    List.getElem_range, List.length_range] at h
  obtain ⟨k, ⟨hk, rfl⟩, rfl⟩ := h
  exact ⟨hk, rfl⟩

/-- On a regular axis a nearest sample is at most half a sample away. -/
theorem half_sample (t : Trace K) (hsr : 0 < t.sr) (v : K) (h0 : 0 ≤ v)
    (h1 : ∃ x ∈ times t, v ≤ x) (i : Nat) (hi : Nearest (times t) v i) :
    |v - (i : K) * t.delta| ≤ t.delta / 2 := by
  obtain ⟨x, hx, hn⟩ := hi
  obtain ⟨hin, rfl⟩ := times_get t i x hx
  have hd : 0 < t.delta := by unfold Trace.delta; positivity
  -- smallest sample not before v
  obtain ⟨y, hy, hvy⟩ := h1
  obtain ⟨n, hn', rfl⟩ := (mem_times t y).1 hy
  have hex : ∃ k : Nat, v ≤ (k : K) * t.delta := ⟨n, hvy⟩
  classical
  have hk := Nat.find_spec hex
  have hkn : Nat.find hex ≤ n := Nat.find_min' hex hvy
  have hmem : ((Nat.find hex : Nat) : K) * t.delta ∈ times t := (mem_times t _).2 ⟨_, by omega, rfl⟩
  have b1 := hn _ hmem
  rcases Nat.eq_zero_or_pos (Nat.find hex) with hz | hp
  · rw [hz] at hk b1
    simp only [Nat.cast_zero, zero_mul, sub_zero] at hk b1
    have : v = 0 := le_antisymm hk h0
    rw [this] at b1 ⊢
    simp only [abs_zero] at b1
    linarith
  · have hlt := Nat.find_min hex (m := Nat.find hex - 1) (by omega)
    rw [not_le] at hlt
    have hmem' : ((Nat.find hex - 1 : Nat) : K) * t.delta ∈ times t :=
      (mem_times t _).2 ⟨_, by omega, rfl⟩
    have b2 := hn _ hmem'
    have hc : ((Nat.find hex - 1 : Nat) : K) = (Nat.find hex : K) - 1 := by
      rw [Nat.cast_sub (by omega)]; simp
    rw [hc] at hlt b2
    rw [abs_of_nonpos (sub_nonpos.2 hk)] at b1
    rw [abs_of_pos (sub_pos.2 hlt)] at b2
    linarith

end nearest

section frame
variable {K : Type} [Field K] [LinearOrder K] [IsStrictOrderedRing K] [FloorRing K]

/-- Heap after lines 97-99. -/
def snapped (h : Heap K) (src : Nat) (rsp : List Nat) (onset : K) : Heap K :=
  Heap.forEach (fun t => t.put "onset" (.time onset)) (h.set src ((h src).put "onset" (.time onset))) rsp

/-- The possible courses of a call of `deconvolve`. -/
theorem deconvolve_cases (env : DeconvEnv K) (h h' : Heap K) (s : List Nat) (a : DeconvArgs K)
    (res : Res (List Nat)) (hd : deconvolve env h s a = (h', res)) :
    (h' = h ∧ ∃ e, res = .error e) ∨
    ∃ m src rsp nrm o idx onset, deconvSelect h s a = .ok (m, src, rsp, nrm) ∧
      (h src).getTime "onset" = some o ∧
      findNearest (times (h src)) (o - (h src).start) = .ok idx ∧
      onset = (h src).start + (idx : K) * (h src).delta ∧
      ((h' = snapped h src rsp onset ∧ ∃ e, res = .error e) ∨
        ∃ w0 w1 w2 srcT h2,
          sourceWindow m a.winsrc ((h src).endtime - (h src).start) (onset - (h src).start)
            = .ok (w0, w1, w2) ∧
          srcT = env.taper (env.trimPad (snapped h src rsp onset src) (onset + w0) (onset + w1)) w2 ∧
          h2 = (if (indexOf? (snapped h src rsp onset) src rsp).isSome then snapped h src rsp onset
            else (snapped h src rsp onset).set src srcT) ∧
          runKernel env m h2 s rsp a.rspComps srcT (h src).sr (-w0) nrm = (h', res)) := by
  unfold deconvolve at hd
  cases hsel : deconvSelect h s a with
  | error e => rw [hsel] at hd; simp only [Prod.mk.injEq] at hd; exact Or.inl ⟨hd.1.symm, e, hd.2.symm⟩
  | ok q =>
    obtain ⟨m, src, rsp, nrm⟩ := q
    rw [hsel] at hd
    simp only at hd
    cases ho : (h src).getTime "onset" with
    | none => rw [ho] at hd; simp only [Prod.mk.injEq] at hd; exact Or.inl ⟨hd.1.symm, _, hd.2.symm⟩
    | some o =>
      rw [ho] at hd
      simp only at hd
      cases hf : findNearest (times (h src)) (o - (h src).start) with
      | error e => rw [hf] at hd; simp only [Prod.mk.injEq] at hd; exact Or.inl ⟨hd.1.symm, e, hd.2.symm⟩
      | ok idx =>
        rw [hf] at hd
        simp only at hd
        refine Or.inr ⟨m, src, rsp, nrm, o, idx, _, rfl, ho, hf, rfl, ?_⟩
        cases hw : sourceWindow m a.winsrc ((h src).endtime - (h src).start)
            ((h src).start + (idx : K) * (h src).delta - (h src).start) with
        | error e =>
          rw [hw] at hd; simp only [Prod.mk.injEq] at hd; exact Or.inl ⟨hd.1.symm, e, hd.2.symm⟩
        | ok w =>
          obtain ⟨w0, w1, w2⟩ := w
          rw [hw] at hd
          exact Or.inr ⟨w0, w1, w2, _, _, rfl, rfl, rfl, hd⟩

theorem selectComps_ok (h : Heap K) (comps : Str) (s : List Nat) (l : List Nat)
    (hl : selectComps h comps s = .ok l) :
    (∀ r ∈ s, (h r).cha ≠ []) ∧
      l = s.filter (fun r => match (h r).comp with | some c => decide (c ∈ comps) | none => false) := by
  induction s generalizing l with
  | nil => simp [selectComps] at hl; simp [hl]
  | cons r s ih =>
    unfold selectComps at hl
    cases hc : (h r).comp with
    | none => simp [hc] at hl
    | some c =>
      rw [hc] at hl
      simp only at hl
      cases hs : selectComps h comps s with
      | error e => simp [hs] at hl
      | ok l' =>
        rw [hs] at hl
        simp only [Except.ok.injEq] at hl
        obtain ⟨i1, i2⟩ := ih l' hs
        constructor
        · intro r' hr'
          rcases List.mem_cons.1 hr' with rfl | hr'
          · intro h0; simp [Trace.comp, h0] at hc
          · exact i1 r' hr'
        · rw [List.filter_cons, hc, ← hl, i2]
          by_cases hcc : c ∈ comps <;> simp [hcc]

theorem selectComps_total (h : Heap K) (comps : Str) (s : List Nat) (hs : ∀ r ∈ s, (h r).cha ≠ []) :
    ∃ l, selectComps h comps s = .ok l := by
  induction s with
  | nil => exact ⟨[], rfl⟩
  | cons r s ih =>
    obtain ⟨l, hl⟩ := ih fun r hr => hs r (by simp [hr])
    unfold selectComps
    cases hc : (h r).comp with
    | none => exact absurd (List.getLast?_eq_none_iff.1 hc) (hs r (by simp))
    | some c => simp [hl]

theorem mem_selectComps (h : Heap K) (comps : Str) (s l : List Nat)
    (hl : selectComps h comps s = .ok l) (r : Nat) : r ∈ l ↔ r ∈ s ∧ OfComp comps (h r) := by
  rw [(selectComps_ok h comps s l hl).2, List.mem_filter]
  unfold OfComp Trace.comp
  cases (h r).cha.getLast? <;> simp

/-- What a successful selection means. -/
theorem deconvSelect_ok (h : Heap K) (s : List Nat) (a : DeconvArgs K) (m : DMethod) (src : Nat)
    (rsp : List Nat) (nrm : Option Norm) (hsel : deconvSelect h s a = .ok (m, src, rsp, nrm)) :
    deconvMethod a.method = some m ∧ selectComps h a.srcComps s = .ok [src] ∧
      selectRsp h a.rspComps s = .ok rsp ∧ 0 < rsp.length ∧ rsp.length < 4 ∧
      nrm = normKw h a.normalize src rsp := by
  unfold deconvSelect at hsel
  repeat' split at hsel
  all_goals simp only [Except.ok.injEq, Prod.mk.injEq, reduceCtorEq] at hsel
  obtain ⟨rfl, rfl, rfl, rfl⟩ := hsel
  simp_all

end frame
end Verif.Props
