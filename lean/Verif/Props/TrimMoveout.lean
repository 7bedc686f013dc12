import Verif.Spec.Trim
import Verif.Props.MoveoutModel
import Verif.Props.Models
import Verif.Props.DelaySlowness
import Verif.Props.Ppoints
import Mathlib.Data.Rat.Floor

/-!
# C184: move out correction and cutting out a window
-/

set_option linter.unusedSimpArgs false
set_option linter.unusedSectionVars false

namespace Verif.Props
open Verif.Py Verif.Model Verif.Model.Simple Verif.Spec

section
variable {K : Type} [Field K] [LinearOrder K] [IsStrictOrderedRing K]

/-- Interpolation in the first part of a table. -/
theorem interp1_take (find : List K → K → ℕ) (hf : FindSpec find) (xp fp : List K) (left right : Option K) (x : K) (M : ℕ)
    (hM : 0 < M) (hMl : M ≤ xp.length) (hs : Increasing xp) (hlen : xp.length = fp.length)
    (hx : x < xp.getD (M - 1) 0 ∨ (x = xp.getD (M - 1) 0 ∧ (M < xp.length → xp.getD (M - 1) 0 < xp.getD M 0))) :
    interp1 find (xp.take M) (fp.take M) left right x = interp1 find xp fp left right x := by
  have hl : (xp.take M).length = M := by simp; omega
  have g : ∀ (l : List K) (j : ℕ), j < M → (l.take M).getD j 0 = l.getD j 0 := by
    intro l j hj
    simp [List.getD_eq_getElem?_getD, List.getElem?_take, hj]
  have hxM : x ≤ xp.getD (M - 1) 0 := hx.elim le_of_lt fun h => h.1.le
  have hxl : x ≤ xp.getD (xp.length - 1) 0 := hxM.trans (hs _ _ (by omega) (by omega))
  unfold interp1
  rw [hl, g xp 0 hM, g fp 0 hM]
  by_cases h0 : x < xp.getD 0 0
  · rw [if_pos h0, if_pos h0]
  · rw [if_neg h0, if_neg h0, g xp _ (by omega), if_neg (not_lt.2 hxM), if_neg (not_lt.2 hxl)]
    have hne : xp ≠ [] := by rintro rfl; simp at hMl; omega
    have hne' : xp.take M ≠ [] := by intro h; rw [h] at hl; simp at hl; omega
    obtain ⟨a, b, c⟩ := hf xp x hne (not_lt.1 h0) hxl
    obtain ⟨a', b', c'⟩ := hf (xp.take M) x hne' (by rw [g xp 0 hM]; exact not_lt.1 h0)
      (by rw [hl, g xp _ (by omega)]; exact hxM)
    rw [hl] at a' c'
    rw [g xp _ a'] at b'
    have hj : find (xp.take M) x = find xp x := by
      refine find_unique xp x hs _ _ ⟨by omega, b', fun h => ?_⟩ ⟨a, b, c⟩
      by_cases h1 : find (xp.take M) x + 1 < M
      · have := c' h1
        rwa [g xp _ h1] at this
      · have h2 : find (xp.take M) x = M - 1 := by omega
        rw [h2] at b'
        rcases hx with hx | ⟨hx, h3⟩
        · exact absurd b' (not_le.2 hx)
        · have h4 : M - 1 + 1 = M := by omega
          rw [h2, h4] at h ⊢
          rw [hx]
          exact h3 h
    simp only
    rw [hj] at a' b' ⊢
    rw [g xp _ a', g fp _ a']
    by_cases h1 : find xp x + 1 = M
    · rw [if_pos h1]
      have h2 : xp.getD (find xp x) 0 = x := by
        have : find xp x = M - 1 := by omega
        rw [this] at b' ⊢
        exact le_antisymm b' hxM
      rw [if_pos h2]
      split <;> rfl
    · rw [if_neg h1, g xp _ (by omega), g fp _ (by omega), if_neg (show ¬ find xp x + 1 = xp.length by omega)]

variable [FloorRing K]

theorem index0_samplesOf (tr : Trace K) (onset : K) (i n : ℕ) (hsr : 0 < tr.sr) :
    index0 (samplesOf i n tr) onset = index0 tr onset - i := by
  unfold index0 samplesOf Trace.delta
  simp only
  rw [show (onset - (tr.start + (i : K) * (1 / tr.sr))) * tr.sr = (onset - tr.start) * tr.sr - ((i : ℤ) : K) by
    push_cast; field_simp; ring, Int.floor_sub_intCast]

theorem npts_samplesOf (tr : Trace K) (i n : ℕ) : (samplesOf i n tr).npts = min n (tr.npts - i) := by
  simp [samplesOf, Trace.npts]

/-- The move out correction of a part of a trace, for given tables. -/
theorem moveout_samplesOf (find : List K → K → ℕ) (hf : FindSpec find) (tr : Trace K) (onset : K) (phase : Str)
    (t0 t1 d d' : List K) (i n : ℕ) (hsr : 0 < tr.sr) (hstart : (samplesOf i n tr).start ≤ onset)
    (hend : onset ≤ (samplesOf i n tr).endtime) (hphase : isSMultiple phase = false)
    (h : moveoutData find tr onset phase t0 t1 = .ok d)
    (h' : moveoutData find (samplesOf i n tr) onset phase t0 t1 = .ok d')
    (hs0 : t0.Pairwise (· ≤ ·)) (hs1 : t1.Pairwise (· ≤ ·))
    (hfirst : ∀ k : ℕ, (onset - tr.start) * tr.sr < (k : K) + 1 → t0.getD 0 0 ≤ sampleTime tr onset k)
    (F : K → K) (hF : F = interp1 find t0 t1 none none) (k : ℕ) (hk : k < (samplesOf i n tr).npts) (N : ℕ)
    (hN : N = i + (samplesOf i n tr).npts) :
    (((i + k : ℕ) : ℤ) < index0 tr onset ∨ sampleTime tr onset (i + k) < F (sampleTime tr onset (N - 1)) ∨
        (sampleTime tr onset (i + k) = F (sampleTime tr onset (N - 1)) ∧
          (N < tr.npts → F (sampleTime tr onset (N - 1)) < F (sampleTime tr onset N))) → d'[k]? = d[i + k]?) ∧
      (index0 tr onset < ((i + k : ℕ) : ℤ) → F (sampleTime tr onset (N - 1)) < sampleTime tr onset (i + k) →
        d'[k]? = some 0) ∧
      (N = tr.npts → d'[k]? = d[i + k]?) := by
  subst hF
  have hn' := npts_samplesOf tr i n
  have hb := index0_bounds (samplesOf i n tr) onset hsr hstart hend
  rw [index0_samplesOf tr onset i n hsr] at hb
  unfold moveoutData at h h'
  rw [hphase, if_neg (by simp)] at h h'
  obtain ⟨a, b, ha, hb', p⟩ := moveoutP_ok find tr onset t0 t1 d h
  obtain ⟨a2, b2, ha2, hb2, p'⟩ := moveoutP_ok find _ onset t0 t1 d' h'
  rw [ha] at ha2; cases ha2
  rw [hb'] at hb2; cases hb2
  rw [index0_samplesOf tr onset i n hsr] at p'
  generalize hA : (if a > b then index0 tr onset + 1 else index0 tr onset) = A at p
  have hA' : (if a > b then index0 tr onset - (i : ℤ) + 1 else index0 tr onset - (i : ℤ)) = A - i := by
    rw [← hA]; split <;> ring
  rw [hA'] at p'
  have hAge : index0 tr onset ≤ A ∧ A ≤ index0 tr onset + 1 := by rw [← hA]; split <;> omega
  have hb0 := hb.1
  have hnpos : (samplesOf i n tr).npts ≠ 0 := by omega
  have hb1 := hb.2.1 hnpos
  obtain ⟨q1, q2, q3, q4, q5⟩ := p
  obtain ⟨-, -, r3, r4, r5⟩ := p'
  -- times of the samples
  have htimes : ∀ j : ℕ, tr.start - onset + (A : K) * tr.delta + (j : K) * tr.delta = sampleTime tr onset (A.toNat + j) := by
    intro j
    have : (A : K) = (A.toNat : K) := by
      have h1 : ((A.toNat : ℤ) : K) = (A : K) := by rw [Int.toNat_of_nonneg (by omega)]
      rw [← h1]; norm_cast
    unfold sampleTime Trace.delta
    rw [this]; push_cast; ring
  have htimes' : ∀ j : ℕ, (samplesOf i n tr).start - onset + ((A - i : ℤ) : K) * (samplesOf i n tr).delta +
      (j : K) * (samplesOf i n tr).delta = sampleTime tr onset (A.toNat + j) := by
    intro j
    rw [← htimes j]
    unfold samplesOf Trace.delta
    push_cast; ring
  simp only [htimes] at q3 q4 q5
  simp only [htimes'] at r3 r4 r5
  have hAn : (A - i).toNat = A.toNat - i := by omega
  rw [hAn] at r3 r4 r5
  generalize hMd : (samplesOf i n tr).npts - (A.toNat - i) = M at r3 r4 r5
  have hMpos : 0 < M := by
    rcases Nat.eq_zero_or_pos M with h0 | h0
    · rw [h0] at r4; simp at r4
    · exact h0
  have hML : M ≤ tr.npts - A.toNat := by omega
  -- the new times
  have hst : ∀ j : ℕ, t0.getD 0 0 ≤ sampleTime tr onset (A.toNat + j) := by
    intro j
    refine hfirst _ ?_
    have h1 : (onset - tr.start) * tr.sr < (index0 tr onset : K) + 1 := by unfold index0; exact Int.lt_floor_add_one _
    have h2 : ((index0 tr onset : ℤ) : K) ≤ ((A.toNat + j : ℕ) : K) := by
      have : index0 tr onset ≤ ((A.toNat + j : ℕ) : ℤ) := by push_cast; omega
      exact_mod_cast this
    linarith
  have hmono : ∀ x y, x ≤ y → interp1 find t0 t1 none none x ≤ interp1 find t0 t1 none none y := fun x y hxy =>
    interp1_mono find hf t0 t1 none none q1 q2 ((increasing_iff_pairwise t0).2 hs0) ((increasing_iff_pairwise t1).2 hs1)
      (by simp) (by simp) x y hxy
  have hstm : ∀ j l : ℕ, j ≤ l → sampleTime tr onset j ≤ sampleTime tr onset l := by
    intro j l hjl
    unfold sampleTime
    have : (j : K) / tr.sr ≤ (l : K) / tr.sr := div_le_div_of_nonneg_right (by exact_mod_cast hjl) hsr.le
    linarith
  generalize hL : tr.npts - A.toNat = L at q3 q4 q5 hML
  generalize hxp : ((List.range L).map fun (k : ℕ) => sampleTime tr onset (A.toNat + k)).map
    (interp1 find t0 t1 (some 0) none) = xp at q3 q4 q5
  have hxpl : xp.length = L := by rw [← hxp]; simp
  have hxpg : ∀ j < L, xp.getD j 0 = interp1 find t0 t1 none none (sampleTime tr onset (A.toNat + j)) := by
    intro j hj
    rw [← hxp, List.map_map, getD_map_range _ hj]
    exact interp1_left find t0 t1 (some 0) none _ (hst j)
  have hxp' : ((List.range M).map fun (k : ℕ) => sampleTime tr onset (A.toNat + k)).map
      (interp1 find t0 t1 (some 0) none) = xp.take M := by
    rw [← hxp, ← List.map_take, ← List.map_take, List.take_range, min_eq_left hML]
  have hinc : Increasing xp := by
    intro j l hjl hl
    rw [hxpl] at hl
    rw [hxpg j (by omega), hxpg l hl]
    exact hmono _ _ (hstm _ _ (by omega))
  rw [hxp'] at r3 r4 r5
  have hnl : (samplesOf i n tr).data.length = (samplesOf i n tr).npts := rfl
  have hnl2 : tr.data.length = tr.npts := rfl
  have hc1 : clampIdx tr.data.length A = A.toNat := clampIdx_le (by omega) (by omega)
  have hc2 : clampIdx (samplesOf i n tr).data.length (A - i) = A.toNat - i := by
    rw [clampIdx_le (by omega) (by omega), hAn]
  have hsl : sliceFrom tr.data A = tr.data.drop A.toNat := by unfold sliceFrom; rw [hc1]
  have hsl' : sliceFrom (samplesOf i n tr).data (A - i) = (tr.data.drop A.toNat).take M := by
    unfold sliceFrom
    rw [hc2]
    show List.drop (A.toNat - i) (List.take n (List.drop i tr.data)) = _
    rw [List.drop_take, List.drop_drop, show i + (A.toNat - i) = A.toNat by omega]
    refine List.ext_getElem? fun j => ?_
    simp only [List.getElem?_take, List.getElem?_drop]
    by_cases h1 : j < M
    · rw [if_pos h1, if_pos (by omega)]
    · rw [if_neg h1]
      split
      · rw [List.getElem?_eq_none (by omega)]
      · rfl
  have hst1 : sliceTo tr.data A = tr.data.take A.toNat := by unfold sliceTo; rw [hc1]
  have hst2 : sliceTo (samplesOf i n tr).data (A - i) = ((tr.data.drop i).take n).take (A.toNat - i) := by
    unfold sliceTo; rw [hc2]; rfl
  rw [hsl', hst2] at r5
  rw [hsl, hst1] at q5
  rw [hsl] at q3
  have hl1 : (tr.data.take A.toNat).length = A.toNat := by simp; omega
  have hl2 : (((tr.data.drop i).take n).take (A.toNat - i)).length = A.toNat - i := by simp; omega
  by_cases hkA : k < A.toNat - i
  · have e1 : d'[k]? = d[i + k]? := by
      rw [r5, q5, List.getElem?_append_left (by omega), List.getElem?_append_left (by omega)]
      simp only [List.getElem?_take, List.getElem?_drop]
      rw [if_pos hkA, if_pos (by omega), if_pos (by omega)]
    exact ⟨fun _ => e1, fun h1 _ => absurd h1 (by omega), fun _ => e1⟩
  · obtain ⟨j, hj⟩ : ∃ j, k = A.toNat - i + j := ⟨k - (A.toNat - i), by omega⟩
    have hjM : j < M := by omega
    have hij : i + k = A.toNat + j := by omega
    have hlast : xp.getD (M - 1) 0 = interp1 find t0 t1 none none (sampleTime tr onset (N - 1)) := by
      rw [hxpg _ (by omega)]; congr 2; omega
    have e2 : d'[k]? = some (interp1 find (xp.take M) ((tr.data.drop A.toNat).take M) none (some 0)
        (sampleTime tr onset (A.toNat + j))) := by
      rw [r5, List.getElem?_append_right (by omega), hl2, List.getElem?_map, List.getElem?_map,
        show k - (A.toNat - i) = j by omega, List.getElem?_range hjM]
      rfl
    have e3 : d[i + k]? = some (interp1 find xp (tr.data.drop A.toNat) none (some 0)
        (sampleTime tr onset (A.toNat + j))) := by
      rw [q5, List.getElem?_append_right (by omega), hl1, List.getElem?_map, List.getElem?_map,
        show i + k - A.toNat = j by omega, List.getElem?_range (by omega)]
      rfl
    refine ⟨fun hor => ?_, fun _ hgt => ?_, fun hall => ?_⟩
    · rw [e2, e3]
      congr 1
      rw [hij] at hor
      refine interp1_take find hf xp _ none (some 0) _ M hMpos (by omega) hinc q3 ?_
      rw [hlast]
      rcases hor with h1 | h1 | ⟨h1, h2⟩
      · omega
      · exact .inl h1
      · refine .inr ⟨h1, fun h3 => ?_⟩
        rw [hxpg _ (by omega), show A.toNat + M = N by omega]
        exact h2 (by omega)
    · rw [e2]
      congr 1
      rw [hij] at hgt
      have hl : (xp.take M).length = M := by simp; omega
      have g : ∀ (l : List K) (j : ℕ), j < M → (l.take M).getD j 0 = l.getD j 0 := by
        intro l j hj
        simp [List.getD_eq_getElem?_getD, List.getElem?_take, hj]
      unfold interp1
      rw [hl, g xp _ (by omega), g xp _ (by omega), hlast]
      have h0 : xp.getD 0 0 ≤ xp.getD (M - 1) 0 := hinc _ _ (by omega) (by omega)
      rw [hlast] at h0
      rw [if_neg (not_lt.2 (h0.trans hgt.le)), if_pos hgt]
      rfl
    · rw [e2, e3, List.take_of_length_le (by omega), List.take_of_length_le (by rw [← q3]; omega)]

/-- A table whose values are not earlier than its arguments, from entry `j0` on. -/
theorem interp1_later (find : List K → K → ℕ) (hf : FindSpec find) (xp fp : List K) (hs : Increasing xp)
    (j0 : ℕ) (hj0 : j0 < xp.length) (hge : ∀ j, j0 ≤ j → j < xp.length → xp.getD j 0 ≤ fp.getD j 0) (x : K)
    (h0 : xp.getD j0 0 ≤ x) (h1 : x ≤ xp.getD (xp.length - 1) 0) : x ≤ interp1 find xp fp none none x := by
  have hne : xp ≠ [] := by rintro rfl; simp at hj0
  have h00 : xp.getD 0 0 ≤ x := (hs 0 j0 (by omega) hj0).trans h0
  rcases lt_or_eq_of_le h1 with h1 | h1
  · obtain ⟨a, b, c⟩ := find_inside find hf xp x hne h00 h1
    rw [interp1_inside find hf xp fp none none x hne h00 h1]
    have hj : j0 ≤ find xp x := by
      by_contra hcon
      have := hs (find xp x + 1) j0 (by omega) hj0
      linarith
    have g1 := hge (find xp x) hj (by omega)
    have g2 := hge (find xp x + 1) (by omega) a
    generalize xp.getD (find xp x) 0 = u at *
    generalize xp.getD (find xp x + 1) 0 = v at *
    generalize fp.getD (find xp x) 0 = w at *
    generalize fp.getD (find xp x + 1) 0 = z at *
    have huv : 0 < v - u := by linarith
    have : (z - w) / (v - u) * (x - u) + w - x = ((w - u) * (v - x) + (z - v) * (x - u)) / (v - u) := by
      field_simp; ring
    have h2 : 0 ≤ ((w - u) * (v - x) + (z - v) * (x - u)) / (v - u) :=
      div_nonneg (add_nonneg (mul_nonneg (by linarith) (by linarith)) (mul_nonneg (by linarith) (by linarith))) huv.le
    linarith
  · rw [interp1_last find hf xp fp none x hne hs h1.ge, h1]
    exact hge _ (by omega) (by omega)

variable (sqrt : K → K) (find : List K → K → ℕ)

/-- The samples of a part of a trace after the correction, compared with those of the whole trace after the correction:
equal if they are before the time to which the last sample of the part is moved, zero if they are after it. -/
theorem step_samplesOf (hf : FindSpec find) (hs : SqrtStrict sqrt)
    (nanCase : Trace K → Res (List K)) (m : SimpleModel K) (layers : List (Layer K))
    (hvp : m.vp = layers.map Layer.vp) (hvs : m.vs = layers.map Layer.vs)
    (hdz : m.dz = layers.map Layer.dz) (hfresh : m.tRef = []) (s ref : K) (phase : Str)
    (heven : phase.length % 2 = 0)
    (hletters : ∀ c ∈ upper phase, c = 'P' ∨ c = 'S') (hfirst : (upper phase).head? = some 'P')
    (hS : 'S' ∈ upper phase) (hprop : Propagates layers s) (hpropr : Propagates layers ref)
    (hv : ∀ l ∈ layers, 0 < l.vs ∧ l.vs < l.vp ∧ 0 ≤ l.dz) (hn2 : 2 ≤ layers.length) (delay : K → ℕ → K)
    (hdelay : delay = fun x k => delaySpec sqrt ((upper phase).count 'P') ((upper phase).count 'S') true layers x k) :
    ∃ F : K → K, Monotone F ∧ (∀ j < layers.length, F (delay s j) = delay ref j) ∧
      ((∀ j < layers.length, delay s j ≤ delay ref j) → ∀ x, delay s 0 ≤ x → x ≤ delay s (layers.length - 1) → x ≤ F x) ∧
      ∀ (tr tr1 tr2 : Trace K) (onset : K) (i n : ℕ), 0 < tr.sr → tr.getTime "onset" = some onset →
        tr.getNum "slowness" = some s → tr.delta ≤ delay s (min 9 (layers.length - 1)) →
        (moveoutStep sqrt find nanCase phase ref m tr).2 = .ok tr1 →
        (moveoutStep sqrt find nanCase phase ref m (samplesOf i n tr)).2 = .ok tr2 →
        tr2 = { samplesOf i n tr with data := tr2.data } ∧ tr1 = { tr with data := tr1.data } ∧
        tr2.data.length = (samplesOf i n tr).npts ∧ tr1.data.length = tr.npts ∧
        ∀ k N : ℕ, k < (samplesOf i n tr).npts → N = i + (samplesOf i n tr).npts →
          (sampleTime tr onset (i + k) < F (sampleTime tr onset (N - 1)) ∨
            (sampleTime tr onset (i + k) = F (sampleTime tr onset (N - 1)) ∧
              (N < tr.npts → F (sampleTime tr onset (N - 1)) < F (sampleTime tr onset N))) →
            tr2.data[k]? = tr1.data[i + k]?) ∧
          (((i + k : ℕ) : ℤ) < index0 tr onset → tr2.data[k]? = tr1.data[i + k]?) ∧
          (index0 tr onset < ((i + k : ℕ) : ℤ) → F (sampleTime tr onset (N - 1)) < sampleTime tr onset (i + k) →
            tr2.data[k]? = some 0) ∧
          (N = tr.npts → tr2.data[k]? = tr1.data[i + k]?) := by
  obtain ⟨e1, e2, e3, e4, e5⟩ := delayList_facts sqrt hs layers s ref phase hfirst hS hprop hpropr hv
  obtain ⟨-, e2r, -, -, e5r⟩ := delayList_facts sqrt hs layers ref s phase hfirst hS hpropr hprop hv
  have hdl : ∀ x k, k < layers.length → (delayList sqrt phase layers x).getD k 0 = delay x k := by
    intro x k hk
    unfold delayList
    rw [getD_map_range _ hk, hdelay]
    simp [hfirst]
  have hlt : (delayList sqrt phase layers s).length = layers.length := by simp [delayList]
  have hlr : (delayList sqrt phase layers ref).length = layers.length := by simp [delayList]
  set t := delayList sqrt phase layers s with ht
  set r := delayList sqrt phase layers ref with hr
  have nonneg_mem : ∀ u : List K, (∀ i, 0 ≤ u.getD i 0) → ∀ x ∈ u, 0 ≤ x := by
    intro u hu x hx
    obtain ⟨i, hi, rfl⟩ := List.mem_iff_getElem.1 hx
    have := hu i
    rwa [List.getD_eq_getElem _ _ hi] at this
  have hs0 : (mirrorK t).Pairwise (· ≤ ·) := mirrorK_sorted t (nonneg_mem t e2) ((increasing_iff_pairwise t).1 e5)
  have hs1 : (mirrorK r).Pairwise (· ≤ ·) := mirrorK_sorted r (nonneg_mem r e2r) ((increasing_iff_pairwise r).1 e5r)
  have hL := (mirrorK_getD t 0 (by unfold mirrorK; simp; omega)).1
  have hLr := (mirrorK_getD r 0 (by unfold mirrorK; simp; omega)).1
  have hLL : (mirrorK t).length = (mirrorK r).length := by omega
  have hne : mirrorK t ≠ [] := by intro h; rw [h] at hL; simp at hL; omega
  have hin0 := (increasing_iff_pairwise _).2 hs0
  have hin1 := (increasing_iff_pairwise _).2 hs1
  have hS' : isSMultiple phase = false := by
    unfold isSMultiple
    rw [hfirst]; simp
  refine ⟨interp1 find (mirrorK t) (mirrorK r) none none, ?_, ?_, ?_, ?_⟩
  · intro x y hxy
    exact interp1_mono find hf _ _ none none hLL hne hin0 hin1 (by simp) (by simp) x y hxy
  · intro j hj
    obtain ⟨s1, s2⟩ := mirrorK_shift t j (by omega)
    obtain ⟨s3, s4⟩ := mirrorK_shift r j (by omega)
    rw [← hdl s j hj, ← hdl ref j hj, ← s1, ← s3, hlr, ← hlt]
    refine interp1_knot find hf _ _ none none hne hin0 _ s2 fun a ha hab => ?_
    have c := fun a b ha hb => mirrorK_compat t r e1 e2 e2r e3 e4 a b ha hb
    exact le_antisymm (not_lt.1 fun h => absurd ((c _ _ s2 ha).2 h) (by rw [hab]; exact lt_irrefl _))
      (not_lt.1 fun h => absurd ((c _ _ ha s2).2 h) (by rw [hab]; exact lt_irrefl _))
  · intro hge x hx0 hx1
    obtain ⟨s1, s2⟩ := mirrorK_shift t 0 (by omega)
    obtain ⟨l1, l2⟩ := mirrorK_shift t (t.length - 1) (by omega)
    rw [show min 9 (t.length - 1) + (t.length - 1) = (mirrorK t).length - 1 by omega] at l1
    refine interp1_later find hf _ _ hin0 _ s2 (fun j hj hjl => ?_) x (by rw [s1, hdl s 0 (by omega)]; exact hx0)
      (by rw [l1, hlt, hdl s _ (by omega)]; exact hx1)
    obtain ⟨a, rfl⟩ : ∃ a, j = min 9 (t.length - 1) + a := ⟨j - min 9 (t.length - 1), by omega⟩
    rw [(mirrorK_shift t a (by omega)).1]
    have := (mirrorK_shift r a (by omega)).1
    rw [show r.length = t.length by omega] at this
    rw [this, hdl s a (by omega), hdl ref a (by omega)]
    exact hge a (by omega)
  · intro tr tr1 tr2 onset i n hsr hon hslow hδ h h'
    obtain ⟨h1, h2, h3, h4⟩ := step_tables sqrt find nanCase m layers hvp hvs hdz hfresh s ref phase
      heven hletters hfirst hprop hpropr tr tr1 onset hon hslow h
    obtain ⟨h1', h2', h3', h4'⟩ := step_tables sqrt find nanCase m layers hvp hvs hdz hfresh s ref phase
      heven hletters hfirst hprop hpropr (samplesOf i n tr) tr2 onset hon hslow h'
    have hl1 := (C34_length_and_prefix find tr onset phase _ _ _ hsr h1 h2 h3).1
    have hl2 := (C34_length_and_prefix find (samplesOf i n tr) onset phase _ _ _ hsr h1' h2' h3').1
    refine ⟨h4', h4, hl2, hl1, fun k N hk hN => ?_⟩
    obtain ⟨g1, g2, g3⟩ := moveout_samplesOf find hf tr onset phase (mirrorK t) (mirrorK r) tr1.data tr2.data i n hsr h1' h2' hS' h3 h3'
      hs0 hs1 (fun i hi => by
        rw [mirrorK_first t (by omega), hlt, hdl s _ (by omega)]
        exact (neg_le_neg hδ).trans (onset_sample_time tr onset hsr i hi)) _ rfl k hk N hN
    exact ⟨fun h => g1 (.inr h), fun h => g1 (.inl h), g2, g3⟩

/-- The part of the trace is corrected like the whole trace if no delay of the reference is earlier. -/
theorem step_samplesOf_later (hf : FindSpec find) (hs : SqrtStrict sqrt)
    (nanCase : Trace K → Res (List K)) (m : SimpleModel K) (layers : List (Layer K))
    (hvp : m.vp = layers.map Layer.vp) (hvs : m.vs = layers.map Layer.vs)
    (hdz : m.dz = layers.map Layer.dz) (hfresh : m.tRef = []) (s ref : K) (phase : Str)
    (heven : phase.length % 2 = 0)
    (hletters : ∀ c ∈ upper phase, c = 'P' ∨ c = 'S') (hfirst : (upper phase).head? = some 'P')
    (hS : 'S' ∈ upper phase) (hprop : Propagates layers s) (hpropr : Propagates layers ref)
    (hv : ∀ l ∈ layers, 0 < l.vs ∧ l.vs < l.vp ∧ 0 ≤ l.dz) (hn2 : 2 ≤ layers.length) (delay : K → ℕ → K)
    (hdelay : delay = fun x k => delaySpec sqrt ((upper phase).count 'P') ((upper phase).count 'S') true layers x k)
    (hlater : ∀ j < layers.length, delay s j ≤ delay ref j)
    (tr tr1 tr2 : Trace K) (onset : K) (i n : ℕ) (hsr : 0 < tr.sr) (hon : tr.getTime "onset" = some onset)
    (hslow : tr.getNum "slowness" = some s) (hδ : tr.delta ≤ delay s (min 9 (layers.length - 1)))
    (htop : delay s 0 ≤ (samplesOf i n tr).endtime - onset) (hbot : tr.endtime - onset ≤ delay s (layers.length - 1))
    (h : (moveoutStep sqrt find nanCase phase ref m tr).2 = .ok tr1)
    (h' : (moveoutStep sqrt find nanCase phase ref m (samplesOf i n tr)).2 = .ok tr2) :
    tr2 = samplesOf i n tr1 := by
  obtain ⟨F, F1, F2, F3, F4⟩ := step_samplesOf sqrt find hf hs nanCase m layers hvp hvs hdz hfresh s ref phase heven hletters
    hfirst hS hprop hpropr hv hn2 delay hdelay
  obtain ⟨a1, a2, a3, a4, a5⟩ := F4 tr tr1 tr2 onset i n hsr hon hslow hδ h h'
  have hnp := npts_samplesOf tr i n
  have hst : ∀ j l : ℕ, j < l → sampleTime tr onset j < sampleTime tr onset l := by
    intro j l hjl
    unfold sampleTime
    have : (j : K) / tr.sr < (l : K) / tr.sr := div_lt_div_of_pos_right (by exact_mod_cast hjl) hsr
    linarith
  have key : tr2.data = (tr1.data.drop i).take n := by
    refine List.ext_getElem? fun k => ?_
    rw [List.getElem?_take, List.getElem?_drop]
    by_cases hk : k < (samplesOf i n tr).npts
    · rw [if_pos (by omega)]
      set N := i + (samplesOf i n tr).npts with hN
      obtain ⟨b1, -, -, b4⟩ := a5 k N hk hN
      by_cases hNn : N = tr.npts
      · exact b4 hNn
      have hend : (samplesOf i n tr).endtime - onset = sampleTime tr onset (N - 1) := by
        unfold Trace.endtime
        rw [if_neg (show ¬ (samplesOf i n tr).data.length = 0 from fun h => by unfold Trace.npts at hk; omega)]
        show tr.start + (i : K) * tr.delta + (((samplesOf i n tr).npts - 1 : ℕ) : K) * tr.delta - onset = _
        unfold sampleTime Trace.delta
        rw [show N - 1 = i + ((samplesOf i n tr).npts - 1) by omega]
        push_cast; ring
      have hlast : sampleTime tr onset (tr.npts - 1) = tr.endtime - onset := by
        unfold Trace.endtime sampleTime Trace.delta
        rw [if_neg (show ¬ tr.data.length = 0 from fun h => by have : tr.npts = 0 := h; omega)]
        show _ = tr.start + ((tr.npts - 1 : ℕ) : K) * (1 / tr.sr) - onset
        ring
      rw [hend] at htop
      have hle : ∀ j, j < tr.npts → sampleTime tr onset j ≤ delay s (layers.length - 1) := by
        intro j hj
        rw [← hlast] at hbot
        rcases Nat.lt_or_ge j (tr.npts - 1) with h1 | h1
        · exact (hst _ _ h1).le.trans hbot
        · rw [show j = tr.npts - 1 by omega]; exact hbot
      have f1 := F3 hlater _ htop (hle (N - 1) (by omega))
      have f2 := F3 hlater _ (htop.trans (hst (N - 1) N (by omega)).le) (hle N (by omega))
      have f3 : sampleTime tr onset (i + k) ≤ sampleTime tr onset (N - 1) := by
        rcases Nat.lt_or_ge (i + k) (N - 1) with h1 | h1
        · exact (hst _ _ h1).le
        · rw [show i + k = N - 1 by omega]
      refine b1 ?_
      rcases lt_or_eq_of_le (f3.trans f1) with h1 | h1
      · exact .inl h1
      · refine .inr ⟨h1, fun _ => ?_⟩
        have := hst (N - 1) N (by omega)
        linarith
    · rw [List.getElem?_eq_none (by omega)]
      split
      · rw [List.getElem?_eq_none (by omega)]
      · rfl
  rw [a1, a2, key]
  rfl

/-- The part of the trace is corrected like the whole trace if nothing is cut off at its end. -/
theorem step_samplesOf_start (hf : FindSpec find) (hs : SqrtStrict sqrt)
    (nanCase : Trace K → Res (List K)) (m : SimpleModel K) (layers : List (Layer K))
    (hvp : m.vp = layers.map Layer.vp) (hvs : m.vs = layers.map Layer.vs)
    (hdz : m.dz = layers.map Layer.dz) (hfresh : m.tRef = []) (s ref : K) (phase : Str)
    (heven : phase.length % 2 = 0)
    (hletters : ∀ c ∈ upper phase, c = 'P' ∨ c = 'S') (hfirst : (upper phase).head? = some 'P')
    (hS : 'S' ∈ upper phase) (hprop : Propagates layers s) (hpropr : Propagates layers ref)
    (hv : ∀ l ∈ layers, 0 < l.vs ∧ l.vs < l.vp ∧ 0 ≤ l.dz) (hn2 : 2 ≤ layers.length) (delay : K → ℕ → K)
    (hdelay : delay = fun x k => delaySpec sqrt ((upper phase).count 'P') ((upper phase).count 'S') true layers x k)
    (tr tr1 tr2 : Trace K) (onset : K) (i n : ℕ) (hsr : 0 < tr.sr) (hon : tr.getTime "onset" = some onset)
    (hslow : tr.getNum "slowness" = some s) (hδ : tr.delta ≤ delay s (min 9 (layers.length - 1)))
    (hall : i + (samplesOf i n tr).npts = tr.npts)
    (h : (moveoutStep sqrt find nanCase phase ref m tr).2 = .ok tr1)
    (h' : (moveoutStep sqrt find nanCase phase ref m (samplesOf i n tr)).2 = .ok tr2) :
    tr2 = samplesOf i n tr1 := by
  obtain ⟨F, -, -, -, F4⟩ := step_samplesOf sqrt find hf hs nanCase m layers hvp hvs hdz hfresh s ref phase heven hletters
    hfirst hS hprop hpropr hv hn2 delay hdelay
  obtain ⟨a1, a2, a3, a4, a5⟩ := F4 tr tr1 tr2 onset i n hsr hon hslow hδ h h'
  have hnp := npts_samplesOf tr i n
  have key : tr2.data = (tr1.data.drop i).take n := by
    refine List.ext_getElem? fun k => ?_
    rw [List.getElem?_take, List.getElem?_drop]
    by_cases hk : k < (samplesOf i n tr).npts
    · rw [if_pos (by omega)]
      exact (a5 k _ hk rfl).2.2.2 hall
    · rw [List.getElem?_eq_none (by omega)]
      split
      · rw [List.getElem?_eq_none (by omega)]
      · rfl
  rw [a1, a2, key]
  rfl

/-! ### Streams -/

section stream
variable (nanCase : Trace K → Res (List K))

/-- What `trim2` with a window relative to the onset does to a trace. -/
theorem trim2_samples (trim : Trace K → TArg K → TArg K → Res (Trace K)) (f : ℕ → K → K → K → Res (ℕ × ℕ))
    (hcut : ∀ (t : Trace K) (x y : K),
      trim t (.utc x) (.utc y) = (f t.npts t.sr (x - t.start) (y - t.start)).map fun p => samplesOf p.1 p.2 t)
    (a b : K) (st st1 : SState K) (hn : st.2.Nodup)
    (h1 : trim2 trim (.sec a) (.sec b) (.key "onset") st = (st1, none)) (r : ℕ) (hr : r ∈ st.2) (o : K)
    (ho : (st.1 r).getTime "onset" = some o) :
    ∃ i n, f (st.1 r).npts (st.1 r).sr (o + a - (st.1 r).start) (o + b - (st.1 r).start) = .ok (i, n) ∧
      st1.1 r = samplesOf i n (st.1 r) := by
  obtain ⟨-, h2, -⟩ := C49_trim2 trim _ _ _ st st1 hn h1
  obtain ⟨x, y, hx, hy, hxy⟩ := h2 r hr
  have he : (st.1 r).ext.get "onset" = some (.time o) := by
    unfold Trace.getTime at ho
    split at ho
    · rename_i z hz; simp only [Option.some.injEq] at ho; rw [hz, ho]
    · simp at ho
  have hw : ∀ d x, WindowEnd (st.1 r) (.sec d) (.key "onset") x → x = .utc (o + d) := by
    intro d x hx
    rw [← windowEnd_iff] at hx
    simp only [seconds2utc, statsTime, he, show ¬ "onset" = "starttime" by decide, show ¬ "onset" = "endtime" by decide,
      if_false, Except.ok.injEq] at hx
    exact hx.symm
  rw [hw a x hx, hw b y hy, hcut] at hxy
  cases hf' : f (st.1 r).npts (st.1 r).sr (o + a - (st.1 r).start) (o + b - (st.1 r).start) with
  | error e => rw [hf'] at hxy; simp [Except.map] at hxy
  | ok p =>
    rw [hf'] at hxy
    simp only [Except.map, Except.ok.injEq] at hxy
    exact ⟨p.1, p.2, rfl, hxy.symm⟩

/-- Both orders: the traces before, in between and after. -/
theorem trim_moveout (trim : Trace K → TArg K → TArg K → Res (Trace K)) (hcut : CutsSamples trim) (a b : K)
    (info : Str) (phase : Option Str) (ref : K) (m m2 m3 : SimpleModel K) (hfresh : m.tRef = [])
    (st st1 st2 st3 st4 : SState K) (hn : st.2.Nodup) (p : Str) (hp : moveoutPhase st.1 st.2 phase = .ok p)
    (hp1 : moveoutPhase st1.1 st1.2 phase = .ok p)
    (h1 : trim2 trim (.sec a) (.sec b) (.key "onset") st = (st1, none))
    (h2 : streamMoveout sqrt find nanCase info phase ref m st1 = (m2, st2, none))
    (h3 : streamMoveout sqrt find nanCase info phase ref m st = (m3, st3, none))
    (h4 : trim2 trim (.sec a) (.sec b) (.key "onset") st3 = (st4, none))
    (hlen : ∀ r ∈ st.2, (st3.1 r).npts = (st.1 r).npts) :
    st4.2 = st2.2 ∧ ∀ r ∈ st2.2, r ∈ st.2 ∧ ∃ (i n : ℕ) (o : K) (t1 t2 : Trace K),
      (st.1 r).getTime "onset" = some o ∧
      (moveoutStep sqrt find nanCase p ref m (st.1 r)).2 = .ok t1 ∧
      (moveoutStep sqrt find nanCase p ref m (samplesOf i n (st.1 r))).2 = .ok t2 ∧
      st1.1 r = samplesOf i n (st.1 r) ∧ 0 < (samplesOf i n (st.1 r)).npts ∧
      (st3.1 r).data = t1.data ∧ (st3.1 r).start = t1.start ∧ (st3.1 r).sr = t1.sr ∧
      (st2.1 r).data = t2.data ∧ (st2.1 r).start = t2.start ∧ (st2.1 r).sr = t2.sr ∧
      st4.1 r = samplesOf i n (st3.1 r) := by
  obtain ⟨f, hf⟩ := hcut
  have inv : CacheInv sqrt m m p ref := ⟨rfl, fun t ht => by rw [hfresh] at ht; simp [lookupRef] at ht⟩
  obtain ⟨q1, -, -⟩ := C49_trim2 trim _ _ _ st st1 hn h1
  have hsub : ∀ r ∈ st1.2, r ∈ st.2 ∧ (st1.1 r).npts ≠ 0 := fun r hr => by
    rw [q1, List.mem_filter] at hr
    exact ⟨hr.1, by simpa using hr.2⟩
  have hn1 : st1.2.Nodup := by rw [q1]; exact hn.filter _
  obtain ⟨e3, p3, -, b3⟩ := C40_bookkeeping sqrt find nanCase info phase ref m m3 st st3 hn h3
  obtain ⟨e2, p2, -, b2⟩ := C40_bookkeeping sqrt find nanCase info phase ref m m2 st1 st2 hn1 h2
  obtain ⟨q4, -, -⟩ := C49_trim2 trim _ _ _ st3 st4 (by rw [e3]; exact hn) h4
  obtain ⟨-, each3⟩ := stream_each sqrt find nanCase info phase ref m m m3 hfresh st st3 hn p hp inv h3
  obtain ⟨-, each2⟩ := stream_each sqrt find nanCase info phase ref m m m2 hfresh st1 st2 hn1 p hp1 inv h2
  have hstep : ∀ tr t, (moveoutStep sqrt find nanCase p ref m tr).2 = .ok t →
      ∃ o, tr.getTime "onset" = some o ∧ t.start = tr.start ∧ t.sr = tr.sr := by
    intro tr t ht
    unfold moveoutStep at ht
    cases ho : tr.getTime "onset" with
    | none => simp [ho] at ht
    | some o =>
      refine ⟨o, rfl, ?_⟩
      simp only [ho] at ht
      split at ht
      · simp at ht
      · split at ht
        · simp at ht
        · split at ht
          · simp at ht
          · split at ht
            · simp at ht
            · simp only [Except.ok.injEq] at ht
              rw [← ht]
              exact ⟨rfl, rfl⟩
  have main : ∀ r ∈ st.2, ∃ (i n : ℕ) (o : K) (t1 : Trace K), (st.1 r).getTime "onset" = some o ∧
      (moveoutStep sqrt find nanCase p ref m (st.1 r)).2 = .ok t1 ∧ st1.1 r = samplesOf i n (st.1 r) ∧
      (st3.1 r).data = t1.data ∧ (st3.1 r).start = t1.start ∧ (st3.1 r).sr = t1.sr ∧ (st3.1 r).start = (st.1 r).start ∧
      (st3.1 r).sr = (st.1 r).sr ∧ (st3.1 r).getTime "onset" = some o ∧
      st4.1 r = samplesOf i n (st3.1 r) := by
    intro r hr
    obtain ⟨t1, ht1, d1, d2, d3⟩ := each3 r hr
    obtain ⟨o, ho, s1, s2⟩ := hstep _ _ ht1
    have ho3 : (st3.1 r).getTime "onset" = some o := by
      rw [← ho]
      unfold Trace.getTime
      rw [(b3 r hr).2.2.2.2 "onset" (by decide)]
    obtain ⟨i, n, hin, hst1⟩ := trim2_samples trim f hf a b st st1 hn h1 r hr o ho
    obtain ⟨i', n', hin', hst4⟩ := trim2_samples trim f hf a b st3 st4 (by rw [e3]; exact hn) h4 r (by rw [e3]; exact hr) o ho3
    refine ⟨i, n, o, t1, ho, ht1, hst1, d1, d2, d3, by rw [d2, s1], by rw [d3, s2], ho3, ?_⟩
    rw [hlen r hr, d3, s2, d2, s1, hin] at hin'
    cases hin'
    exact hst4
  refine ⟨?_, fun r hr => ?_⟩
  · rw [q4, e2, q1, e3]
    refine List.filter_congr fun r hr => ?_
    obtain ⟨i, n, o, t1, -, -, c3, -, -, -, -, -, -, c10⟩ := main r hr
    rw [c3, c10, npts_samplesOf, npts_samplesOf, hlen r hr]
  · rw [e2] at hr
    obtain ⟨hr0, hne⟩ := hsub r hr
    obtain ⟨i, n, o, t1, c1, c2, c3, c4, c5, c6, -, -, -, c10⟩ := main r hr0
    obtain ⟨t2, ht2, d1, d2, d3⟩ := each2 r hr
    rw [c3] at ht2 hne
    exact ⟨hr0, i, n, o, t1, t2, c1, c2, ht2, c3, Nat.pos_of_ne_zero hne, c4, c5, c6, d1, d2, d3, c10⟩

/-- The hypothesis on the cutting function is met by cutting at the nearest samples. -/
theorem nearestTrim_cuts : CutsSamples (nearestTrim (K := K)) :=
  ⟨fun _ sr u v => if v < u then .error .valueError
    else .ok (⌊u * sr + 1 / 2⌋.toNat, (⌊v * sr + 1 / 2⌋ + 1).toNat - ⌊u * sr + 1 / 2⌋.toNat), fun t x y => by
      simp only [nearestTrim]
      split <;> rfl⟩

variable (hf : FindSpec find) (hs : SqrtStrict sqrt) (m m2 m3 : SimpleModel K) (layers : List (Layer K))
  (hvp : m.vp = layers.map Layer.vp) (hvs : m.vs = layers.map Layer.vs) (hdz : m.dz = layers.map Layer.dz)
  (hfresh : m.tRef = []) (hv : ∀ l ∈ layers, 0 < l.vs ∧ l.vs < l.vp ∧ 0 ≤ l.dz) (hn2 : 2 ≤ layers.length) (ref : K)
  (hpropr : Propagates layers ref) (p : Str) (heven : p.length % 2 = 0) (hletters : ∀ c ∈ upper p, c = 'P' ∨ c = 'S')
  (hfirst : (upper p).head? = some 'P') (hS : 'S' ∈ upper p) (delay : K → ℕ → K)
  (hdelay : delay = fun x k => delaySpec sqrt ((upper p).count 'P') ((upper p).count 'S') true layers x k)
  (trim : Trace K → TArg K → TArg K → Res (Trace K)) (hcut : CutsSamples trim) (a b : K) (info : Str) (phase : Option Str)
  (st st1 st2 st3 st4 : SState K) (hn : st.2.Nodup) (hp : moveoutPhase st.1 st.2 phase = .ok p)
  (hp1 : moveoutPhase st1.1 st1.2 phase = .ok p)
  (h1 : trim2 trim (.sec a) (.sec b) (.key "onset") st = (st1, none))
  (h2 : streamMoveout sqrt find nanCase info phase ref m st1 = (m2, st2, none))
  (h3 : streamMoveout sqrt find nanCase info phase ref m st = (m3, st3, none))
  (h4 : trim2 trim (.sec a) (.sec b) (.key "onset") st3 = (st4, none))
  (slow : ℕ → K)
  (hst : ∀ r ∈ st.2, 0 < (st.1 r).sr ∧ (st.1 r).getNum "slowness" = some (slow r) ∧ Propagates layers (slow r) ∧
    (st.1 r).delta ≤ delay (slow r) (min 9 (layers.length - 1)))

include hvp hvs hdz hfresh hpropr heven hletters hfirst hn hp h3 hst in
theorem moveout_npts : ∀ r ∈ st.2, (st3.1 r).npts = (st.1 r).npts := by
  intro r hr
  have inv : CacheInv sqrt m m p ref := ⟨rfl, fun t ht => by rw [hfresh] at ht; simp [lookupRef] at ht⟩
  obtain ⟨-, each3⟩ := stream_each sqrt find nanCase info phase ref m m m3 hfresh st st3 hn p hp inv h3
  obtain ⟨t, ht, d1, -, -⟩ := each3 r hr
  obtain ⟨c1, c2, c3, c4⟩ := hst r hr
  have ho : ∃ o, (st.1 r).getTime "onset" = some o := by
    unfold moveoutStep at ht
    cases ho : (st.1 r).getTime "onset" with
    | none => simp [ho] at ht
    | some o => exact ⟨o, rfl⟩
  obtain ⟨o, ho⟩ := ho
  obtain ⟨k1, k2, k3, -⟩ := step_tables sqrt find nanCase m layers hvp hvs hdz hfresh (slow r) ref p heven hletters hfirst c3
    hpropr (st.1 r) t o ho c2 ht
  have := (C34_length_and_prefix find (st.1 r) o p _ _ _ c1 k1 k2 k3).1
  unfold Trace.npts
  rw [d1, this]

include hf hs hvp hvs hdz hfresh hv hn2 hpropr heven hletters hfirst hS hdelay hcut hn hp hp1 h1 h2 h3 h4 hst in
/-- **C184, what the code does.**  A window relative to the onset, cut out before and after the move out correction: the
same traces remain with the same start times.  For each there is an increasing map `F` of times after the onset, which maps
the delays of the trace to those of the reference.  Samples up to the time to which the last sample of the window is moved
are the same in both orders; later ones are zero if the window is cut out first. -/
theorem C184_samples_partial : st4.2 = st2.2 ∧ ∀ r ∈ st2.2, (st4.1 r).start = (st2.1 r).start ∧
    (st4.1 r).sr = (st2.1 r).sr ∧ (st4.1 r).npts = (st2.1 r).npts ∧
    ∃ (o : K) (F : K → K), (st.1 r).getTime "onset" = some o ∧ Monotone F ∧
      (∀ j < layers.length, F (delay (slow r) j) = delay ref j) ∧
      ∀ k < (st2.1 r).npts,
        (sampleTime (st2.1 r) o k < F ((st2.1 r).endtime - o) → (st2.1 r).data[k]? = (st4.1 r).data[k]?) ∧
        (index0 (st2.1 r) o < (k : ℤ) → F ((st2.1 r).endtime - o) < sampleTime (st2.1 r) o k → (st2.1 r).data[k]? = some 0) := by
  have hlen := moveout_npts sqrt find nanCase m m3 layers hvp hvs hdz hfresh ref hpropr p heven hletters hfirst delay info phase
    st st3 hn hp h3 slow hst
  obtain ⟨e1, e2⟩ := trim_moveout sqrt find nanCase trim hcut a b info phase ref m m2 m3 hfresh st st1 st2 st3 st4 hn p hp hp1
    h1 h2 h3 h4 hlen
  refine ⟨e1, fun r hr => ?_⟩
  obtain ⟨hr0, i, n, o, t1, t2, c1, c2, c3, c4, c5, c6, c7, c8, c9, c10, c11, c12⟩ := e2 r hr
  obtain ⟨s1, s2, s3, s4⟩ := hst r hr0
  obtain ⟨F, F1, F2, -, F4⟩ := step_samplesOf sqrt find hf hs nanCase m layers hvp hvs hdz hfresh (slow r) ref p heven hletters
    hfirst hS s3 hpropr hv hn2 delay hdelay
  obtain ⟨a1, a2, a3, a4, a5⟩ := F4 (st.1 r) t1 t2 o i n s1 c1 s2 s4 c2 c3
  have hnp := npts_samplesOf (st.1 r) i n
  have hsr2 : (st2.1 r).sr = (st.1 r).sr := by rw [c11, a1]; rfl
  have hstart2 : (st2.1 r).start = (st.1 r).start + (i : K) * (st.1 r).delta := by rw [c10, a1]; rfl
  have hnp2 : (st2.1 r).npts = (samplesOf i n (st.1 r)).npts := by unfold Trace.npts at a3 ⊢; rw [c9, a3]
  have htime : ∀ k : ℕ, sampleTime (st2.1 r) o k = sampleTime (st.1 r) o (i + k) := by
    intro k
    unfold sampleTime
    rw [hsr2, hstart2]
    unfold Trace.delta
    push_cast; ring
  have hend : (st2.1 r).endtime - o = sampleTime (st.1 r) o (i + (samplesOf i n (st.1 r)).npts - 1) := by
    rw [show i + (samplesOf i n (st.1 r)).npts - 1 = i + ((st2.1 r).npts - 1) by omega, ← htime]
    unfold Trace.endtime sampleTime
    rw [if_neg (show ¬ (st2.1 r).data.length = 0 from fun h => by have : (st2.1 r).npts = 0 := h; omega)]
    unfold Trace.delta Trace.npts
    ring
  have hi0 : index0 (st2.1 r) o = index0 (st.1 r) o - i := by
    rw [← index0_samplesOf (st.1 r) o i n s1]
    unfold index0
    rw [hsr2, hstart2]
    rfl
  refine ⟨?_, ?_, ?_, o, F, c1, F1, F2, fun k hk => ?_⟩
  · rw [c12, hstart2]
    show (st3.1 r).start + (i : K) * (st3.1 r).delta = _
    unfold Trace.delta
    rw [c7, c8, a2]
  · rw [c12, hsr2]
    show (st3.1 r).sr = _
    rw [c8, a2]
  · rw [c12, npts_samplesOf, hlen r hr0, hnp2, hnp]
  · obtain ⟨b1, b2, b3, b4⟩ := a5 k _ (by omega) rfl
    have h4d : (st4.1 r).data[k]? = t1.data[i + k]? := by
      rw [c12]
      show ((List.drop i (st3.1 r).data).take n)[k]? = _
      rw [List.getElem?_take, List.getElem?_drop, if_pos (by omega), c6]
    rw [hend, htime, h4d, c9]
    refine ⟨fun h => b1 (.inl h), fun h h' => b3 ?_ h'⟩
    rw [hi0] at h
    push_cast
    omega

include hf hs hvp hvs hdz hfresh hv hn2 hpropr heven hletters hfirst hS hdelay hcut hn hp hp1 h1 h2 h3 h4 hst in
/-- **C184, partial.**  The two orders give the same samples if nothing is cut off at the end, or if the delays for the
reference slowness are not earlier than those of the trace (as long as they are tabulated). -/
theorem C184_commutes_partial : st4.2 = st2.2 ∧ ∀ r ∈ st2.2, ∀ o, (st.1 r).getTime "onset" = some o →
    ((st1.1 r).endtime = (st.1 r).endtime ∨
      ((∀ j < layers.length, delay (slow r) j ≤ delay ref j) ∧ delay (slow r) 0 ≤ (st1.1 r).endtime - o ∧
        (st.1 r).endtime - o ≤ delay (slow r) (layers.length - 1))) →
    (st2.1 r).data = (st4.1 r).data ∧ (st2.1 r).start = (st4.1 r).start ∧ (st2.1 r).sr = (st4.1 r).sr := by
  have hlen := moveout_npts sqrt find nanCase m m3 layers hvp hvs hdz hfresh ref hpropr p heven hletters hfirst delay info phase
    st st3 hn hp h3 slow hst
  obtain ⟨e1, e2⟩ := trim_moveout sqrt find nanCase trim hcut a b info phase ref m m2 m3 hfresh st st1 st2 st3 st4 hn p hp hp1
    h1 h2 h3 h4 hlen
  refine ⟨e1, fun r hr o ho hor => ?_⟩
  obtain ⟨hr0, i, n, o', t1, t2, c1, c2, c3, c4, c5, c6, c7, c8, c9, c10, c11, c12⟩ := e2 r hr
  rw [ho] at c1
  cases c1
  obtain ⟨s1, s2, s3, s4⟩ := hst r hr0
  have hnp := npts_samplesOf (st.1 r) i n
  have key : t2 = samplesOf i n t1 := by
    rcases hor with hall | ⟨k1, k2, k3⟩
    · refine step_samplesOf_start sqrt find hf hs nanCase m layers hvp hvs hdz hfresh (slow r) ref p heven hletters
        hfirst hS s3 hpropr hv hn2 delay hdelay (st.1 r) t1 t2 o i n s1 ho s2 s4 ?_ c2 c3
      rw [c4] at hall
      unfold Trace.endtime at hall
      have q1 : ¬ (samplesOf i n (st.1 r)).data.length = 0 := fun h => by unfold Trace.npts at c5; omega
      have q2 : ¬ (st.1 r).data.length = 0 := fun h => by have : (st.1 r).npts = 0 := h; omega
      rw [if_neg q1, if_neg q2] at hall
      replace hall : (st.1 r).start + (i : K) * (1 / (st.1 r).sr) +
          (((samplesOf i n (st.1 r)).npts - 1 : ℕ) : K) * (1 / (st.1 r).sr)
        = (st.1 r).start + (((st.1 r).npts - 1 : ℕ) : K) * (1 / (st.1 r).sr) := hall
      have q3 : ((i + ((samplesOf i n (st.1 r)).npts - 1) : ℕ) : K) = (((st.1 r).npts - 1 : ℕ) : K) := by
        have hne : (1 / (st.1 r).sr) ≠ 0 := (one_div_pos.2 s1).ne'
        refine mul_right_cancel₀ hne ?_
        push_cast
        linarith
      have := Nat.cast_injective q3
      omega
    · exact step_samplesOf_later sqrt find hf hs nanCase m layers hvp hvs hdz hfresh (slow r) ref p heven hletters
        hfirst hS s3 hpropr hv hn2 delay hdelay k1 (st.1 r) t1 t2 o i n s1 ho s2 s4 (by rw [← c4]; exact k2) k3 c2 c3
  refine ⟨?_, ?_, ?_⟩
  · rw [c9, key, c12]
    show ((t1.data.drop i).take n) = (((st3.1 r).data.drop i).take n)
    rw [c6]
  · rw [c10, key, c12]
    show t1.start + (i : K) * t1.delta = (st3.1 r).start + (i : K) * (st3.1 r).delta
    unfold Trace.delta
    rw [c7, c8]
  · rw [c11, key, c12]
    show t1.sr = (st3.1 r).sr
    rw [c8]

end stream

end

/-- Delays of `Ps` for a larger slowness are later. -/
theorem ps_later (layers : List (Layer ℝ)) (hv : ∀ l ∈ layers, 0 < l.vs ∧ l.vs < l.vp ∧ 0 ≤ l.dz) (x y : ℝ) (hx : 0 ≤ x)
    (hxy : x ≤ y) (hprop : Propagates layers y) (k : ℕ) :
    delaySpec Real.sqrt 1 1 true layers x k ≤ delaySpec Real.sqrt 1 1 true layers y k := by
  unfold delaySpec
  refine sum_le_of_le _ _ _ fun l hl => ?_
  obtain ⟨h1, h2, h3⟩ := hv l (List.mem_of_mem_take hl)
  refine mul_le_mul_of_nonneg_right ?_ h3
  have := qDiff_mono l.vp l.vs x y h1 h2.le hx hxy (hprop l (List.mem_of_mem_take hl)).1
  simp only [Nat.cast_one, if_true]
  linarith

/-- **C184 for `Ps`.**  The reference slowness is not below the slownesses of the traces (conversions are moved to later
times): the window can be cut out before or after the correction. -/
theorem C184_ps_partial (find : List ℝ → ℝ → ℕ) (hf : FindSpec find) (nanCase : Trace ℝ → Res (List ℝ)) (m m2 m3 : SimpleModel ℝ)
    (layers : List (Layer ℝ))
    (hvp : m.vp = layers.map Layer.vp) (hvs : m.vs = layers.map Layer.vs) (hdz : m.dz = layers.map Layer.dz)
    (hfresh : m.tRef = []) (hv : ∀ l ∈ layers, 0 < l.vs ∧ l.vs < l.vp ∧ 0 ≤ l.dz) (hn2 : 2 ≤ layers.length) (ref : ℝ)
    (hpropr : Propagates layers ref) (p : Str) (hps : upper p = "PS".toList)
    (trim : Trace ℝ → TArg ℝ → TArg ℝ → Res (Trace ℝ)) (hcut : CutsSamples trim) (a b : ℝ) (info : Str) (phase : Option Str)
    (st st1 st2 st3 st4 : SState ℝ) (hn : st.2.Nodup) (hp : moveoutPhase st.1 st.2 phase = .ok p)
    (hp1 : moveoutPhase st1.1 st1.2 phase = .ok p)
    (h1 : trim2 trim (.sec a) (.sec b) (.key "onset") st = (st1, none))
    (h2 : streamMoveout Real.sqrt find nanCase info phase ref m st1 = (m2, st2, none))
    (h3 : streamMoveout Real.sqrt find nanCase info phase ref m st = (m3, st3, none))
    (h4 : trim2 trim (.sec a) (.sec b) (.key "onset") st3 = (st4, none))
    (slow : ℕ → ℝ)
    (hst : ∀ r ∈ st.2, 0 < (st.1 r).sr ∧ (st.1 r).getNum "slowness" = some (slow r) ∧ 0 ≤ slow r ∧ slow r ≤ ref ∧
      (st.1 r).delta ≤ delaySpec Real.sqrt 1 1 true layers (slow r) (min 9 (layers.length - 1)) ∧
      ∀ o, (st.1 r).getTime "onset" = some o →
        delaySpec Real.sqrt 1 1 true layers (slow r) 0 ≤ (st1.1 r).endtime - o ∧
        (st.1 r).endtime - o ≤ delaySpec Real.sqrt 1 1 true layers (slow r) (layers.length - 1)) :
    st4.2 = st2.2 ∧ ∀ r ∈ st2.2, (st2.1 r).data = (st4.1 r).data ∧ (st2.1 r).start = (st4.1 r).start ∧
      (st2.1 r).sr = (st4.1 r).sr := by
  have hlen : p.length = 2 := by
    have : (upper p).length = 2 := by rw [hps]; rfl
    simpa [upper] using this
  have hall := C184_commutes_partial Real.sqrt find nanCase hf sqrtStrict_real m m2 m3 layers hvp hvs hdz hfresh hv hn2 ref
    hpropr p (by rw [hlen]) (by rw [hps]; decide) (by rw [hps]; decide) (by rw [hps]; decide)
    (fun x k => delaySpec Real.sqrt 1 1 true layers x k) (by rw [hps]; rfl) trim hcut a b info phase st st1 st2 st3 st4 hn hp
    hp1 h1 h2 h3 h4 slow (fun r hr => ⟨(hst r hr).1, (hst r hr).2.1,
      propagates_smaller layers _ ref (hst r hr).2.2.1 (hst r hr).2.2.2.1 hpropr, (hst r hr).2.2.2.2.1⟩)
  refine ⟨hall.1, fun r hr => ?_⟩
  have hr0 : r ∈ st.2 := by
    have hlen := moveout_npts Real.sqrt find nanCase m m3 layers hvp hvs hdz hfresh ref hpropr p (by rw [hlen])
      (by rw [hps]; decide) (by rw [hps]; decide) (fun x k => delaySpec Real.sqrt 1 1 true layers x k) info phase
      st st3 hn hp h3 slow (fun r hr => ⟨(hst r hr).1, (hst r hr).2.1,
        propagates_smaller layers _ ref (hst r hr).2.2.1 (hst r hr).2.2.2.1 hpropr, (hst r hr).2.2.2.2.1⟩)
    exact ((trim_moveout Real.sqrt find nanCase trim hcut a b info phase ref m m2 m3 hfresh st st1 st2 st3 st4 hn p hp hp1
      h1 h2 h3 h4 hlen).2 r hr).1
  obtain ⟨c1, c2, c3, c4, c5, c6⟩ := hst r hr0
  have ho : ∃ o, (st.1 r).getTime "onset" = some o := by
    have inv : CacheInv Real.sqrt m m p ref := ⟨rfl, fun t ht => by rw [hfresh] at ht; simp [lookupRef] at ht⟩
    obtain ⟨t, ht, -⟩ := (stream_each Real.sqrt find nanCase info phase ref m m m3 hfresh st st3 hn p hp inv h3).2 r hr0
    unfold moveoutStep at ht
    cases ho : (st.1 r).getTime "onset" with
    | none => simp [ho] at ht
    | some o => exact ⟨o, rfl⟩
  obtain ⟨o, ho⟩ := ho
  exact hall.2 r hr o ho (.inr ⟨fun j _ => ps_later layers hv _ _ c3 c4 hpropr j, c6 o ho⟩)

/-- 20 samples from 5 s before to 14 s after the onset, slowness 0. -/
noncomputable def cutTrace0 : Trace ℝ :=
  ⟨[], [], [], ['Q'], -5, 1, (List.range 20).map (fun (k : ℕ) => (k : ℝ)), [("onset", .time 0), ("slowness", .num 0)]⟩

theorem trim2_one (st : SState ℝ) (hs : st.2 = [0]) (h1 : (st.1 0).start = -5) (h2 : (st.1 0).sr = 1)
    (h3 : (st.1 0).npts = 20) (h4 : (st.1 0).ext.get "onset" = some (.time 0)) :
    ∃ st', trim2 nearestTrim (.sec (-2)) (.sec 9) (.key "onset") st = (st', none) ∧ st'.2 = [0] ∧
      st'.1 0 = samplesOf 3 12 (st.1 0) := by
  have hc : cutTrace nearestTrim (.sec (-2)) (.sec 9) (.key "onset") (st.1 0) = .ok (samplesOf 3 12 (st.1 0)) := by
    have f1 : ⌊((0 : ℝ) + -2 - -5) * 1 + 1 / 2⌋ = 3 := by rw [Int.floor_eq_iff]; norm_num
    have f2 : ⌊((0 : ℝ) + 9 - -5) * 1 + 1 / 2⌋ = 14 := by rw [Int.floor_eq_iff]; norm_num
    simp only [cutTrace, seconds2utc, statsTime, h4, show ¬ "onset" = "starttime" by decide,
      show ¬ "onset" = "endtime" by decide, if_false, nearestTrim, h1, h2, f1, f2]
    norm_num
    rfl
  have hnp : (samplesOf 3 12 (st.1 0)).npts ≠ 0 := by rw [npts_samplesOf, h3]; decide
  unfold trim2
  rw [hs]
  simp only [Heap.forEachE, hc]
  refine ⟨_, rfl, ?_, ?_⟩
  · simp [Heap.set, hnp]
  · simp [Heap.set]

example : ∃ m2 m3 st1 st2 st3 st4,
    trim2 nearestTrim (.sec (-2)) (.sec 9) (.key "onset") ((fun _ => cutTrace0), [0]) = (st1, none) ∧
    streamMoveout Real.sqrt npFind (fun _ => .error .other) [] (some "Ps".toList) pySlow pyModel st1 = (m2, st2, none) ∧
    streamMoveout Real.sqrt npFind (fun _ => .error .other) [] (some "Ps".toList) pySlow pyModel ((fun _ => cutTrace0), [0])
      = (m3, st3, none) ∧
    trim2 nearestTrim (.sec (-2)) (.sec 9) (.key "onset") st3 = (st4, none) ∧ st2.2 = [0] ∧
    (st2.1 0).data = (st4.1 0).data ∧ (st2.1 0).data.length = 12 := by
  have hcor : Correctable pyLayers cutTrace0 := by
    refine ⟨by simp [cutTrace0], 0, 0, rfl, by simp [cutTrace0], ?_, ?_, rfl, pyLayers_prop.2⟩
    · simp [Trace.endtime, cutTrace0, Trace.delta, Trace.npts]; norm_num
    · simp [Simple.index0, cutTrace0, Trace.npts]
  obtain ⟨st1, t1, t2, t3⟩ := trim2_one ((fun _ => cutTrace0), [0]) rfl rfl rfl (by simp [cutTrace0, Trace.npts]) rfl
  have hdata1 : (samplesOf 3 12 cutTrace0).data.length = 12 := by
    have := npts_samplesOf cutTrace0 3 12
    simpa [Trace.npts, cutTrace0] using this
  have hend1 : (samplesOf 3 12 cutTrace0).endtime = 9 := by
    unfold Trace.endtime
    rw [hdata1]
    simp [samplesOf, cutTrace0, Trace.delta, Trace.npts]; norm_num
  have hcor1 : Correctable pyLayers (samplesOf 3 12 cutTrace0) := by
    refine ⟨by simp [cutTrace0, samplesOf], 0, 0, rfl, by simp [cutTrace0, samplesOf, Trace.delta]; norm_num, ?_, ?_, rfl,
      pyLayers_prop.2⟩
    · rw [hend1]; norm_num
    · rw [show (samplesOf 3 12 cutTrace0).npts = 12 from hdata1, index0_samplesOf _ _ _ _ (by simp [cutTrace0])]
      simp [Simple.index0, cutTrace0]
  obtain ⟨m2, st2, o2⟩ := C118_succeeds Real.sqrt npFind (fun _ => .error .other) [] (some "Ps".toList) "Ps".toList pySlow
    pyModel pyModel pyLayers rfl rfl rfl rfl (inv_refl Real.sqrt pyModel rfl _ _) st1 (by rw [t2]; decide)
    (by rw [t2]; rfl) (by decide) (by decide) (by decide) pyLayers_prop.1 (by simp [pyLayers])
    (by rw [t2]; intro r hr; simp only [List.mem_singleton] at hr; subst hr; rw [t3]; exact hcor1)
  obtain ⟨m3, st3, o3⟩ := C118_succeeds Real.sqrt npFind (fun _ => .error .other) [] (some "Ps".toList) "Ps".toList pySlow
    pyModel pyModel pyLayers rfl rfl rfl rfl (inv_refl Real.sqrt pyModel rfl _ _) ((fun _ => cutTrace0), [0]) (by decide)
    rfl (by decide) (by decide) (by decide) pyLayers_prop.1 (by simp [pyLayers])
    (by intro r hr; exact hcor)
  obtain ⟨e3, q3, -, b3⟩ := C40_bookkeeping Real.sqrt npFind _ [] (some "Ps".toList) pySlow pyModel m3 _ st3 (by decide) o3
  obtain ⟨e2, -⟩ := C40_bookkeeping Real.sqrt npFind _ [] (some "Ps".toList) pySlow pyModel m2 st1 st2 (by rw [t2]; decide) o2
  have hon : (st3.1 0).ext.get "onset" = some (.time 0) := by
    rw [(b3 0 (by simp)).2.2.2.2 "onset" (by decide)]; rfl
  have hd : ∀ j : ℕ, 1 ≤ j → delaySpec Real.sqrt 1 1 true pyLayers 0 (min 9 j) = 7 * ((if j = 1 then 1 else 2 : ℕ) : ℝ) := by
    intro j hj
    rw [(py_delay _).2, if_neg (by omega)]
    congr 3
    exact propext ⟨by omega, by omega⟩
  have hslow : ∀ r ∈ [0], 0 < cutTrace0.sr ∧ cutTrace0.getNum "slowness" = some 0 ∧ Propagates pyLayers 0 ∧
      cutTrace0.delta ≤ delaySpec Real.sqrt 1 1 true pyLayers 0 (min 9 (pyLayers.length - 1)) := by
    intro r _
    refine ⟨by simp [cutTrace0], rfl, pyLayers_prop.2, ?_⟩
    rw [hd _ (by simp [pyLayers])]
    simp [cutTrace0, Trace.delta, pyLayers]
    norm_num
  have hnp := moveout_npts Real.sqrt npFind (fun _ => .error .other) pyModel m3 pyLayers rfl rfl rfl rfl pySlow pyLayers_prop.1
    "Ps".toList (by decide) (by decide) (by decide) (fun x k => delaySpec Real.sqrt 1 1 true pyLayers x k) [] (some "Ps".toList)
    ((fun _ => cutTrace0), [0]) st3 (by decide) rfl o3 (fun _ => 0) hslow 0 (by simp)
  obtain ⟨t, ht, c1, c2, c3⟩ := (stream_each Real.sqrt npFind _ [] (some "Ps".toList) pySlow pyModel pyModel m3 rfl _ st3
    (by decide) "Ps".toList rfl (inv_refl Real.sqrt pyModel rfl _ _) o3).2 0 (by simp)
  obtain ⟨t', ht', ht2⟩ := step_succeeds Real.sqrt npFind (fun _ => .error .other) pyModel pyLayers rfl rfl rfl rfl "Ps".toList
    pySlow (by decide) (by decide) (by decide) pyLayers_prop.1 (by simp [pyLayers]) cutTrace0 hcor
  have htt : t = t' := by
    rw [ht'] at ht
    simpa using ht.symm
  obtain ⟨st4, v1, v2, v3⟩ := trim2_one st3 e3 (by rw [c2, htt, ht2]; rfl) (by rw [c3, htt, ht2]; rfl)
    (by rw [hnp]; simp [cutTrace0, Trace.npts]) hon
  have hmain := C184_ps_partial npFind npFind_spec (fun _ => .error .other) pyModel m2 m3 pyLayers rfl rfl rfl rfl pyLayers_vel
    (by simp [pyLayers]) pySlow pyLayers_prop.1 "Ps".toList (by decide) nearestTrim nearestTrim_cuts (-2) 9 [] (some "Ps".toList)
    ((fun _ => cutTrace0), [0]) st1 st2 st3 st4 (by decide) rfl (by rw [t2]; rfl) t1 o2 o3 v1 (fun _ => 0) (by
      intro r hr
      obtain ⟨w1, w2, w3, w4⟩ := hslow r hr
      simp only [List.mem_singleton] at hr
      subst hr
      refine ⟨w1, w2, le_rfl, by norm_num [pySlow], w4, fun o ho => ?_⟩
      have : o = 0 := by
        have : cutTrace0.getTime "onset" = some 0 := rfl
        rw [this] at ho
        simpa using ho.symm
      subst this
      rw [t3, hend1, (py_delay _).2, (py_delay _).2]
      simp [pyLayers, Trace.endtime, cutTrace0, Trace.delta, Trace.npts]
      norm_num)
  refine ⟨m2, m3, st1, st2, st3, st4, t1, o2, o3, v1, by rw [e2, t2], ?_⟩
  have hm := hmain.2 0 (by rw [e2, t2]; simp)
  refine ⟨hm.1, ?_⟩
  rw [hm.1, v3]
  show (((st3.1 0).data.drop 3).take 12).length = 12
  rw [List.length_take, List.length_drop, show (st3.1 0).data.length = 20 by
    have : (st3.1 0).npts = 20 := by rw [hnp]; simp [cutTrace0, Trace.npts]
    exact this]
  rfl

/-- **C184 is false of the code.**  A conversion at 11 s, which belongs at 7 s for the reference slowness: a window of 9 s cut
out after the correction shows it, if it is cut out before, there are zeros. -/
theorem C184_counterexample : ∃ (h : Heap ℚ) (st1 st2 st3 st4 : SState ℚ) (m m2 m3 : SimpleModel ℚ),
    trim2 nearestTrim (.sec 0) (.sec 9) (.key "onset") (h, [0]) = (st1, none) ∧
    streamMoveout ratSqrt npFind (fun _ => .error .other) [] none 0 m st1 = (m2, st2, none) ∧
    streamMoveout ratSqrt npFind (fun _ => .error .other) [] none 0 m (h, [0]) = (m3, st3, none) ∧
    trim2 nearestTrim (.sec 0) (.sec 9) (.key "onset") st3 = (st4, none) ∧
    (st4.1 0).data.length = 10 ∧ (st2.1 0).data.length = 10 ∧ (st2.1 0).data.getD 5 0 = (st4.1 0).data.getD 5 0 ∧
    (st4.1 0).data.getD 7 0 = 11 ∧ (st2.1 0).data.getD 7 0 = 0 := by
  let m : SimpleModel ℚ := ⟨[0, 0, 78], [0, 78, 78], [6, 6, 6], [39 / 10, 39 / 10, 39 / 10], []⟩
  let st1 := trim2 nearestTrim (.sec 0) (.sec 9) (.key "onset") (ratHeap, [0])
  let st2 := streamMoveout ratSqrt npFind (fun _ => .error .other) [] none 0 m st1.1
  let st3 := streamMoveout ratSqrt npFind (fun _ => .error .other) [] none 0 m (ratHeap, [0])
  let st4 := trim2 nearestTrim (.sec 0) (.sec 9) (.key "onset") st3.2.1
  have e : st1.2 = none ∧ st2.2.2 = none ∧ st3.2.2 = none ∧ st4.2 = none ∧ (st4.1.1 0).data.length = 10 ∧
      (st2.2.1.1 0).data.length = 10 ∧ (st2.2.1.1 0).data.getD 5 0 = (st4.1.1 0).data.getD 5 0 ∧
      (st4.1.1 0).data.getD 7 0 = 11 ∧ (st2.2.1.1 0).data.getD 7 0 = 0 := by decide +kernel
  obtain ⟨e1, e2, e3, e4, e5⟩ := e
  exact ⟨ratHeap, st1.1, st2.2.1, st3.2.1, st4.1, m, st2.1, st3.1, Prod.ext rfl e1,
    Prod.ext rfl (Prod.ext rfl e2), Prod.ext rfl (Prod.ext rfl e3), Prod.ext rfl e4, e5⟩

end Verif.Props
