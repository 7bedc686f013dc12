import Verif.Props.Models
import Verif.Props.StreamOps

/-!
# Delay times between samples and stacking of corrected traces: C157, C158

The theorems on the move out correction so far (C36) are about delay times which coincide with a sample of the
trace.  Here the delay time of the trace lies anywhere between two samples (which is the case of real data): the
corrected trace has at the reference delay time a value between these two samples, and the stack of the corrected
traces a value between the bounds common to all traces.
-/

set_option linter.unusedSimpArgs false
set_option linter.unusedSectionVars false

namespace Verif.Props
open Verif.Py Verif.Model Verif.Model.Simple Verif.Spec

section between
variable {K : Type} [Field K] [LinearOrder K] [IsStrictOrderedRing K] [FloorRing K]

/-- A time `τ` between the samples `k` and `k + 1` which is stretched to the time of sample `k'`: the new sample
`k'` lies between the old samples `k` and `k + 1`. -/
theorem movedBetween (find : List K → K → Nat) (hf : FindSpec find) (tr : Trace K) (onset : K)
    (phase : Str) (t0 t1 d : List K) (hsr : 0 < tr.sr) (hstart : tr.start ≤ onset)
    (hend : onset ≤ tr.endtime) (hphase : isSMultiple phase = false)
    (h : moveoutData find tr onset phase t0 t1 = .ok d)
    (hs0 : t0.Pairwise (· ≤ ·)) (hs1 : t1.Pairwise (· ≤ ·))
    (hcomp : ∀ i j, i < t0.length → j < t0.length → t0.getD i 0 < t0.getD j 0 →
      t1.getD i 0 < t1.getD j 0)
    (hfirst : ∀ i : Nat, (onset - tr.start) * tr.sr < (i : K) + 1 →
      t0.getD 0 0 ≤ sampleTime tr onset i)
    (k k' : Nat) (hk : k + 1 < tr.data.length) (hk' : k' < tr.data.length)
    (hik : (if t1.getD (t1.length - 1) 0 < t0.getD (t0.length - 1) 0 then index0 tr onset + 1
      else index0 tr onset) ≤ k)
    (hik' : (if t1.getD (t1.length - 1) 0 < t0.getD (t0.length - 1) 0 then index0 tr onset + 1
      else index0 tr onset) ≤ k')
    (τ : K) (hτ0 : sampleTime tr onset k ≤ τ) (hτ1 : τ < sampleTime tr onset (k + 1))
    (hlt : τ < t0.getD (t0.length - 1) 0)
    (hval : interp1 find t0 t1 none none τ = sampleTime tr onset k') :
    ∃ w : K, 0 ≤ w ∧ w ≤ 1 ∧
      d[k']? = some ((1 - w) * tr.data.getD k 0 + w * tr.data.getD (k + 1) 0) := by
  obtain ⟨b0, b1, -⟩ := index0_bounds tr onset hsr hstart hend
  have b1 := b1 (by unfold Trace.npts; omega)
  unfold Trace.npts at b1
  unfold moveoutData at h
  rw [hphase, if_neg (by simp)] at h
  obtain ⟨a, b, ha, hb, p1, p2, p3, p4, hd⟩ := moveoutP_ok find tr onset t0 t1 d h
  have hn0 : 0 < t0.length := List.length_pos_iff.2 p2
  have getlast : ∀ (l : List K) (x : K), 0 < l.length → getItem l (-1) = .ok x →
      l.getD (l.length - 1) 0 = x := by
    intro l x hl hx
    unfold getItem at hx
    simp only [show ((-1 : Int) < 0) from by decide, if_true] at hx
    rw [if_pos (by omega)] at hx
    have : ((-1 + (l.length : Int)).toNat) = l.length - 1 := by omega
    rw [this] at hx
    rw [List.getD_eq_getElem _ _ (by omega)]
    rw [List.getElem?_eq_getElem (by omega)] at hx
    simpa using hx
  rw [← getlast t0 a hn0 ha, ← getlast t1 b (by omega) hb] at p3 p4 hd
  simp only [gt_iff_lt] at p3 p4 hd
  have hi0 : index0 tr onset ≤ (if t1.getD (t1.length - 1) 0 < t0.getD (t0.length - 1) 0 then
      index0 tr onset + 1 else index0 tr onset) := by split <;> omega
  generalize (if t1.getD (t1.length - 1) 0 < t0.getD (t0.length - 1) 0 then index0 tr onset + 1
      else index0 tr onset) = i0 at *
  have hc := clampIdx_le (n := tr.data.length) (i := i0) (by omega) (by omega)
  obtain ⟨n0, rfl⟩ : ∃ n0 : Nat, i0 = n0 := ⟨i0.toNat, by omega⟩
  simp only [Int.toNat_natCast, Int.cast_natCast] at hd hc p3 p4
  have htime : ∀ j : Nat, tr.start - onset + (n0 : K) * tr.delta + (j : K) * tr.delta
      = sampleTime tr onset (n0 + j) := by
    intro j; unfold sampleTime Trace.delta; push_cast; ring
  simp only [htime] at hd p3 p4
  have hin : ∀ j : Nat, t0.getD 0 0 ≤ sampleTime tr onset (n0 + j) := by
    intro j
    apply hfirst
    have h1 : (onset - tr.start) * tr.sr < (index0 tr onset : K) + 1 := Int.lt_floor_add_one _
    have h2 : (index0 tr onset : K) ≤ ((n0 + j : Nat) : K) := by
      have : index0 tr onset ≤ ((n0 + j : Nat) : Int) := by push_cast; omega
      exact_mod_cast this
    linarith
  have hsT : ∀ i j : Nat, i ≤ j → sampleTime tr onset i ≤ sampleTime tr onset j := by
    intro i j hij
    unfold sampleTime
    have : (i : K) / tr.sr ≤ (j : K) / tr.sr :=
      div_le_div_of_nonneg_right (by exact_mod_cast hij) hsr.le
    linarith
  have inc0 := (increasing_iff_pairwise t0).2 hs0
  have inc1 := (increasing_iff_pairwise t1).2 hs1
  set F : Nat → K := fun j => interp1 find t0 t1 none none (sampleTime tr onset (n0 + j)) with hF
  have hmapF : ((List.range (tr.npts - n0)).map fun (k : Nat) => sampleTime tr onset (n0 + k)).map
      (interp1 find t0 t1 (some 0) none) = (List.range (tr.npts - n0)).map F := by
    rw [List.map_map]
    apply List.map_congr_left
    intro j _
    simp only [Function.comp_def, hF]
    exact interp1_left find t0 t1 _ none _ (hin j)
  rw [hmapF] at hd p3 p4
  set N := tr.npts - n0 with hN
  have hNlen : N = tr.data.length - n0 := by rw [hN]; rfl
  have hmono : ∀ x y : K, x ≤ y → interp1 find t0 t1 none none x ≤ interp1 find t0 t1 none none y :=
    fun x y hxy => interp1_mono find hf t0 t1 none none p1 p2 inc0 inc1 (by simp) (by simp) x y hxy
  have hinc : Increasing ((List.range N).map F) := by
    intro i j hij hj
    rw [List.length_map, List.length_range] at hj
    rw [getD_map_range F (by omega), getD_map_range F hj]
    exact hmono _ _ (hsT _ _ (by omega))
  have hkN : k - n0 < N := by omega
  have hkN1 : k - n0 + 1 < N := by omega
  have hk'N : k' - n0 < N := by omega
  have hkk : n0 + (k - n0) = k := by omega
  have hkk1 : n0 + (k - n0 + 1) = k + 1 := by omega
  have hkk' : n0 + (k' - n0) = k' := by omega
  have hin' := hin (k - n0)
  rw [hkk] at hin'
  have hlo : F (k - n0) ≤ sampleTime tr onset k' := by
    simp only [hF, hkk]
    rw [← hval]
    exact hmono _ _ hτ0
  have hhi : sampleTime tr onset k' < F (k - n0 + 1) := by
    simp only [hF, hkk1]
    rw [← hval]
    exact interp1_strict find hf t0 t1 p2 inc0 inc1 p1 hcomp τ _ (hin'.trans hτ0) hlt hτ1
  have hchord := interp1_chord find hf ((List.range N).map F) (sliceFrom tr.data n0) none (some 0) hinc (k - n0)
    (by simpa using hkN1) (sampleTime tr onset k') (by rw [getD_map_range F hkN]; exact hlo)
    (by rw [getD_map_range F hkN1]; exact hhi)
  rw [getD_map_range F hkN, getD_map_range F hkN1] at hchord
  have hold : ∀ j : Nat, n0 + j < tr.data.length →
      (sliceFrom tr.data n0).getD j 0 = tr.data.getD (n0 + j) 0 := by
    intro j hj
    rw [List.getD_eq_getElem _ _ (by simp [sliceFrom, hc]; omega), List.getD_eq_getElem _ _ hj]
    simp only [sliceFrom, hc, List.getElem_drop]
  rw [hold _ (by omega), hold _ (by omega), hkk, hkk1] at hchord
  have hpos : 0 < F (k - n0 + 1) - F (k - n0) := sub_pos.2 (lt_of_le_of_lt hlo hhi)
  refine ⟨(sampleTime tr onset k' - F (k - n0)) / (F (k - n0 + 1) - F (k - n0)),
    div_nonneg (sub_nonneg.2 hlo) hpos.le, (div_le_one hpos).2 (by linarith), ?_⟩
  rw [hd]
  rw [List.getElem?_append_right (by simp [sliceTo, hc]; omega)]
  simp only [sliceTo, hc, List.length_take]
  have : k' - min n0 tr.data.length = k' - n0 := by omega
  rw [this, List.getElem?_map, List.getElem?_map, List.getElem?_range hk'N]
  simp only [Option.map_some, hkk', hchord]
  congr 1
  ring

/-- The same for a tabulated time. -/
theorem movedBetween_table (find : List K → K → Nat) (hf : FindSpec find) (tr : Trace K)
    (onset : K) (phase : Str) (t0 t1 d : List K) (hsr : 0 < tr.sr) (hstart : tr.start ≤ onset)
    (hend : onset ≤ tr.endtime) (hphase : isSMultiple phase = false)
    (h : moveoutData find tr onset phase t0 t1 = .ok d)
    (hs0 : t0.Pairwise (· ≤ ·)) (hs1 : t1.Pairwise (· ≤ ·))
    (hcomp : ∀ i j, i < t0.length → j < t0.length →
      (t0.getD i 0 < t0.getD j 0 ↔ t1.getD i 0 < t1.getD j 0))
    (hfirst : ∀ i : Nat, (onset - tr.start) * tr.sr < (i : K) + 1 →
      t0.getD 0 0 ≤ sampleTime tr onset i)
    (i : Nat) (hi : i < t0.length) (hpos1 : 0 < t1.getD i 0)
    (hlast : t0.getD i 0 < t0.getD (t0.length - 1) 0)
    (k k' : Nat) (hk : k + 1 < tr.data.length) (hk' : k' < tr.data.length)
    (hkpos : 0 < sampleTime tr onset k) (hkt : sampleTime tr onset k ≤ t0.getD i 0)
    (hkt1 : t0.getD i 0 < sampleTime tr onset (k + 1)) (hkt' : sampleTime tr onset k' = t1.getD i 0) :
    ∃ w : K, 0 ≤ w ∧ w ≤ 1 ∧
      d[k']? = some ((1 - w) * tr.data.getD k 0 + w * tr.data.getD (k + 1) 0) := by
  have hidx : ∀ j : Nat, 0 < sampleTime tr onset j → index0 tr onset + 1 ≤ j := by
    intro j hj
    unfold sampleTime at hj
    have h1 : (onset - tr.start) * tr.sr < j := by
      have : onset - tr.start < (j : K) / tr.sr := by linarith
      rwa [lt_div_iff₀ hsr] at this
    have h2 : (index0 tr onset : K) ≤ (onset - tr.start) * tr.sr := Int.floor_le _
    have : (index0 tr onset : K) < ((j : Int) : K) := by push_cast; linarith
    have := Int.cast_lt.1 this
    omega
  have hp : t0 ≠ [] ∧ t0.length = t1.length := by
    unfold moveoutData at h
    rw [hphase, if_neg (by simp)] at h
    obtain ⟨a, b, ha, hb, p1, p2, -⟩ := moveoutP_ok find tr onset t0 t1 d h
    exact ⟨p2, p1⟩
  have e1 := hidx k hkpos
  have e2 := hidx k' (by rw [hkt']; exact hpos1)
  refine movedBetween find hf tr onset phase t0 t1 d hsr hstart hend hphase h hs0 hs1
    (fun a b ha hb => (hcomp a b ha hb).1) hfirst k k' hk hk' (by split <;> omega)
    (by split <;> omega) (t0.getD i 0) hkt hkt1 hlast ?_
  rw [hkt']
  refine interp1_knot find hf t0 t1 none none hp.1 ((increasing_iff_pairwise t0).2 hs0) i hi ?_
  intro j hj he
  apply le_antisymm
  · by_contra hcon
    have := (hcomp i j hi hj).2 (not_le.1 hcon)
    rw [he] at this; exact lt_irrefl _ this
  · by_contra hcon
    have := (hcomp j i hj hi).2 (not_le.1 hcon)
    rw [he] at this; exact lt_irrefl _ this

variable (sqrt : K → K) (find : List K → K → Nat)

/-- **C157.** Move out correction for a conversion at the bottom of layer `j` whose delay time for the slowness of the
trace lies between the samples `k` and `k + 1` (after the onset) and whose delay time for the reference slowness is
the time of sample `k'`: the new sample `k'` is a weighted mean of the old samples `k` and `k + 1`.  Conditions as for
C36: the layer is not the last one to delay, one sampling interval is covered by the mirrored part of the table. -/
theorem C157_between_samples (hf : FindSpec find) (hs : SqrtStrict sqrt)
    (nanCase : Trace K → Res (List K)) (m : SimpleModel K) (layers : List (Layer K))
    (hvp : m.vp = layers.map Layer.vp) (hvs : m.vs = layers.map Layer.vs)
    (hdz : m.dz = layers.map Layer.dz) (hfresh : m.tRef = []) (s ref : K) (phase : Str)
    (heven : phase.length % 2 = 0)
    (hletters : ∀ c ∈ upper phase, c = 'P' ∨ c = 'S') (hfirst : (upper phase).head? = some 'P')
    (hS : 'S' ∈ upper phase) (hprop : Propagates layers s) (hpropr : Propagates layers ref)
    (hv : ∀ l ∈ layers, 0 < l.vs ∧ l.vs < l.vp ∧ 0 ≤ l.dz)
    (tr tr' : Trace K) (onset : K) (hsr : 0 < tr.sr) (hon : tr.getTime "onset" = some onset)
    (hslow : tr.getNum "slowness" = some s)
    (h : (moveoutStep sqrt find nanCase phase ref m tr).2 = .ok tr')
    (j : Nat) (hj : j < layers.length)
    (delay : K → Nat → K)
    (hdelay : delay = fun x k => delaySpec sqrt ((upper phase).count 'P') ((upper phase).count 'S')
      true layers x k)
    (hlast : delay s j < delay s (layers.length - 1))
    (hδ : tr.delta ≤ delay s (min 9 (layers.length - 1)))
    (k k' : Nat) (hk : k + 1 < tr.data.length) (hk' : k' < tr.data.length)
    (hkpos : 0 < tr.start + (k : K) / tr.sr - onset)
    (hkt : tr.start + (k : K) / tr.sr - onset ≤ delay s j)
    (hkt1 : delay s j < tr.start + ((k + 1 : Nat) : K) / tr.sr - onset)
    (hkt' : tr.start + (k' : K) / tr.sr - onset = delay ref j) :
    ∃ w : K, 0 ≤ w ∧ w ≤ 1 ∧
      tr'.data[k']? = some ((1 - w) * tr.data.getD k 0 + w * tr.data.getD (k + 1) 0) := by
  obtain ⟨h1, h2, h3, -⟩ := step_tables sqrt find nanCase m layers hvp hvs hdz hfresh s ref phase
    heven hletters hfirst hprop hpropr tr tr' onset hon hslow h
  obtain ⟨e1, e2, e3, e4, e5⟩ := delayList_facts sqrt hs layers s ref phase hfirst hS hprop hpropr hv
  obtain ⟨-, e2r, -, -, e5r⟩ := delayList_facts sqrt hs layers ref s phase hfirst hS hpropr hprop hv
  have hdl : ∀ x k, k < layers.length → (delayList sqrt phase layers x).getD k 0 = delay x k := by
    intro x k hk
    unfold delayList
    rw [getD_map_range _ hk, hdelay]
    simp [hfirst]
  have hlt : (delayList sqrt phase layers s).length = layers.length := by simp [delayList]
  have hlr : (delayList sqrt phase layers ref).length = layers.length := by simp [delayList]
  set t := delayList sqrt phase layers s with ht
  set r := delayList sqrt phase layers ref with hr
  have hn2 : 2 ≤ t.length := by
    by_contra hcon
    have : j = layers.length - 1 := by omega
    rw [← this] at hlast
    exact lt_irrefl _ hlast
  obtain ⟨s1, s2⟩ := mirrorK_shift t j (by omega)
  obtain ⟨s3, s4⟩ := mirrorK_shift r j (by omega)
  rw [← e1] at s3 s4
  have hjpos : 0 < t.getD j 0 := by rw [hdl s j hj]; exact hkpos.trans_le hkt
  have nonneg_mem : ∀ u : List K, (∀ i, 0 ≤ u.getD i 0) → ∀ x ∈ u, 0 ≤ x := by
    intro u hu x hx
    obtain ⟨i, hi, rfl⟩ := List.mem_iff_getElem.1 hx
    have := hu i
    rwa [List.getD_eq_getElem _ _ hi] at this
  have sorted_of : ∀ u : List K, (∀ i j, i ≤ j → j < u.length → u.getD i 0 ≤ u.getD j 0) →
      u.Pairwise (· ≤ ·) := fun u hu => (increasing_iff_pairwise u).1 hu
  obtain ⟨l1, l2⟩ := mirrorK_shift t (t.length - 1) (by omega)
  have hL := (mirrorK_getD t 0 (by omega)).1
  have hML : min 9 (t.length - 1) + (t.length - 1) = (mirrorK t).length - 1 := by omega
  rw [hML] at l1
  have hS' : isSMultiple phase = false := by
    unfold isSMultiple
    rw [hfirst]; simp
  refine movedBetween_table find hf tr onset phase (mirrorK t) (mirrorK r) tr'.data hsr h1 h2 hS'
    h3 (mirrorK_sorted t (nonneg_mem t e2) (sorted_of t e5))
    (mirrorK_sorted r (nonneg_mem r e2r) (sorted_of r e5r))
    (fun a b ha hb => mirrorK_compat t r e1 e2 e2r e3 e4 a b ha hb) ?_
    (min 9 (t.length - 1) + j) s2 ?_ ?_ k k' hk hk' hkpos ?_ ?_ ?_
  · intro i hi
    rw [mirrorK_first t hn2, hlt, hdl s _ (by omega)]
    exact (neg_le_neg hδ).trans (onset_sample_time tr onset hsr i hi)
  · rw [s3]; exact (e3 j).1 hjpos
  · rw [s1, l1, hdl s j hj, hlt, hdl s _ (by omega)]; exact hlast
  · rw [s1, hdl s j hj]; exact hkt
  · rw [s1, hdl s j hj]; exact hkt1
  · rw [s3, hdl ref j hj]; exact hkt'

/-- **C157, bounds.** The new sample lies between the two old samples. -/
theorem convex_bounds (w a b lo hi : K) (h0 : 0 ≤ w) (h1 : w ≤ 1) (ha : lo ≤ a ∧ a ≤ hi) (hb : lo ≤ b ∧ b ≤ hi) :
    lo ≤ (1 - w) * a + w * b ∧ (1 - w) * a + w * b ≤ hi := by
  have e1 := mul_le_mul_of_nonneg_left ha.1 (sub_nonneg.2 h1)
  have e2 := mul_le_mul_of_nonneg_left ha.2 (sub_nonneg.2 h1)
  have e3 := mul_le_mul_of_nonneg_left hb.1 h0
  have e4 := mul_le_mul_of_nonneg_left hb.2 h0
  constructor <;> nlinarith

/-- The mean of values between two bounds. -/
theorem meanAt_bounds (rows : List (List K)) (i : Nat) (lo hi : K) (hne : rows ≠ [])
    (h : ∀ d ∈ rows, lo ≤ d.getD i 0 ∧ d.getD i 0 ≤ hi) : lo ≤ meanAt rows i ∧ meanAt rows i ≤ hi := by
  have hn : (0 : K) < (rows.length : K) := by exact_mod_cast List.length_pos_iff.2 hne
  unfold meanAt
  rw [le_div_iff₀ hn, div_le_iff₀ hn]
  clear hne hn
  induction rows with
  | nil => simp
  | cons d rows ih =>
    obtain ⟨i1, i2⟩ := ih (fun x hx => h x (List.mem_cons_of_mem _ hx))
    obtain ⟨j1, j2⟩ := h d List.mem_cons_self
    simp only [List.map_cons, List.sum_cons, List.length_cons]
    push_cast
    constructor <;> linarith

/-- The move out correction of a trace changes nothing but its data. -/
theorem step_frame (nanCase : Trace K → Res (List K)) (phase : Str) (ref : K) (m : SimpleModel K) (tr t : Trace K)
    (h : (moveoutStep sqrt find nanCase phase ref m tr).2 = .ok t) : t = { tr with data := t.data } := by
  unfold moveoutStep at h
  cases h1 : tr.getTime "onset" with
  | none => simp [h1] at h
  | some onset =>
    simp only [h1] at h
    split at h
    · simp at h
    · cases h2 : tr.getNum "slowness" with
      | none => simp [h2] at h
      | some s =>
        simp only [h2] at h
        rcases h3 : stretch sqrt m s phase ref with ⟨m', _ | ⟨t0, t1⟩⟩
        · simp [h3] at h
        · simp only [h3] at h
          have key : ∀ r : Res (List K), (match r with
              | .error e => (m', .error e)
              | .ok d => (m', .ok { tr with data := d }) : SimpleModel K × Res (Trace K)).2 = .ok t →
              t = { tr with data := t.data } := by
            intro r hr
            cases r with
            | error e => simp at hr
            | ok d =>
              simp only [] at hr
              injection hr with hr
              rw [← hr]
          exact key _ h

/-- The move out correction of a stream leaves start time, sampling rate and codes of the traces as they are. -/
theorem stream_times (nanCase : Trace K → Res (List K)) (info : Str) (phase : Option Str) (ref : K)
    (m m' : SimpleModel K) (hfresh : m.tRef = []) (st st' : SState K) (hn : st.2.Nodup)
    (hok : streamMoveout sqrt find nanCase info phase ref m st = (m', st', none)) :
    ∀ r ∈ st.2, ((st'.1 r).net = (st.1 r).net ∧ (st'.1 r).sta = (st.1 r).sta ∧ (st'.1 r).loc = (st.1 r).loc ∧
      (st'.1 r).cha = (st.1 r).cha) ∧ (st'.1 r).start = (st.1 r).start ∧ (st'.1 r).sr = (st.1 r).sr := by
  cases hp : moveoutPhase st.1 st.2 phase with
  | error e => simp [streamMoveout, hp] at hok
  | ok p =>
    unfold streamMoveout at hok
    simp only [hp] at hok
    have each := moveout_each sqrt find nanCase m m hfresh p ref
      ⟨rfl, fun t ht => by rw [hfresh] at ht; simp [lookupRef] at ht⟩ st.1 st.2 hn
    rcases h1 : Simple.moveout sqrt find nanCase p ref m st.1 st.2 with ⟨a, b, e⟩
    rw [h1] at hok each
    cases e with
    | some e => simp at hok
    | none =>
      simp only [] at hok each
      rcases hl : Heap.forEachE (moveoutLabel p ref) b st.2 with ⟨u, e⟩
      rw [hl] at hok
      cases e with
      | some e => simp at hok
      | none =>
        simp only [Prod.mk.injEq, and_true] at hok
        obtain ⟨-, rfl⟩ := hok
        intro r hr
        have hb := step_frame sqrt find nanCase p ref m (st.1 r) (b r) (each trivial r hr)
        have happ := (Heap.forEachE_ok _ _ _ _ hn hl r).1 hr
        have hu : (u r).net = (b r).net ∧ (u r).sta = (b r).sta ∧ (u r).loc = (b r).loc ∧
            (u r).cha = (b r).cha ∧ (u r).start = (b r).start ∧ (u r).sr = (b r).sr := by
          unfold moveoutLabel at happ
          split at happ
          · simp at happ
          · injection happ with happ
            rw [← happ]
            exact ⟨rfl, rfl, rfl, rfl, rfl, rfl⟩
        have hi := forEachE_inv (fun t : Trace K => (t.net, t.sta, t.loc, t.cha, t.start, t.sr)) (addInfo info)
          (fun t t' ht => by
            obtain ⟨h1, h2, h3, h4, h5, h6, h7⟩ := addInfo_rest info t t' ht
            simp [h2, h3, h4, h5, h6, h7]) u st.2 r
        simp only [Prod.mk.injEq] at hi
        obtain ⟨i1, i2, i3, i4, i5, i6⟩ := hi
        obtain ⟨u1, u2, u3, u4, u5, u6⟩ := hu
        rw [hb] at u1 u2 u3 u4 u5 u6
        exact ⟨⟨i1.trans u1, i2.trans u2, i3.trans u3, i4.trans u4⟩, i5.trans u5, i6.trans u6⟩

theorem stream_id (nanCase : Trace K → Res (List K)) (info : Str) (phase : Option Str) (ref : K)
    (m m' : SimpleModel K) (hfresh : m.tRef = []) (st st' : SState K) (hn : st.2.Nodup)
    (hok : streamMoveout sqrt find nanCase info phase ref m st = (m', st', none)) :
    ∀ r ∈ st.2, (st'.1 r).id = (st.1 r).id := by
  intro r hr
  obtain ⟨⟨h1, h2, h3, h4⟩, -⟩ := stream_times sqrt find nanCase info phase ref m m' hfresh st st' hn hok r hr
  unfold Trace.id
  rw [h1, h2, h3, h4]

/-- A conversion at the bottom of layer `j` as it is recorded by a trace: the delay time for the slowness of the
trace lies between two samples which are in the interval from `lo` to `hi`; the delay time for the reference slowness
is the time of sample `k'`. -/
def Records (delay : K → Nat → K) (layers : List (Layer K)) (ref : K) (j k' : Nat) (lo hi : K) (tr : Trace K) :
    Prop :=
  0 < tr.sr ∧ ∃ onset s k, tr.getTime "onset" = some onset ∧ tr.getNum "slowness" = some s ∧ Propagates layers s ∧
    delay s j < delay s (layers.length - 1) ∧ tr.delta ≤ delay s (min 9 (layers.length - 1)) ∧
    k + 1 < tr.data.length ∧ k' < tr.data.length ∧
    0 < tr.start + (k : K) / tr.sr - onset ∧ tr.start + (k : K) / tr.sr - onset ≤ delay s j ∧
    delay s j < tr.start + ((k + 1 : Nat) : K) / tr.sr - onset ∧
    tr.start + (k' : K) / tr.sr - onset = delay ref j ∧
    (lo ≤ tr.data.getD k 0 ∧ tr.data.getD k 0 ≤ hi) ∧ lo ≤ tr.data.getD (k + 1) 0 ∧ tr.data.getD (k + 1) 0 ≤ hi

/-- **C158.** Coherent stacking: a stream is corrected for move out and stacked.  If all traces with the id of the
stacked trace record the conversion with amplitudes between `lo` and `hi`, each at its own delay time, then the
stack has an amplitude between `lo` and `hi` at the sample of the reference delay time. -/
theorem C158_coherent (hf : FindSpec find) (hs : SqrtStrict sqrt)
    (nanCase : Trace K → Res (List K)) (m m' : SimpleModel K) (layers : List (Layer K))
    (hvp : m.vp = layers.map Layer.vp) (hvs : m.vs = layers.map Layer.vs)
    (hdz : m.dz = layers.map Layer.dz) (hfresh : m.tRef = []) (ref : K) (info phase : Str)
    (heven : phase.length % 2 = 0)
    (hletters : ∀ c ∈ upper phase, c = 'P' ∨ c = 'S') (hfirst : (upper phase).head? = some 'P')
    (hS : 'S' ∈ upper phase) (hpropr : Propagates layers ref)
    (hv : ∀ l ∈ layers, 0 < l.vs ∧ l.vs < l.vp ∧ 0 ≤ l.dz)
    (delay : K → Nat → K)
    (hdelay : delay = fun x k => delaySpec sqrt ((upper phase).count 'P') ((upper phase).count 'S')
      true layers x k)
    (st st' : SState K) (hn : st.2.Nodup) (hphase : moveoutPhase st.1 st.2 (some phase) = .ok phase)
    (hok : streamMoveout sqrt find nanCase info (some phase) ref m st = (m', st', none))
    (order : List Str → List Str) (out : List (Trace K)) (hstack : stack order st'.1 st'.2 = .ok out)
    (t : Trace K) (ht : t ∈ out) (j : Nat) (hj : j < layers.length) (k' : Nat) (lo hi : K)
    (hrec : ∀ r ∈ st.2, (st.1 r).id = t.id → Records delay layers ref j k' lo hi (st.1 r)) :
    k' < t.data.length ∧ lo ≤ t.data.getD k' 0 ∧ t.data.getD k' 0 ≤ hi := by
  obtain ⟨hrefs, -⟩ := C40_bookkeeping sqrt find nanCase info (some phase) ref m m' st st' hn hok
  obtain ⟨p, hp, heach⟩ := C118_each_trace sqrt find nanCase info (some phase) ref m m' hfresh st st' hn hok
  rw [hphase, Except.ok.injEq] at hp
  subst hp
  have hids := stream_id sqrt find nanCase info (some phase) ref m m' hfresh st st' hn hok
  obtain ⟨⟨r0, hr0, hid0⟩, hlen, hmean, -⟩ := C47_mean order st'.1 st'.2 out hstack t ht
  rw [hrefs] at hr0 hlen hmean
  have key : ∀ r ∈ st.2, (st.1 r).id = t.id → k' < (st'.1 r).data.length ∧
      lo ≤ (st'.1 r).data.getD k' 0 ∧ (st'.1 r).data.getD k' 0 ≤ hi := by
    intro r hr hid
    obtain ⟨hsr, onset, s, k, hon, hslow, hprop, hlast, hδ, hk, hk', hkpos, hkt, hkt1, hkt', ha, hb⟩ := hrec r hr hid
    obtain ⟨tr', hstep, hdata⟩ := heach r hr
    obtain ⟨w, w0, w1, hw⟩ := C157_between_samples sqrt find hf hs nanCase m layers hvp hvs hdz hfresh s ref phase heven
      hletters hfirst hS hprop hpropr hv (st.1 r) tr' onset hsr hon hslow hstep j hj delay hdelay hlast hδ k k' hk hk'
      hkpos hkt hkt1 hkt'
    rw [← hdata] at hw
    obtain ⟨hl, he⟩ := List.getElem?_eq_some_iff.1 hw
    refine ⟨hl, ?_⟩
    rw [List.getD_eq_getElem _ _ hl, he]
    exact convex_bounds w _ _ lo hi w0 w1 ha hb
  have hk0 : k' < t.data.length := by
    rw [← hlen r0 hr0 hid0]
    exact (key r0 hr0 (by rw [← hids r0 hr0]; exact hid0)).1
  refine ⟨hk0, ?_⟩
  rw [hmean k' hk0]
  apply meanAt_bounds
  · intro hcon
    rw [List.map_eq_nil_iff, List.filter_eq_nil_iff] at hcon
    exact hcon r0 hr0 (by simpa using hid0)
  · intro d hd
    obtain ⟨r, hr, rfl⟩ := List.mem_map.1 hd
    obtain ⟨hr1, hr2⟩ := List.mem_filter.1 hr
    exact (key r hr1 (by rw [← hids r hr1]; simpa using hr2)).2

/-- **C158, success.** A stream of correctable traces of equal length per id (codes without dots) can be corrected and
stacked. -/
theorem C158_succeeds (nanCase : Trace K → Res (List K)) (m : SimpleModel K) (layers : List (Layer K))
    (hvp : m.vp = layers.map Layer.vp) (hvs : m.vs = layers.map Layer.vs)
    (hdz : m.dz = layers.map Layer.dz) (hfresh : m.tRef = []) (ref : K) (info : Str) (phase : Option Str) (p : Str)
    (heven : p.length % 2 = 0)
    (hletters : ∀ c ∈ upper p, c = 'P' ∨ c = 'S') (hfirst : (upper p).head? = some 'P')
    (hpropr : Propagates layers ref) (hne : layers ≠ []) (st : SState K) (hn : st.2.Nodup) (hst : st.2 ≠ [])
    (hphase : moveoutPhase st.1 st.2 phase = .ok p) (hcor : ∀ r ∈ st.2, Correctable layers (st.1 r))
    (hdot : ∀ r ∈ st.2, '.' ∉ (st.1 r).net ∧ '.' ∉ (st.1 r).sta ∧ '.' ∉ (st.1 r).loc ∧ '.' ∉ (st.1 r).cha)
    (hlen : ∀ r ∈ st.2, ∀ q ∈ st.2, (st.1 r).id = (st.1 q).id → (st.1 r).data.length = (st.1 q).data.length)
    (order : List Str → List Str) (ho : SetOrder order) :
    ∃ m' st' out, streamMoveout sqrt find nanCase info phase ref m st = (m', st', none) ∧
      stack order st'.1 st'.2 = .ok out := by
  obtain ⟨m', st', hok⟩ := C118_succeeds sqrt find nanCase info phase p ref m m layers hvp hvs hdz hfresh
    ⟨rfl, fun t ht => by rw [hfresh] at ht; simp [lookupRef] at ht⟩ st hn hphase heven hletters hfirst hpropr hne hcor
  obtain ⟨hrefs, p', -, hb⟩ := C40_bookkeeping sqrt find nanCase info phase ref m m' st st' hn hok
  obtain ⟨p'', hp, heach⟩ := C118_each_trace sqrt find nanCase info phase ref m m' hfresh st st' hn hok
  rw [hphase, Except.ok.injEq] at hp
  subst hp
  have htimes := stream_times sqrt find nanCase info phase ref m m' hfresh st st' hn hok
  have hids := stream_id sqrt find nanCase info phase ref m m' hfresh st st' hn hok
  have hl : ∀ r ∈ st.2, (st'.1 r).data.length = (st.1 r).data.length := by
    intro r hr
    obtain ⟨hsr, onset, s, c1, c2, c3, c4, c5, c6⟩ := hcor r hr
    obtain ⟨t, ht, hd⟩ := heach r hr
    obtain ⟨-, -, h3, -⟩ := step_tables sqrt find nanCase m layers hvp hvs hdz hfresh s ref p heven hletters hfirst c6
      hpropr (st.1 r) t onset c1 c5 ht
    rw [hd]
    exact (C34_length_and_prefix find (st.1 r) onset p _ _ _ hsr c2 c3 h3).1
  obtain ⟨out, hout⟩ := C47_succeeds order ho st'.1 st'.2 (by rw [hrefs]; exact hst)
    (by rw [hrefs]
        intro r hr
        obtain ⟨⟨h1, h2, h3, h4⟩, -⟩ := htimes r hr
        rw [h1, h2, h3, h4]
        exact hdot r hr)
    (by rw [hrefs]
        intro r hr q hq he
        rw [hl r hr, hl q hq]
        exact hlen r hr q hq (by rw [← hids r hr, ← hids q hq]; exact he))
    (by rw [hrefs]
        intro r hr
        obtain ⟨-, onset, s, c1, -⟩ := hcor r hr
        rw [(hb r hr).2.2.2.2 "onset" (by decide)]
        unfold Trace.getTime at c1
        split at c1
        · rename_i x hx
          exact .inr ⟨x, hx⟩
        · simp at c1)
  exact ⟨m', st', out, hok, hout⟩

/-- **C158, time axis of the stack.** The sample `k'` of the stack is at the reference delay time after the onset of the
stack, if it is so for the first trace of the stream (whose onset the stack gets, whatever its id is). -/
theorem C158_time (nanCase : Trace K → Res (List K)) (m m' : SimpleModel K) (hfresh : m.tRef = []) (ref : K)
    (info : Str) (phase : Option Str) (st st' : SState K) (hn : st.2.Nodup)
    (hok : streamMoveout sqrt find nanCase info phase ref m st = (m', st', none))
    (order : List Str → List Str) (out : List (Trace K)) (hstack : stack order st'.1 st'.2 = .ok out)
    (t : Trace K) (ht : t ∈ out) (k' : Nat) (τ : K) (r0 : Nat) (hr0 : st.2.head? = some r0) (o : K)
    (ho : (st.1 r0).getTime "onset" = some o) (hτ : (st.1 r0).start + (k' : K) / (st.1 r0).sr - o = τ) :
    ∃ o', t.getTime "onset" = some o' ∧ t.start + (k' : K) / t.sr - o' = τ := by
  obtain ⟨hrefs, p, -, hb⟩ := C40_bookkeeping sqrt find nanCase info phase ref m m' st st' hn hok
  have hmem : r0 ∈ st.2 := List.mem_of_mem_head? hr0
  obtain ⟨-, t2, t3⟩ := stream_times sqrt find nanCase info phase ref m m' hfresh st st' hn hok r0 hmem
  have hon := (hb r0 hmem).2.2.2.2 "onset" (by decide)
  have ho' : (st.1 r0).ext.get "onset" = some (.time o) := by
    unfold Trace.getTime at ho
    split at ho
    · rename_i x hx
      rw [hx]
      simpa using ho
    · simp at ho
  obtain ⟨r1, s', hs, hall⟩ := stack_ok order st'.1 st'.2 out hstack
  have hr1 : r1 = r0 := by
    rw [hrefs] at hs
    rw [hs] at hr0
    simpa using hr0
  subst hr1
  obtain ⟨i, hi, hone⟩ := forall2_mem hall ht
  obtain ⟨-, o2, o3, -, -, o6, -⟩ := stackOne_ok st'.1 st'.2 (st'.1 r1) t i hone
  refine ⟨t.start + (o - (st'.1 r1).start), ?_, ?_⟩
  · have := o6 o (hon.trans ho')
    simp [Trace.getTime, this]
  · rw [o3, t2, t3, ← hτ]
    ring

end between

/-! ## Examples -/

/-- Sampling interval of 3.5 s: the delay time of 11 s of the examples lies between the samples 3 and 4. -/
noncomputable def betweenTrace (s : ℝ) (data : List ℝ) : Trace ℝ :=
  ⟨[], "STA".toList, [], ['Q'], 0, 2 / 7, data, [("onset", .time 0), ("slowness", .num s)]⟩

/-- Two traces with different slownesses. -/
noncomputable def betweenState : SState ℝ :=
  (fun r => if r = 0 then betweenTrace pySlow [0, 0, 0, 3, 5, 0, 0, 0] else betweenTrace 0 [0, 0, 4, 5, 0, 0, 0, 0],
    [0, 1])

theorem betweenState_id : ∀ r, (betweenState.1 r).id = ".STA..Q".toList := by
  intro r
  unfold betweenState
  simp only []
  split <;> rfl

theorem betweenState_correctable : ∀ r ∈ betweenState.2, Correctable pyLayers (betweenState.1 r) := by
  intro r hr
  simp only [betweenState, List.mem_cons, List.not_mem_nil, or_false] at hr
  rcases hr with rfl | rfl
  · refine ⟨by simp [betweenState, betweenTrace], 0, pySlow, rfl, by simp [betweenState, betweenTrace], ?_, ?_, rfl,
      pyLayers_prop.1⟩
    · simp [betweenState, Trace.endtime, betweenTrace, Trace.delta, Trace.npts]; norm_num
    · simp [betweenState, Simple.index0, betweenTrace, Trace.npts]
  · refine ⟨by simp [betweenState, betweenTrace], 0, 0, rfl, by simp [betweenState, betweenTrace], ?_, ?_, rfl,
      pyLayers_prop.2⟩
    · simp [betweenState, Trace.endtime, betweenTrace, Trace.delta, Trace.npts]; norm_num
    · simp [betweenState, Simple.index0, betweenTrace, Trace.npts]

theorem betweenState_records : ∀ r ∈ betweenState.2,
    Records (fun x k => delaySpec Real.sqrt 1 1 true pyLayers x k) pyLayers 0 1 2 3 5 (betweenState.1 r) := by
  intro r hr
  simp only [betweenState, List.mem_cons, List.not_mem_nil, or_false] at hr
  have h1 : pyLayers.length - 1 = 2 := rfl
  rcases hr with rfl | rfl
  · refine ⟨by simp [betweenState, betweenTrace], 0, pySlow, 3, rfl, rfl, pyLayers_prop.1, ?_⟩
    rw [h1]
    simp [py_delay, betweenState, betweenTrace, Trace.delta]
    norm_num
  · refine ⟨by simp [betweenState, betweenTrace], 0, 0, 2, rfl, rfl, pyLayers_prop.2, ?_⟩
    rw [h1]
    simp [py_delay, betweenState, betweenTrace, Trace.delta]
    norm_num

/-- C157 and C158 apply: amplitudes 3, 5 at both sides of 11 s and 4, 5 at both sides of 7 s add up coherently at 7 s. -/
example : ∃ m' st' out, streamMoveout Real.sqrt npFind (fun _ => .error .other) [] (some "Ps".toList) 0 pyModel
      betweenState = (m', st', none) ∧ stack dedupOrder st'.1 st'.2 = .ok out ∧
    ∀ t ∈ out, 3 ≤ t.data.getD 2 0 ∧ t.data.getD 2 0 ≤ 5 := by
  have hn : betweenState.2.Nodup := by simp [betweenState]
  have hcodes : ∀ r, (betweenState.1 r).net = [] ∧ (betweenState.1 r).sta = "STA".toList ∧
      (betweenState.1 r).loc = [] ∧ (betweenState.1 r).cha = ['Q'] ∧ (betweenState.1 r).data.length = 8 := by
    intro r
    unfold betweenState
    simp only []
    split <;> exact ⟨rfl, rfl, rfl, rfl, rfl⟩
  obtain ⟨m', st', out, hok, hout⟩ := C158_succeeds Real.sqrt npFind (fun _ => .error .other) pyModel pyLayers rfl rfl
    rfl rfl 0 [] (some "Ps".toList) "Ps".toList (by decide) (by decide) (by decide) pyLayers_prop.2
    (by simp [pyLayers]) betweenState hn (by simp [betweenState]) rfl betweenState_correctable
    (fun r _ => by
      obtain ⟨h1, h2, h3, h4, -⟩ := hcodes r
      rw [h1, h2, h3, h4]
      decide)
    (fun r _ q _ _ => by rw [(hcodes r).2.2.2.2, (hcodes q).2.2.2.2]) dedupOrder dedup_setOrder
  refine ⟨m', st', out, hok, hout, fun t ht => ?_⟩
  exact (C158_coherent Real.sqrt npFind npFind_spec sqrtStrict_real _ pyModel m' pyLayers rfl rfl rfl rfl 0 []
    "Ps".toList (by decide) (by decide) (by decide) (by decide) pyLayers_prop.2 pyLayers_vel _ rfl betweenState st' hn
    rfl hok dedupOrder out hout t ht 1 (by simp [pyLayers]) 2 3 5 (fun r hr _ => betweenState_records r hr)).2

end Verif.Props
