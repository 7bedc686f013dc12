import Verif.Model.DeconvIter
import Verif.Props.Real

/-!
# Iterative deconvolution: what one pass does
-/

set_option linter.unusedSimpArgs false
set_option linter.unusedSectionVars false

namespace Verif.Props
open Verif.Py Verif.Model Verif.Spec Finset Complex

/-- Position `m - i` on the circle of `n` samples. -/
def cidx (n : ℕ) (m i : ℤ) : ℕ := ((m - i) % n).toNat

theorem cidx_lt (n : ℕ) (hn : 0 < n) (m i : ℤ) : cidx n m i < n := by
  unfold cidx
  have h1 := Int.emod_nonneg (m - i) (show (n : ℤ) ≠ 0 by omega)
  have h2 := Int.emod_lt_of_pos (m - i) (show (0 : ℤ) < n by omega)
  omega

/-- A sum over the circle does not change under rotation. -/
theorem sum_rotate (n : ℕ) (hn : 0 < n) (f : ℕ → ℝ) (i : ℤ) :
    ∑ m ∈ range n, f (cidx n m i) = ∑ m ∈ range n, f m := by
  have key : ∀ (m : ℕ) (a : ℤ), m < n → cidx n (cidx n m a) (-a) = m := by
    intro m a hm
    unfold cidx
    have h1 := Int.emod_nonneg ((m : ℤ) - a) (show (n : ℤ) ≠ 0 by omega)
    rw [Int.toNat_of_nonneg h1, sub_neg_eq_add, Int.emod_add_emod, sub_add_cancel,
      Int.emod_eq_of_lt (by omega) (by omega)]
    simp
  refine sum_nbij' (fun m => cidx n m i) (fun m => cidx n m (-i)) ?_ ?_ ?_ ?_ ?_
  · exact fun m _ => mem_range.2 (cidx_lt n hn _ _)
  · exact fun m _ => mem_range.2 (cidx_lt n hn _ _)
  · exact fun m hm => key m i (mem_range.1 hm)
  · intro m hm
    have := key m (-i) (mem_range.1 hm)
    rwa [neg_neg] at this
  · exact fun m _ => rfl

theorem power_eq (x : List ℝ) (n : ℕ) (h : x.length = n) : power x = ∑ m ∈ range n, x.getD m 0 ^ 2 := by
  subst h
  unfold power
  induction x with
  | nil => simp
  | cons a x ih =>
    rw [List.map_cons, List.sum_cons, ih, List.length_cons, sum_range_succ']
    simp [add_comm]

@[simp] theorem ifftRe_length (X : List ℂ) (n : ℕ) : (ifftRe X n).length = n := by simp [ifftRe]

theorem ifftRe_get (X : List ℂ) (n m : ℕ) (hm : m < n) :
    (ifftRe X n).getD m 0 = ((∑ k ∈ range n, X.getD k 0 * W n (k * m)) / n).re := by
  unfold ifftRe
  rw [getD_map_of_lt _ _ 0 0 m (by simpa using hm), ifft_get _ _ _ hm]

@[simp] theorem zeroSlice_length (x : List ℝ) (a b : ℤ) : (zeroSlice x a b).length = x.length := by
  simp [zeroSlice]

theorem zeroSlice_get (x : List ℝ) (a b : ℤ) (k : ℕ) (hk : k < x.length) :
    (zeroSlice x a b).getD k 0
      = if clampIdx x.length a ≤ k ∧ k < clampIdx x.length b then 0 else x.getD k 0 :=
  getD_map_range_c _ _ _ _ hk

theorem exists_max_abs (x : List ℝ) (h : x ≠ []) : ∃ v ∈ x, ∀ w ∈ x, |w| ≤ |v| := by
  induction x with
  | nil => exact absurd rfl h
  | cons a x ih =>
    by_cases hx : x = []
    · subst hx; exact ⟨a, by simp, by simp⟩
    · obtain ⟨v, hv, h2⟩ := ih hx
      rcases le_total |a| |v| with h | h
      · refine ⟨v, List.mem_cons_of_mem _ hv, fun w hw => ?_⟩
        rcases List.mem_cons.1 hw with rfl | hw
        · exact h
        · exact h2 w hw
      · refine ⟨a, List.mem_cons_self, fun w hw => ?_⟩
        rcases List.mem_cons.1 hw with rfl | hw
        · exact le_rfl
        · exact (h2 w hw).trans h

theorem argmaxAbs_spec (x : List ℝ) (h : x ≠ []) :
    argmaxAbs x < x.length ∧ ∀ k < x.length, |x.getD k 0| ≤ |x.getD (argmaxAbs x) 0| := by
  obtain ⟨v, hv, h2⟩ := exists_max_abs x h
  have hlt : argmaxAbs x < x.length := by
    unfold argmaxAbs
    exact List.findIdx_lt_length_of_exists ⟨v, hv, by simpa using h2⟩
  refine ⟨hlt, fun k hk => ?_⟩
  have := List.findIdx_getElem (p := fun v => decide (∀ w ∈ x, |w| ≤ |v|)) (xs := x) (w := hlt)
  simp only [decide_eq_true_eq] at this
  rw [List.getD_eq_getElem _ _ hlt, List.getD_eq_getElem _ _ hk]
  exact this _ (List.getElem_mem _)

/-- What the set-up of the loop guarantees: the source spectrum is the transform of the real filtered source
`s`, and the powers are the sums of squares. -/
structure EnvOK (e : ItEnv) (s : ℕ → ℝ) : Prop where
  pos : 0 < e.nfft
  dt : e.dt ≠ 0
  slen : e.sSpec.length = e.nfft
  spec : ∀ k < e.nfft, e.sSpec.getD k 0 = ∑ j ∈ range e.nfft, (s j : ℂ) * W e.nfft (-(j * k))
  powS : e.powerS = ∑ j ∈ range e.nfft, s j ^ 2
  rlen : e.rFlt.length = e.nfft
  powR : e.powerR = ∑ j ∈ range e.nfft, e.rFlt.getD j 0 ^ 2

/-- Circular correlation of what is left with the source delayed by `i` samples. -/
def ccorr (n : ℕ) (s : ℕ → ℝ) (rem : List ℝ) (i : ℕ) : ℝ :=
  ∑ j ∈ range n, rem.getD j 0 * s (cidx n j i)

/-- `true` if sample `i` of the correlation is muted. -/
def Muted (e : ItEnv) (i : ℕ) : Prop :=
  clampIdx e.nfft e.muteMin ≤ i ∧ i < clampIdx e.nfft e.muteMax

variable {e : ItEnv} {s : ℕ → ℝ}

theorem corr_length (_ : EnvOK e s) (rem : List ℝ) : (e.corr rem).length = e.nfft := by
  simp [ItEnv.corr]

open Classical in
theorem corr_get (h : EnvOK e s) (rem : List ℝ) (i : ℕ) (hi : i < e.nfft) :
    (e.corr rem).getD i 0 = if Muted e i then 0 else ccorr e.nfft s rem i / e.powerS / e.dt := by
  unfold ItEnv.corr Muted
  simp only
  rw [zeroSlice_get _ _ _ _ (by simpa using hi)]
  simp only [List.length_map, ifftRe_length]
  split
  · rfl
  · rw [getD_map_of_lt _ _ 0 0 i (by simpa using hi), ifftRe_get _ _ _ hi]
    congr 2
    have hpos : e.nfft ≠ 0 := h.pos.ne'
    have := ifft_mul_conj (fun j => ((rem.getD j 0 : ℝ) : ℂ)) (fun j => (s j : ℂ)) e.nfft hpos i
    have e2 : (∑ k ∈ range e.nfft, (mulL (fft (toC rem) e.nfft) (e.sSpec.map (starRingEnd ℂ))).getD k 0 *
        W e.nfft (k * i)) / e.nfft = ((ccorr e.nfft s rem i : ℝ) : ℂ) := by
      have e3 : ((ccorr e.nfft s rem i : ℝ) : ℂ) = ∑ j ∈ range e.nfft, ((rem.getD j 0 : ℝ) : ℂ) *
          (starRingEnd ℂ) ((s (((j : ℤ) - i) % e.nfft).toNat : ℝ) : ℂ) := by
        unfold ccorr
        push_cast
        refine sum_congr rfl fun j _ => ?_
        rw [Complex.conj_ofReal]; rfl
      rw [e3, ← this]
      congr 1
      refine sum_congr rfl fun k hk => ?_
      have hk := mem_range.1 hk
      rw [mulL_get _ _ _ (by simpa using hk) (by simpa [h.slen] using hk),
        getD_map_of_lt _ _ 0 0 k (by rw [h.slen]; exact hk), h.spec k hk, fft_get _ _ _ hk]
      congr 2
      exact sum_congr rfl fun j _ => by rw [toC_getD]
    rw [e2, Complex.ofReal_re]

theorem predict_length (p : List ℝ) : (e.predict p).length = e.nfft := by simp [ItEnv.predict]

theorem predict_get (h : EnvOK e s) (p : List ℝ) (m : ℕ) (hm : m < e.nfft) :
    (e.predict p).getD m 0 = (∑ j ∈ range e.nfft, p.getD j 0 * s (cidx e.nfft m j)) * e.dt := by
  unfold ItEnv.predict
  rw [getD_map_of_lt _ _ 0 0 m (by simpa using hm), ifftRe_get _ _ _ hm]
  congr 1
  have hpos : e.nfft ≠ 0 := h.pos.ne'
  have := ifft_mul (fun j => ((p.getD j 0 : ℝ) : ℂ)) (fun j => (s j : ℂ)) e.nfft hpos m
  have e2 : (∑ k ∈ range e.nfft, (mulL (fft (toC p) e.nfft) e.sSpec).getD k 0 * W e.nfft (k * m)) / e.nfft
      = ((∑ j ∈ range e.nfft, p.getD j 0 * s (cidx e.nfft m j) : ℝ) : ℂ) := by
    push_cast
    rw [← show _ = ∑ j ∈ range e.nfft, ((p.getD j 0 : ℝ) : ℂ) * (s (cidx e.nfft m j) : ℂ) from this]
    congr 1
    refine sum_congr rfl fun k hk => ?_
    have hk := mem_range.1 hk
    rw [mulL_get _ _ _ (by simpa using hk) (by simpa [h.slen] using hk), h.spec k hk, fft_get _ _ _ hk]
    congr 2
    exact sum_congr rfl fun j _ => by rw [toC_getD]
  rw [e2, Complex.ofReal_re]

/-- Energy left after removing a spike of amplitude `b` at lag `i`. -/
def leftover (n : ℕ) (s : ℕ → ℝ) (dt : ℝ) (rem : ℕ → ℝ) (i : ℕ) (b : ℝ) : ℝ :=
  ∑ m ∈ range n, (rem m - b * s (cidx n m i) * dt) ^ 2

theorem leftover_eq (n : ℕ) (hn : 0 < n) (s : ℕ → ℝ) (dt : ℝ) (rem : List ℝ) (i : ℕ) (b : ℝ) :
    leftover n s dt (rem.getD · 0) i b = ∑ m ∈ range n, rem.getD m 0 ^ 2 - 2 * b * dt * ccorr n s rem i
      + b ^ 2 * dt ^ 2 * ∑ m ∈ range n, s m ^ 2 := by
  unfold leftover ccorr
  rw [← sum_rotate n hn (fun m => s m ^ 2) i, mul_sum, mul_sum, ← sum_sub_distrib, ← sum_add_distrib]
  refine sum_congr rfl fun m _ => ?_
  ring

/-- The least leftover at one lag. -/
theorem leftover_ge (n : ℕ) (hn : 0 < n) (s : ℕ → ℝ) (dt P : ℝ) (hP : P = ∑ m ∈ range n, s m ^ 2) (h0 : 0 < P)
    (rem : List ℝ) (i : ℕ) (b : ℝ) :
    ∑ m ∈ range n, rem.getD m 0 ^ 2 - ccorr n s rem i ^ 2 / P ≤ leftover n s dt (rem.getD · 0) i b := by
  rw [leftover_eq n hn, ← hP]
  have : 0 ≤ (b * dt * P - ccorr n s rem i) ^ 2 / P := by positivity
  have e1 : (b * dt * P - ccorr n s rem i) ^ 2 / P
      = b ^ 2 * dt ^ 2 * P - 2 * b * dt * ccorr n s rem i + ccorr n s rem i ^ 2 / P := by
    field_simp
    ring
  linarith

/-- ... is reached with the amplitude the code uses. -/
theorem leftover_best (n : ℕ) (hn : 0 < n) (s : ℕ → ℝ) (dt P : ℝ) (hP : P = ∑ m ∈ range n, s m ^ 2) (h0 : 0 < P)
    (hdt : dt ≠ 0) (rem : List ℝ) (i : ℕ) :
    leftover n s dt (rem.getD · 0) i (ccorr n s rem i / P / dt)
      = ∑ m ∈ range n, rem.getD m 0 ^ 2 - ccorr n s rem i ^ 2 / P := by
  rw [leftover_eq n hn, ← hP]
  field_simp
  ring

/-- Invariant of the loop. -/
structure StOK (e : ItEnv) (s : ℕ → ℝ) (st : ItState) : Prop where
  plen : st.p0.length = e.nfft
  rlen : st.rem.length = e.nfft
  rem : ∀ m < e.nfft, st.rem.getD m 0 = e.rFlt.getD m 0
    - (∑ j ∈ range e.nfft, st.p0.getD j 0 * s (cidx e.nfft m j)) * e.dt

theorem getD_set (l : List ℝ) (i j : ℕ) (v : ℝ) (hi : i < l.length) :
    (l.set i v).getD j 0 = if j = i then v else l.getD j 0 := by
  rw [List.getD_eq_getElem?_getD, List.getElem?_set]
  by_cases h : i = j
  · subst h; simp [hi]
  · rw [if_neg h, if_neg (Ne.symm h), List.getD_eq_getElem?_getD]

/-- One pass: where the spike goes, its amplitude, and what is left. -/
theorem iterStep_spec (h : EnvOK e s) (st st' : ItState) (hst : StOK e s st) (hs : iterStep e st = .ok st') :
    0 < e.powerS ∧ 0 < e.powerR ∧ StOK e s st' ∧ st'.it = st.it + 1 ∧
    st'.sumsq = power st'.rem / e.powerR ∧ st'.dErr = 100 * (st.sumsq - st'.sumsq) ∧
    st'.rms = st.rms.set st.it st'.sumsq ∧
    ∃ i1 < e.nfft, ∃ a : ℝ, (Muted e i1 → a = 0) ∧
      (¬ Muted e i1 → a = ccorr e.nfft s st.rem i1 / e.powerS / e.dt) ∧
      (∀ i < e.nfft, ¬ Muted e i → |ccorr e.nfft s st.rem i / e.powerS / e.dt| ≤ |a|) ∧
      (∀ j < e.nfft, st'.p0.getD j 0 = if j = i1 then st.p0.getD j 0 + a else st.p0.getD j 0) ∧
      power st'.rem = leftover e.nfft s e.dt (st.rem.getD · 0) i1 a := by
  unfold iterStep at hs
  split at hs
  · cases hs
  rename_i hp
  push Not at hp
  have hS0 : 0 ≤ e.powerS := by rw [h.powS]; exact sum_nonneg fun _ _ => sq_nonneg _
  have hR0 : 0 ≤ e.powerR := by rw [h.powR]; exact sum_nonneg fun _ _ => sq_nonneg _
  simp only [Except.ok.injEq] at hs
  subst hs
  have hne : e.corr st.rem ≠ [] := by
    intro h0
    have h1 := corr_length h st.rem
    have h2 := h.pos
    rw [h0] at h1
    simp only [List.length_nil] at h1
    omega
  obtain ⟨hi1, hmax⟩ := argmaxAbs_spec _ hne
  simp only [corr_length h] at hi1 hmax
  set i1 := argmaxAbs (e.corr st.rem) with hi1'
  have hp0 : ∀ j, (st.p0.set i1 (st.p0.getD i1 0 + (e.corr st.rem).getD i1 0)).getD j 0
      = if j = i1 then st.p0.getD j 0 + (e.corr st.rem).getD i1 0 else st.p0.getD j 0 := by
    intro j
    rw [getD_set _ _ _ _ (by rw [hst.plen]; exact hi1)]
    split
    · rename_i h; rw [h]
    · rfl
  have hremlen : (List.zipWith (· - ·) e.rFlt (e.predict
      (st.p0.set i1 (st.p0.getD i1 0 + (e.corr st.rem).getD i1 0)))).length = e.nfft := by
    simp [predict_length, h.rlen]
  have hrem : ∀ m < e.nfft, (List.zipWith (· - ·) e.rFlt (e.predict
      (st.p0.set i1 (st.p0.getD i1 0 + (e.corr st.rem).getD i1 0)))).getD m 0
      = e.rFlt.getD m 0 - (∑ j ∈ range e.nfft,
        (st.p0.set i1 (st.p0.getD i1 0 + (e.corr st.rem).getD i1 0)).getD j 0 * s (cidx e.nfft m j)) * e.dt := by
    intro m hm
    rw [getD_zipWith_of_lt _ _ _ 0 0 0 m (by rw [h.rlen]; exact hm) (by rw [predict_length]; exact hm),
      predict_get h _ m hm]
  refine ⟨lt_of_le_of_ne hS0 hp.1.symm, lt_of_le_of_ne hR0 hp.2.symm, ⟨by simp [hst.plen], hremlen, hrem⟩,
    rfl, rfl, rfl, rfl, i1, hi1, (e.corr st.rem).getD i1 0, ?_, ?_, ?_, fun j _ => hp0 j, ?_⟩
  · intro hm; rw [corr_get h _ _ hi1, if_pos hm]
  · intro hm; rw [corr_get h _ _ hi1, if_neg hm]
  · intro i hi hm
    have := hmax i hi
    rwa [corr_get h _ _ hi, if_neg hm] at this
  · rw [power_eq _ _ hremlen]
    unfold leftover
    refine sum_congr rfl fun m hm => ?_
    have hm := mem_range.1 hm
    simp only []
    rw [hrem m hm, hst.rem m hm]
    congr 1
    have : ∑ j ∈ range e.nfft, (st.p0.set i1 (st.p0.getD i1 0 + (e.corr st.rem).getD i1 0)).getD j 0
        * s (cidx e.nfft m j) = ∑ j ∈ range e.nfft, st.p0.getD j 0 * s (cidx e.nfft m j)
          + (e.corr st.rem).getD i1 0 * s (cidx e.nfft m i1) := by
      rw [← sum_erase_add _ _ (mem_range.2 hi1), ← sum_erase_add (range e.nfft) _ (mem_range.2 hi1), hp0,
        if_pos rfl, add_mul, add_assoc]
      congr 1
      refine sum_congr rfl fun j hj => ?_
      rw [hp0, if_neg (mem_erase.1 hj).1]
    rw [this]
    ring

/-- The energy after one pass. -/
theorem iterStep_energy (h : EnvOK e s) (st st' : ItState) (hst : StOK e s st) (hs : iterStep e st = .ok st') :
    power st'.rem ≤ power st.rem ∧
    ∀ i < e.nfft, ¬ Muted e i → ∀ b : ℝ, power st'.rem ≤ leftover e.nfft s e.dt (st.rem.getD · 0) i b := by
  obtain ⟨hS, hR, hst', -, -, -, -, i1, hi1, a, ha1, ha2, hmax, -, hpow⟩ := iterStep_spec h st st' hst hs
  have key : ∃ c : ℝ, 0 ≤ c ∧ power st'.rem = power st.rem - c ∧
      ∀ i < e.nfft, ¬ Muted e i → ccorr e.nfft s st.rem i ^ 2 / e.powerS ≤ c := by
    by_cases hm : Muted e i1
    · refine ⟨0, le_rfl, ?_, ?_⟩
      · rw [hpow, ha1 hm, sub_zero, power_eq _ _ hst.rlen]
        unfold leftover
        exact sum_congr rfl fun m _ => by ring
      · intro i hi hmi
        have := hmax i hi hmi
        rw [ha1 hm, abs_zero] at this
        have h0 := abs_eq_zero.1 (le_antisymm this (abs_nonneg _))
        have hc : ccorr e.nfft s st.rem i = 0 := by
          rcases div_eq_zero_iff.1 h0 with h1 | h1
          · rcases div_eq_zero_iff.1 h1 with h2 | h2
            · exact h2
            · exact absurd h2 hS.ne'
          · exact absurd h1 h.dt
        rw [hc]; simp
    · refine ⟨ccorr e.nfft s st.rem i1 ^ 2 / e.powerS, by positivity, ?_, ?_⟩
      · rw [hpow, ha2 hm, leftover_best e.nfft h.pos s e.dt e.powerS h.powS hS h.dt, power_eq _ _ hst.rlen]
      · intro i hi hmi
        have := hmax i hi hmi
        rw [ha2 hm, abs_div, abs_div, abs_div, abs_div] at this
        have h1 := (div_le_div_iff_of_pos_right (abs_pos.2 h.dt)).1 this
        have h2 := (div_le_div_iff_of_pos_right (abs_pos.2 hS.ne')).1 h1
        exact (div_le_div_iff_of_pos_right hS).2 (sq_le_sq.2 h2)
  obtain ⟨c, hc0, hc1, hc2⟩ := key
  refine ⟨by linarith, fun i hi hm b => ?_⟩
  have := leftover_ge e.nfft h.pos s e.dt e.powerS h.powS hS st.rem i b
  rw [← power_eq _ _ hst.rlen] at this
  have := hc2 i hi hm
  linarith

end Verif.Props
