import Verif.Model.IterPicks
import Verif.Props.Superposition
import Verif.Props.IterConverge

/-!
# Small changes of the responses in the iterative deconvolution: C207
-/

set_option linter.unusedSimpArgs false
set_option linter.unusedSectionVars false

namespace Verif.Props
open Verif.Py Verif.Model Verif.Spec Finset

section lockstep
variable {e e' : ItEnv} {s : ℕ → ℝ}

open Classical in
/-- What one pass does, with the picked position. -/
theorem step_at (h : EnvOK e s) (st st' : ItState) (hst : StOK e s st) (hs : iterStep e st = .ok st') :
    0 < e.powerS ∧ StOK e s st' ∧ argmaxAbs (e.corr st.rem) < e.nfft ∧
    ∃ a : ℝ, (a = if Muted e (argmaxAbs (e.corr st.rem)) then 0
        else ccorr e.nfft s st.rem (argmaxAbs (e.corr st.rem)) / e.powerS / e.dt) ∧
      (∀ j, st'.p0.getD j 0 = st.p0.getD j 0 + if j = argmaxAbs (e.corr st.rem) then a else 0) ∧
      ∀ m < e.nfft, st'.rem.getD m 0 = st.rem.getD m 0 - a * s (cidx e.nfft m (argmaxAbs (e.corr st.rem))) * e.dt := by
  obtain ⟨hS, -, hok, -⟩ := iterStep_spec h st st' hst hs
  have hne : e.corr st.rem ≠ [] := by
    intro h0
    have h1 := corr_length h st.rem
    have h2 := h.pos
    rw [h0] at h1
    simp only [List.length_nil] at h1
    omega
  obtain ⟨hi1, -⟩ := argmaxAbs_spec _ hne
  rw [corr_length h] at hi1
  have hp : ∀ j, st'.p0.getD j 0 = st.p0.getD j 0 + if j = argmaxAbs (e.corr st.rem) then
      (e.corr st.rem).getD (argmaxAbs (e.corr st.rem)) 0 else 0 := by
    intro j
    unfold iterStep at hs
    split at hs
    · cases hs
    simp only [Except.ok.injEq] at hs
    rw [← hs]
    simp only
    rw [getD_set _ _ _ _ (by rw [hst.plen]; exact hi1)]
    split
    · rename_i hj; rw [hj]
    · rw [add_zero]
  refine ⟨hS, hok, hi1, (e.corr st.rem).getD (argmaxAbs (e.corr st.rem)) 0, corr_get h _ _ hi1, hp, fun m hm => ?_⟩
  rw [hok.rem m hm, hst.rem m hm]
  set i := argmaxAbs (e.corr st.rem)
  set a := (e.corr st.rem).getD i 0
  have : ∑ j ∈ range e.nfft, st'.p0.getD j 0 * s (cidx e.nfft m j) =
      ∑ j ∈ range e.nfft, st.p0.getD j 0 * s (cidx e.nfft m j) + a * s (cidx e.nfft m i) := by
    simp only [hp, add_mul, sum_add_distrib, ite_mul, zero_mul]
    rw [sum_ite_eq' (range e.nfft) i, if_pos (mem_range.2 hi1)]
  rw [this]
  ring

/-- Energy of the difference of two series of `n` samples. -/
noncomputable def diffEnergy (n : ℕ) (x y : List ℝ) : ℝ := ∑ m ∈ range n, (x.getD m 0 - y.getD m 0) ^ 2

/-- Sum of the moduli of the differences. -/
noncomputable def diffSum (n : ℕ) (x y : List ℝ) : ℝ := ∑ m ∈ range n, |x.getD m 0 - y.getD m 0|

/-- Two passes which pick the same position. -/
theorem lock_step (h : EnvOK e s) (h' : EnvOK e' s) (hn : e'.nfft = e.nfft) (hdt : e'.dt = e.dt)
    (hm : ∀ i, Muted e' i ↔ Muted e i) (st st1 st' st1' : ItState) (hst : StOK e s st) (hst' : StOK e' s st')
    (hs : iterStep e st = .ok st1) (hs' : iterStep e' st' = .ok st1')
    (hi : argmaxAbs (e'.corr st'.rem) = argmaxAbs (e.corr st.rem)) :
    diffEnergy e.nfft st1.rem st1'.rem ≤ diffEnergy e.nfft st.rem st'.rem ∧
    diffSum e.nfft st1.p0 st1'.p0 ≤ diffSum e.nfft st.p0 st'.p0 +
      √(diffEnergy e.nfft st.rem st'.rem / e.powerS) / |e.dt| := by
  obtain ⟨hP, -, hi1, a, ha, hp, hr⟩ := step_at h st st1 hst hs
  obtain ⟨-, -, -, a', ha', hp', hr'⟩ := step_at h' st' st1' hst' hs'
  have hPe : e'.powerS = e.powerS := by rw [h.powS, h'.powS, hn]
  rw [hi, hn, hPe, hdt] at ha'
  rw [hi] at hp'
  rw [hi, hn, hdt] at hr'
  rw [hm] at ha'
  set i := argmaxAbs (e.corr st.rem)
  set n := e.nfft
  set d : List ℝ := (List.range n).map fun m => st.rem.getD m 0 - st'.rem.getD m 0 with hd
  have hdm : ∀ m < n, d.getD m 0 = st.rem.getD m 0 - st'.rem.getD m 0 := by
    intro m hm
    rw [hd, List.getD_eq_getElem _ _ (by simpa using hm), List.getElem_map, List.getElem_range]
  have hD : diffEnergy n st.rem st'.rem = ∑ m ∈ range n, d.getD m 0 ^ 2 :=
    sum_congr rfl fun m hm => by rw [hdm m (mem_range.1 hm)]
  have hc : ccorr n s d i = ccorr n s st.rem i - ccorr n s st'.rem i := by
    unfold ccorr
    rw [← sum_sub_distrib]
    exact sum_congr rfl fun m hm => by rw [hdm m (mem_range.1 hm)]; ring
  have hda : Muted e i ∧ a - a' = 0 ∨ a - a' = ccorr n s d i / e.powerS / e.dt := by
    by_cases hmi : Muted e i
    · rw [if_pos hmi] at ha ha'
      exact Or.inl ⟨hmi, by rw [ha, ha', sub_zero]⟩
    · rw [if_neg hmi] at ha ha'
      refine Or.inr ?_
      rw [ha, ha', hc]
      ring
  have hD1 : diffEnergy n st1.rem st1'.rem = leftover n s e.dt (d.getD · 0) i (a - a') := by
    unfold diffEnergy leftover
    refine sum_congr rfl fun m hm => ?_
    have hm := mem_range.1 hm
    simp only
    rw [hr m hm, hr' m hm, hdm m hm]
    ring
  have hbest := leftover_best n h.pos s e.dt e.powerS h.powS hP h.dt d i
  have hnon : 0 ≤ leftover n s e.dt (d.getD · 0) i (ccorr n s d i / e.powerS / e.dt) := sum_nonneg fun _ _ => sq_nonneg _
  have hsq : 0 ≤ ccorr n s d i ^ 2 / e.powerS := by positivity
  have hda' : |a - a'| ≤ √(diffEnergy n st.rem st'.rem / e.powerS) / |e.dt| := by
    rw [le_div_iff₀ (abs_pos.2 h.dt), ← abs_mul]
    refine Real.abs_le_sqrt ?_
    rcases hda with ⟨-, h0⟩ | h0
    · rw [h0, zero_mul, zero_pow two_ne_zero]
      exact div_nonneg (sum_nonneg fun _ _ => sq_nonneg _) hP.le
    · rw [h0, div_mul_cancel₀ _ h.dt, hD, div_pow, le_div_iff₀ hP, show ccorr n s d i ^ 2 / e.powerS ^ 2 * e.powerS =
        ccorr n s d i ^ 2 / e.powerS by field_simp]
      linarith
  constructor
  · rw [hD1, hD]
    rcases hda with ⟨-, h0⟩ | h0
    · rw [h0]
      exact le_of_eq (sum_congr rfl fun m _ => by ring)
    · rw [h0, hbest]
      linarith
  · refine le_trans ?_ (add_le_add_right hda' _)
    unfold diffSum
    have : |a - a'| = ∑ j ∈ range n, if j = i then |a - a'| else 0 := by
      rw [sum_ite_eq' (range n) i, if_pos (mem_range.2 hi1)]
    rw [this, ← sum_add_distrib]
    refine sum_le_sum fun j _ => ?_
    rw [hp, hp']
    split
    · rw [show ∀ x y : ℝ, x + a - (y + a') = (x - y) + (a - a') by intros; ring]
      exact abs_add_le _ _
    · rw [add_zero, add_zero, add_zero]

/-- Two runs of the loop which pick the same positions. -/
theorem lock_loop (h : EnvOK e s) (h' : EnvOK e' s) (hn : e'.nfft = e.nfft) (hdt : e'.dt = e.dt)
    (hm : ∀ i, Muted e' i ↔ Muted e i) (minderr : ℝ) (k : ℕ) : ∀ (st st' fin fin' : ItState), StOK e s st → StOK e' s st' →
    iterLoop e minderr k st = .ok fin → iterLoop e' minderr k st' = .ok fin' →
    picks e minderr k st = picks e' minderr k st' → ∀ D, diffEnergy e.nfft st.rem st'.rem ≤ D →
    diffSum e.nfft fin.p0 fin'.p0 ≤ diffSum e.nfft st.p0 st'.p0 + (picks e minderr k st).length * (√(D / e.powerS) / |e.dt|) ∧
    fin.it = st.it + (picks e minderr k st).length := by
  induction k with
  | zero =>
    intro st st' fin fin' _ _ hl hl' _ D _
    simp only [iterLoop, Except.ok.injEq] at hl hl'
    subst hl hl'
    simp [picks]
  | succ k ih =>
    intro st st' fin fin' hst hst' hl hl' hpk D hD
    unfold iterLoop at hl hl'
    unfold picks at hpk ⊢
    by_cases hc : |st.dErr| > minderr
    · rw [if_pos hc] at hl hpk ⊢
      cases hs : iterStep e st with
      | error er => rw [hs] at hl; cases hl
      | ok st1 =>
        rw [hs] at hl
        simp only [hs] at hpk ⊢
        by_cases hc' : |st'.dErr| > minderr
        · rw [if_pos hc'] at hl' hpk
          cases hs' : iterStep e' st' with
          | error er => rw [hs'] at hl'; cases hl'
          | ok st1' =>
            rw [hs'] at hl'
            simp only [hs'] at hpk
            injection hpk with hp1 hp2
            obtain ⟨g1, g2⟩ := lock_step h h' hn hdt hm st st1 st' st1' hst hst' hs hs' hp1.symm
            obtain ⟨hP, k1, -⟩ := step_at h st st1 hst hs
            obtain ⟨-, k2, -⟩ := step_at h' st' st1' hst' hs'
            have hit := (iterStep_spec h st st1 hst hs).2.2.2.1
            obtain ⟨g3, g4⟩ := ih st1 st1' fin fin' k1 k2 hl hl' hp2 D (g1.trans hD)
            refine ⟨?_, by rw [List.length_cons, g4, hit]; omega⟩
            have g5 : √(diffEnergy e.nfft st.rem st'.rem / e.powerS) / |e.dt| ≤ √(D / e.powerS) / |e.dt| := by
              gcongr
            rw [List.length_cons]
            push_cast
            linarith
        · rw [if_neg hc'] at hpk
          cases hpk
    · rw [if_neg hc] at hl hpk ⊢
      by_cases hc' : |st'.dErr| > minderr
      · rw [if_pos hc'] at hl' hpk
        cases hs' : iterStep e' st' with
        | error er => rw [hs'] at hl'; cases hl'
        | ok st1' => simp only [hs'] at hpk; cases hpk
      · rw [if_neg hc'] at hl'
        simp only [Except.ok.injEq] at hl hl'
        subst hl hl'
        simp

end lockstep

section same

/-- The Gauss filter replaces every sample by a pulse. -/
theorem gauss_apply (n : ℕ) (sr gauss : ℝ) (hsr : sr ≠ 0) (p : List ℝ) (m : ℕ) (hm : m < n) :
    (applyFilter p (toC (gaussFilter (1 / sr) n gauss none))).getD m 0 =
      ∑ j ∈ range n, p.getD j 0 * gaussPulse n (1 / sr) gauss (((m : ℝ) - j) * (1 / sr)) := by
  obtain ⟨hl, hv⟩ := C22_output (fun _ => n) sr 0 gauss (List.replicate n 0) p hsr
  have hl : (iterOut (fun _ => n) (List.replicate n 0) sr 0 gauss p).length = n := by rw [hl]; simp
  have h1 : iterOut (fun _ => n) (List.replicate n 0) sr 0 gauss p = applyFilter p (toC (gaussFilter (1 / sr) n gauss none)) := by
    unfold iterOut
    simp only
    have h2 : mulL (toC (gaussFilter (1 / sr) n gauss none)) (phaseShiftFilter n (1 / sr) 0) = toC (gaussFilter (1 / sr) n gauss none) := by
      refine List.ext_getElem (by simp) fun k h1 h2 => ?_
      have hk : k < n := by simpa using h2
      rw [← List.getD_eq_getElem _ 0, ← List.getD_eq_getElem _ 0, mulL_get _ _ _ (by simpa using hk) (by simpa using hk)]
      have : (phaseShiftFilter n (1 / sr) 0).getD k 0 = 1 := by
        rw [List.getD_eq_getElem _ _ (by simpa using hk)]
        simp [phaseShiftFilter]
      rw [this, mul_one]
    rw [h2, List.take_of_length_le (by simp)]
  rw [← h1, hv m (by omega)]
  refine sum_congr rfl fun j _ => ?_
  rw [sub_zero]

/-- The Gauss filter does not amplify differences. -/
theorem gauss_diff (fastLen : ℕ → ℕ) (r r' : List ℝ) (hl : r'.length = r.length) (sr gauss : ℝ) (hsr : sr ≠ 0)
    (hn : fastLen (2 * r.length) ≠ 0) :
    diffEnergy (fastLen (2 * r.length)) (applyFilter r (toC (gaussFilter (1 / sr) (fastLen (2 * r.length)) gauss none)))
      (applyFilter r' (toC (gaussFilter (1 / sr) (fastLen (2 * r.length)) gauss none))) ≤
      diffEnergy (fastLen (2 * r.length)) r r' := by
  set d := List.zipWith (· - ·) r r' with hd
  have hdl : d.length = r.length := by rw [hd]; simp [hl]
  have hdm : ∀ m, d.getD m 0 = r.getD m 0 - r'.getD m 0 := by
    intro m
    rcases Nat.lt_or_ge m r.length with h | h
    · rw [hd, getD_zipWith_of_lt _ _ _ 0 0 0 m h (by omega)]
    · rw [List.getD_eq_default _ _ (by omega), List.getD_eq_default _ _ (by omega), List.getD_eq_default _ _ (by omega), sub_zero]
  have h := powerR_le fastLen [] sr 0 gauss false d (by rw [hdl]; exact hn) hsr
  have hok := iterEnv_ok fastLen d [] sr 0 gauss false (by rw [hdl]; exact hn) hsr
  rw [hok.powR] at h
  have e1 : (iterEnv fastLen d [] sr 0 gauss false).nfft = fastLen (2 * r.length) := by rw [← hdl]; rfl
  have e2 : (iterEnv fastLen d [] sr 0 gauss false).rFlt =
      applyFilter d (toC (gaussFilter (1 / sr) (fastLen (2 * r.length)) gauss none)) := by rw [← hdl]; rfl
  rw [e1, e2, hdl] at h
  unfold diffEnergy
  refine le_trans (le_of_eq ?_) (h.trans (le_of_eq ?_))
  · refine sum_congr rfl fun m hm => ?_
    have hm := mem_range.1 hm
    rw [gauss_apply _ _ _ hsr _ _ hm, gauss_apply _ _ _ hsr _ _ hm, gauss_apply _ _ _ hsr _ _ hm, ← sum_sub_distrib]
    congr 1
    exact sum_congr rfl fun j _ => by rw [hdm]; ring
  · exact sum_congr rfl fun m _ => by rw [hdm]

/-- **C207**, what holds.  If for two responses of the same length the same positions are picked in all passes, the results differ at
every sample by at most the number of passes times the sampling rate times the root of the energy of the difference over the
energy of the low-passed source. -/
theorem C207_same_spikes_partial (fastLen : ℕ → ℕ) (rsp rsp' : List (List ℝ)) (src : List ℝ) (sr tshift gauss : ℝ) (itmax : ℕ)
    (minderr : ℝ) (mute : Bool) (rf rf' : List (List ℝ)) (its its' : List ℕ) (rmss rmss' : List (List ℝ))
    (h : deconvIterative fastLen rsp src sr tshift gauss itmax minderr mute none = .ok (rf, its, rmss))
    (h' : deconvIterative fastLen rsp' src sr tshift gauss itmax minderr mute none = .ok (rf', its', rmss'))
    (c : ℕ) (r r' : List ℝ) (hc : rsp[c]? = some r) (hc' : rsp'[c]? = some r') (hl : r'.length = r.length)
    (hp : picksOf fastLen r src sr tshift gauss itmax minderr mute = picksOf fastLen r' src sr tshift gauss itmax minderr mute) :
    ∃ x x' it, rf[c]? = some x ∧ rf'[c]? = some x' ∧ its[c]? = some it ∧ its'[c]? = some it ∧ x'.length = x.length ∧
      ∀ m < x.length, |x.getD m 0 - x'.getD m 0| ≤ it * (|sr| *
        √((∑ j ∈ range (fastLen (2 * r.length)), (r.getD j 0 - r'.getD j 0) ^ 2) /
          ∑ j ∈ range (fastLen (2 * r.length)),
            (applyFilter src (toC (gaussFilter (1 / sr) (fastLen (2 * r.length)) gauss none))).getD j 0 ^ 2)) := by
  obtain ⟨hsr, st, hst, h1, -, x, hx, hxe⟩ := iterative_comp _ _ _ _ _ _ _ _ _ _ rf its rmss h c r hc
  obtain ⟨-, st', hst', h1', -, x', hx', hxe'⟩ := iterative_comp _ _ _ _ _ _ _ _ _ _ rf' its' rmss' h' c r' hc'
  have hxe := hxe rfl
  have hxe' := hxe' rfl
  have hfl : fastLen (2 * r'.length) = fastLen (2 * r.length) := by rw [hl]
  unfold iterComp at hst hst'
  simp only [] at hst hst'
  split at hst
  · cases hst
  rename_i hn
  split at hst'
  · cases hst'
  rename_i hn'
  set n := fastLen (2 * r.length) with hnd
  have hn : n ≠ 0 := hn
  have hok := iterEnv_ok fastLen r src sr tshift gauss mute hn hsr
  have hok' := iterEnv_ok fastLen r' src sr tshift gauss mute (by rw [hfl]; exact hn) hsr
  have hs : srcFlt fastLen r' src sr gauss = srcFlt fastLen r src sr gauss := by unfold srcFlt; rw [hl]
  rw [hs] at hok'
  set e := iterEnv fastLen r src sr tshift gauss mute with he
  set e' := iterEnv fastLen r' src sr tshift gauss mute with he'
  have hnn : e'.nfft = e.nfft := by rw [he, he']; simp only [iterEnv]; rw [hl]
  have hm1 : e'.muteMin = e.muteMin := by rw [he, he']; simp only [iterEnv]; rw [hl]
  have hm2 : e'.muteMax = e.muteMax := by rw [he, he']; simp only [iterEnv]; rw [hl]
  have hD : diffEnergy e.nfft (iterInit e itmax minderr).rem (iterInit e' itmax minderr).rem ≤ diffEnergy n r r' := by
    have := gauss_diff fastLen r r' hl sr gauss hsr hn
    refine le_trans (le_of_eq ?_) this
    have e1 : (iterInit e' itmax minderr).rem = applyFilter r' (toC (gaussFilter (1 / sr) n gauss none)) := by
      rw [hnd, ← hl]; rfl
    rw [e1]
    rfl
  obtain ⟨g1, g2⟩ := lock_loop hok hok' hnn rfl (fun i => by unfold Muted; rw [hnn, hm1, hm2]) minderr itmax _ _ st st'
    (inv_init hok itmax minderr).ok (inv_init hok' itmax minderr).ok hst hst' hp _ hD
  obtain ⟨-, g2'⟩ := lock_loop hok' hok' rfl rfl (fun i => Iff.rfl) minderr itmax _ _ st' st'
    (inv_init hok' itmax minderr).ok (inv_init hok' itmax minderr).ok hst' hst' rfl _ le_rfl
  have hp' : picks e minderr itmax (iterInit e itmax minderr) = picks e' minderr itmax (iterInit e' itmax minderr) := hp
  rw [← hp'] at g2'
  have i0 : (iterInit e itmax minderr).it = 0 := rfl
  have i0' : (iterInit e' itmax minderr).it = 0 := rfl
  rw [i0, zero_add] at g2
  rw [i0', zero_add, ← g2] at g2'
  obtain ⟨l1, v1⟩ := C22_output fastLen sr tshift gauss r st.p0 hsr
  obtain ⟨l2, v2⟩ := C22_output fastLen sr tshift gauss r' st'.p0 hsr
  subst hxe hxe'
  have hll : (iterOut fastLen r' sr tshift gauss st'.p0).length = (iterOut fastLen r sr tshift gauss st.p0).length := by
    rw [l1, l2, hl]
  refine ⟨_, _, st.it, hx, hx', h1, by rw [h1', g2'], hll, fun m hm => ?_⟩
  rw [v1 m hm, v2 m (by rw [hll]; exact hm), hfl, ← sum_sub_distrib]
  have hz : diffSum e.nfft (iterInit e itmax minderr).p0 (iterInit e' itmax minderr).p0 = 0 := by
    unfold diffSum
    refine sum_eq_zero fun j _ => ?_
    have a1 : (iterInit e itmax minderr).p0.getD j 0 = 0 := getD_replicate _ _
    have a2 : (iterInit e' itmax minderr).p0.getD j 0 = 0 := getD_replicate _ _
    rw [a1, a2]; simp
  rw [hz, zero_add, ← g2, hok.powS] at g1
  have hdt : |e.dt| = 1 / |sr| := by
    have : e.dt = 1 / sr := rfl
    rw [this, abs_div, abs_one]
  rw [hdt, div_div_eq_mul_div, div_one, mul_comm (√ _)] at g1
  refine le_trans ?_ g1
  refine (abs_sum_le_sum_abs _ _).trans (sum_le_sum fun j _ => ?_)
  rw [← sub_mul, abs_mul]
  exact mul_le_of_le_one_right (abs_nonneg _) (gaussPulse_le _ _ _ _)

end same

section wrong

/-- The Gauss filter of the example applied to a series of at most four samples. -/
theorem gauss_four (p : List ℝ) (m : ℕ) (hm : m < 4) :
    (applyFilter p (toC (gaussFilter (1 / 1) 4 1 none))).getD m 0 =
      ∑ j ∈ range 4, p.getD j 0 * gaussPulse 4 (1 / 1) 1 ((m : ℝ) - j) := by
  rw [gauss_apply 4 1 1 one_ne_zero p m hm]
  simp

theorem pulse_all : ∃ A B C : ℝ, 0 < B ∧ B < A ∧ 0 < A + C ∧ gaussPulse 4 (1 / 1) 1 0 = A ∧
    gaussPulse 4 (1 / 1) 1 1 = B ∧ gaussPulse 4 (1 / 1) 1 2 = C ∧ gaussPulse 4 (1 / 1) 1 3 = B ∧ gaussPulse 4 (1 / 1) 1 (-1) = B := by
  set e1 := Real.exp (-(1 / 32)) with h1
  set e2 := Real.exp (-(1 / 8)) with h2
  have p1 : 0 < e1 := Real.exp_pos _
  have p2 : 0 < e2 := Real.exp_pos _
  have p4 : e2 < 1 := by
    rw [h2, Real.exp_lt_one_iff]
    norm_num
  have c3 : Real.cos (Real.pi / 2 * 3) = 0 := by
    rw [show Real.pi / 2 * 3 = Real.pi / 2 + Real.pi by ring, Real.cos_add_pi, Real.cos_pi_div_two, neg_zero]
  have c3' : Real.cos (Real.pi * 3) = -1 := by
    rw [show Real.pi * 3 = Real.pi + 2 * Real.pi by ring, Real.cos_add_two_pi, Real.cos_pi]
  refine ⟨(1 + 2 * e1 + e2) / 4, (1 - e2) / 4, (1 - 2 * e1 + e2) / 4, by linarith, by linarith, by linarith, ?_, ?_, ?_, ?_, ?_⟩
  · rw [pulse_four, mul_zero, mul_zero, Real.cos_zero, ← h1, ← h2]; ring
  · rw [pulse_four, mul_one, mul_one, Real.cos_pi_div_two, Real.cos_pi, ← h1, ← h2]; ring
  · rw [pulse_four, show Real.pi / 2 * 2 = Real.pi by ring, show Real.pi * 2 = 2 * Real.pi by ring, Real.cos_pi, Real.cos_two_pi,
      ← h1, ← h2]
    ring
  · rw [pulse_four, c3, c3', ← h1, ← h2]; ring
  · rw [pulse_four, mul_neg_one, mul_neg_one, Real.cos_neg, Real.cos_neg, Real.cos_pi_div_two, Real.cos_pi, ← h1, ← h2]
    ring

theorem pick (a b R0 R1 v : ℝ) (i : ℕ) (ha : 0 < a) (hb : 0 < b) (hR1 : 0 < R1) (hR0 : R1 < R0) (hi : i < 4) (hv : 2 ≤ i → v = 0)
    (hva : i = 0 → v = (a * R0 + b * R1) / R0) (hvb : i = 1 → v = (b * R0 + a * R1) / R0)
    (h0 : (a * R0 + b * R1) / R0 ≤ |v|) (h1 : (b * R0 + a * R1) / R0 ≤ |v|) :
    (b < a → i = 0 ∧ v = a + b * (R1 / R0)) ∧ (a < b → i = 1 ∧ v = b + a * (R1 / R0)) := by
  have hP : 0 < R0 := by linarith
  have p0 : 0 < (a * R0 + b * R1) / R0 := by positivity
  have p1 : 0 < (b * R0 + a * R1) / R0 := by positivity
  have hlt : i < 2 := by
    by_contra h
    rw [hv (by omega), abs_zero] at h0
    linarith
  constructor
  · intro hab
    have : i = 0 := by
      by_contra hne
      rw [hvb (by omega), abs_of_pos p1, div_le_div_iff_of_pos_right hP] at h0
      nlinarith
    refine ⟨this, ?_⟩
    rw [hva this]
    field_simp
  · intro hab
    have : i = 1 := by
      by_contra hne
      rw [hva (by omega), abs_of_pos p0, div_le_div_iff_of_pos_right hP] at h1
      nlinarith
    refine ⟨this, ?_⟩
    rw [hvb this]
    field_simp

/-- One pass for the source `[1]` and a response of two positive samples: the spike is at the larger sample. -/
theorem one_pass (a b : ℝ) (ha : 0 < a) (hb : 0 < b) (st : ItState)
    (h : iterComp id [a, b] [1] 1 0 1 1 0 false = .ok st) (A B C : ℝ) (q1 : 0 < B) (q2 : B < A) (q3 : 0 < A + C)
    (g0 : gaussPulse 4 (1 / 1) 1 0 = A) (g1 : gaussPulse 4 (1 / 1) 1 1 = B) (g2 : gaussPulse 4 (1 / 1) 1 2 = C)
    (g3 : gaussPulse 4 (1 / 1) 1 3 = B) (g4 : gaussPulse 4 (1 / 1) 1 (-1) = B) :
    ∃ i v, i < 4 ∧ (∀ j < 4, st.p0.getD j 0 = if j = i then v else 0) ∧
      (b < a → i = 0 ∧ v = a + b * (2 * B * (A + C) / (A ^ 2 + 2 * B ^ 2 + C ^ 2))) ∧
      (a < b → i = 1 ∧ v = b + a * (2 * B * (A + C) / (A ^ 2 + 2 * B ^ 2 + C ^ 2))) := by
  have hok := iterEnv_ok id [a, b] [1] 1 0 1 false (by simp) one_ne_zero
  unfold iterComp at h
  simp only [] at h
  split at h
  · cases h
  set e := iterEnv id [a, b] [1] 1 0 1 false with he
  set s := srcFlt id [a, b] [1] 1 1 with hs
  have hn : e.nfft = 4 := rfl
  have hdt : e.dt = 1 := by rw [he]; simp [iterEnv]
  have s0 : s 0 = A ∧ s 1 = B ∧ s 2 = C ∧ s 3 = B := by
    have key : ∀ m < 4, s m = gaussPulse 4 (1 / 1) 1 m := by
      intro m hm
      have h1 := gauss_four [1] m hm
      have h2 : s m = (applyFilter [1] (toC (gaussFilter (1 / 1) 4 1 none))).getD m 0 := rfl
      rw [h2, h1]
      simp [sum_range_succ]
    refine ⟨?_, ?_, ?_, ?_⟩
    · rw [key 0 (by omega), ← g0]; norm_num
    · rw [key 1 (by omega), ← g1]; norm_num
    · rw [key 2 (by omega), ← g2]; norm_num
    · rw [key 3 (by omega), ← g3]; norm_num
  have r0 : e.rFlt.getD 0 0 = a * A + b * B ∧ e.rFlt.getD 1 0 = a * B + b * A ∧ e.rFlt.getD 2 0 = a * C + b * B ∧
      e.rFlt.getD 3 0 = a * B + b * C := by
    have key : ∀ m < 4, e.rFlt.getD m 0 = a * gaussPulse 4 (1 / 1) 1 m + b * gaussPulse 4 (1 / 1) 1 (m - 1) := by
      intro m hm
      have h1 := gauss_four [a, b] m hm
      have h2 : e.rFlt.getD m 0 = (applyFilter [a, b] (toC (gaussFilter (1 / 1) 4 1 none))).getD m 0 := rfl
      rw [h2, h1]
      simp [sum_range_succ]
    refine ⟨?_, ?_, ?_, ?_⟩
    · rw [key 0 (by omega), ← g0, ← g4]; norm_num
    · rw [key 1 (by omega), ← g1, ← g0]; norm_num
    · rw [key 2 (by omega), ← g2, ← g1]; norm_num
    · rw [key 3 (by omega)]
      rw [show (((3 : ℕ) : ℝ) - 1) = 2 by norm_num, g2, show ((3 : ℕ) : ℝ) = 3 by norm_num, g3]
  have hpow : e.powerS = A ^ 2 + 2 * B ^ 2 + C ^ 2 := by
    rw [hok.powS, hn]
    simp only [sum_range_succ, sum_range_zero, s0.1, s0.2.1, s0.2.2.1, s0.2.2.2]
    ring
  have hpR : 0 < e.powerR := by
    rw [hok.powR, hn]
    refine lt_of_lt_of_le (b := (a * A + b * B) ^ 2) (by have : 0 < A := by linarith
                                                         positivity) ?_
    rw [← r0.1]
    exact single_le_sum (f := fun j => e.rFlt.getD j 0 ^ 2) (fun j _ => sq_nonneg _) (mem_range.2 (by norm_num : 0 < 4))
  have c0 : ccorr 4 s e.rFlt 0 = a * (A ^ 2 + 2 * B ^ 2 + C ^ 2) + b * (2 * B * (A + C)) := by
    unfold ccorr
    have i0 : cidx 4 (0 : ℕ) (0 : ℕ) = 0 := by decide
    have i1 : cidx 4 (1 : ℕ) (0 : ℕ) = 1 := by decide
    have i2 : cidx 4 (2 : ℕ) (0 : ℕ) = 2 := by decide
    have i3 : cidx 4 (3 : ℕ) (0 : ℕ) = 3 := by decide
    rw [sum_range_succ, sum_range_succ, sum_range_succ, sum_range_one, i0, i1, i2, i3, r0.1, r0.2.1, r0.2.2.1, r0.2.2.2,
      s0.1, s0.2.1, s0.2.2.1, s0.2.2.2]
    ring
  have c1 : ccorr 4 s e.rFlt 1 = b * (A ^ 2 + 2 * B ^ 2 + C ^ 2) + a * (2 * B * (A + C)) := by
    unfold ccorr
    have i0 : cidx 4 (0 : ℕ) (1 : ℕ) = 3 := by decide
    have i1 : cidx 4 (1 : ℕ) (1 : ℕ) = 0 := by decide
    have i2 : cidx 4 (2 : ℕ) (1 : ℕ) = 1 := by decide
    have i3 : cidx 4 (3 : ℕ) (1 : ℕ) = 2 := by decide
    rw [sum_range_succ, sum_range_succ, sum_range_succ, sum_range_one, i0, i1, i2, i3, r0.1, r0.2.1, r0.2.2.1, r0.2.2.2,
      s0.1, s0.2.1, s0.2.2.1, s0.2.2.2]
    ring
  have hR1 : 0 < 2 * B * (A + C) := by positivity
  have hR0 : 2 * B * (A + C) < A ^ 2 + 2 * B ^ 2 + C ^ 2 := by nlinarith [sq_nonneg (B - C), mul_pos (sub_pos.2 q2) (sub_pos.2 q2)]
  set R0 := A ^ 2 + 2 * B ^ 2 + C ^ 2 with hR0'
  set R1 := 2 * B * (A + C) with hR1'
  have hP : 0 < R0 := by linarith
  unfold iterLoop at h
  rw [if_pos (by simp only [iterInit, add_zero, gt_iff_lt]; rw [abs_of_pos (by linarith)]; linarith)] at h
  cases hst : iterStep e (iterInit e 1 0) with
  | error x => rw [hst] at h; cases h
  | ok st1 =>
    rw [hst] at h
    have h : (Except.ok st1 : Res ItState) = .ok st := h
    cases h
    obtain ⟨-, -, -, -, -, -, -, i, hi, v, hv1, hv2, hmax, hp, -⟩ := iterStep_spec hok _ _ (inv_init hok 1 0).ok hst
    have hrem : (iterInit e 1 0).rem = e.rFlt := rfl
    rw [hn] at hi hv2 hmax hp
    rw [hrem, hpow, hdt] at hv2 hmax
    have hm : ∀ k < 4, Muted e k ↔ 2 ≤ k := by
      intro k hk
      have e1 : e.muteMin = 2 := rfl
      have e2 : e.muteMax = 4 := by rw [he]; simp [iterEnv, pyIntR]
      unfold Muted
      rw [e1, e2, hn]
      have e3 : clampIdx 4 2 = 2 := by decide
      have e4 : clampIdx 4 4 = 4 := by decide
      rw [e3, e4]
      omega
    refine ⟨i, v, hi, fun j hj => ?_, ?_⟩
    · rw [hp j hj]
      have : (iterInit e 1 0).p0.getD j 0 = 0 := getD_replicate _ _
      rw [this, zero_add]
    refine pick a b R0 R1 v i ha hb hR1 hR0 hi (fun h2 => hv1 ((hm i hi).2 h2)) ?_ ?_ ?_ ?_
    · rintro rfl
      rw [hv2 (by rw [hm 0 (by omega)]; omega), c0, div_one]
    · rintro rfl
      rw [hv2 (by rw [hm 1 (by omega)]; omega), c1, div_one]
    · have h0 := hmax 0 (by omega) (by rw [hm 0 (by omega)]; omega)
      rw [c0, div_one] at h0
      exact (le_abs_self _).trans h0
    · have h0 := hmax 1 (by omega) (by rw [hm 1 (by omega)]; omega)
      rw [c1, div_one] at h0
      exact (le_abs_self _).trans h0

/-- **C207 is false as stated.**  Source `[1]`, one pass, responses `[1 + ε, 1]` and `[1, 1 + ε]`: however small `ε` is, the results
differ by more than a fixed number in two samples. -/
theorem C207_counterexample : ∃ c : ℝ, 0 < c ∧ ∀ ε : ℝ, 0 < ε → ∃ rf its rmss x y,
    deconvIterative id [[1 + ε, 1], [1, 1 + ε]] [1] 1 0 1 1 0 false none = .ok (rf, its, rmss) ∧
    rf[0]? = some x ∧ rf[1]? = some y ∧ x.length = 2 ∧ y.length = 2 ∧
    c ≤ x.getD 0 0 - y.getD 0 0 ∧ c ≤ y.getD 1 0 - x.getD 1 0 := by
  obtain ⟨A, B, C, q1, q2, q3, g0, g1, g2, g3, g4⟩ := pulse_all
  refine ⟨A - B, by linarith, fun ε hε => ?_⟩
  obtain ⟨⟨rf, its, rmss⟩, h⟩ := C21_succeeds id [[1 + ε, 1], [1, 1 + ε]] [1] 1 0 1 1 0 false (by norm_num) le_rfl (by
    intro r0 hr0
    refine ⟨0, ?_, by simp⟩
    simp only [List.mem_cons, List.not_mem_nil, or_false] at hr0
    rcases hr0 with rfl | rfl <;> simp)
  obtain ⟨s1, hs1, hx, -, -⟩ := C22_admissible_spikes id _ [1] 1 0 1 1 0 false rf its rmss h 0 [1 + ε, 1] rfl
  obtain ⟨s2, hs2, hy, -, -⟩ := C22_admissible_spikes id _ [1] 1 0 1 1 0 false rf its rmss h 1 [1, 1 + ε] rfl
  obtain ⟨l1, v1⟩ := C22_output id 1 0 1 [1 + ε, 1] s1.p0 one_ne_zero
  obtain ⟨l2, v2⟩ := C22_output id 1 0 1 [1, 1 + ε] s2.p0 one_ne_zero
  have l1 : (iterOut id [1 + ε, 1] 1 0 1 s1.p0).length = 2 := by rw [l1]; simp
  have l2 : (iterOut id [1, 1 + ε] 1 0 1 s2.p0).length = 2 := by rw [l2]; simp
  obtain ⟨i, v, -, hp1, hi, -⟩ := one_pass (1 + ε) 1 (by linarith) one_pos s1 hs1 A B C q1 q2 q3 g0 g1 g2 g3 g4
  obtain ⟨k, w, -, hp2, -, hk⟩ := one_pass 1 (1 + ε) one_pos (by linarith) s2 hs2 A B C q1 q2 q3 g0 g1 g2 g3 g4
  obtain ⟨rfl, hv⟩ := hi (by linarith)
  obtain ⟨rfl, hw⟩ := hk (by linarith)
  have out : ∀ (p : List ℝ) (i : ℕ) (v : ℝ), i < 4 → (∀ j < 4, p.getD j 0 = if j = i then v else 0) → ∀ f : ℕ → ℝ,
      ∑ j ∈ range 4, p.getD j 0 * f j = v * f i := by
    intro p i v hi hp f
    rw [sum_eq_single i]
    · rw [hp i hi, if_pos rfl]
    · intro j hj hne
      rw [hp j (mem_range.1 hj), if_neg hne, zero_mul]
    · intro hn
      exact absurd (mem_range.2 hi) hn
  have hρ : 0 ≤ 2 * B * (A + C) / (A ^ 2 + 2 * B ^ 2 + C ^ 2) := by positivity
  generalize 2 * B * (A + C) / (A ^ 2 + 2 * B ^ 2 + C ^ 2) = ρ at hρ hv hw
  have hge : A - B ≤ v * (A - B) := le_mul_of_one_le_left (by linarith) (by rw [hv]; nlinarith)
  have hvw : w = v := by rw [hv, hw]
  subst hvw
  have e1 : id (2 * [1 + ε, 1].length) = 4 := rfl
  have e2 : id (2 * [1, 1 + ε].length) = 4 := rfl
  rw [e1] at v1
  rw [e2] at v2
  refine ⟨rf, its, rmss, _, _, h, hx, hy, l1, l2, ?_, ?_⟩
  · rw [v1 0 (by omega), v2 0 (by omega), out _ _ _ (by norm_num) hp1, out _ _ _ (by norm_num) hp2,
      show (((0 : ℕ) : ℝ) - (0 : ℕ)) * (1 / 1) - 0 = 0 by norm_num, show (((0 : ℕ) : ℝ) - (1 : ℕ)) * (1 / 1) - 0 = -1 by norm_num,
      g0, g4]
    linarith
  · rw [v1 1 (by omega), v2 1 (by omega), out _ _ _ (by norm_num) hp1, out _ _ _ (by norm_num) hp2,
      show (((1 : ℕ) : ℝ) - (0 : ℕ)) * (1 / 1) - 0 = 1 by norm_num, show (((1 : ℕ) : ℝ) - (1 : ℕ)) * (1 / 1) - 0 = 0 by norm_num,
      g0, g1]
    linarith

/-- One pass with a larger first sample picks position 0. -/
theorem picks_first (a b : ℝ) (hb : 0 < b) (hab : b < a) : picksOf id [a, b] [1] 1 0 1 1 0 false = [0] := by
  obtain ⟨⟨rf, its, rmss⟩, h⟩ := C21_succeeds id [[a, b]] [1] 1 0 1 1 0 false (by norm_num) le_rfl (by
    intro r0 hr0
    refine ⟨0, ?_, by simp⟩
    simp only [List.mem_cons, List.not_mem_nil, or_false] at hr0
    subst hr0
    simp)
  obtain ⟨st, hst, -, -, -⟩ := C22_admissible_spikes id _ [1] 1 0 1 1 0 false rf its rmss h 0 [a, b] rfl
  obtain ⟨A, B, C, q1, q2, q3, g0, g1, g2, g3, g4⟩ := pulse_all
  obtain ⟨i, v, -, hp, hi, -⟩ := one_pass a b (by linarith) hb st hst A B C q1 q2 q3 g0 g1 g2 g3 g4
  obtain ⟨rfl, hv⟩ := hi hab
  have hv0 : 0 < v := by
    rw [hv]
    have : 0 ≤ b * (2 * B * (A + C) / (A ^ 2 + 2 * B ^ 2 + C ^ 2)) := by positivity
    linarith
  have h0 : st.p0.getD 0 0 = v := by rw [hp 0 (by omega), if_pos rfl]
  have hok := iterEnv_ok id [a, b] [1] 1 0 1 false (by simp) one_ne_zero
  unfold picksOf
  simp only
  unfold iterComp at hst
  simp only [] at hst
  split at hst
  · cases hst
  set e := iterEnv id [a, b] [1] 1 0 1 false with he
  unfold iterLoop at hst
  unfold picks
  by_cases hd : |(iterInit e 1 0).dErr| > 0
  · rw [if_pos hd] at hst ⊢
    cases hs : iterStep e (iterInit e 1 0) with
    | error x => rw [hs] at hst; cases hst
    | ok st1 =>
      rw [hs] at hst
      have hst : (Except.ok st1 : Res ItState) = .ok st := hst
      cases hst
      obtain ⟨-, -, -, a', -, hp', -⟩ := step_at hok _ _ (inv_init hok 1 0).ok hs
      have h1 := hp' 0
      have h2 : (iterInit e 1 0).p0.getD 0 0 = 0 := getD_replicate _ _
      rw [h0, h2, zero_add] at h1
      simp only [picks]
      split at h1
      · rename_i hz; rw [← hz]
      · exact absurd h1 hv0.ne'
  · rw [if_neg hd] at hst
    simp only [Except.ok.injEq] at hst
    rw [← hst] at h0
    have h2 : (iterInit e 1 0).p0.getD 0 0 = 0 := getD_replicate _ _
    rw [h2] at h0
    exact absurd h0.symm hv0.ne'

/-- The hypotheses of C207 are met: `[2, 1]` and `[3, 1]` give one spike at the same position. -/
example : ∃ rf its rmss rf' its' rmss', deconvIterative id [[2, 1]] [1] 1 0 1 1 0 false none = .ok (rf, its, rmss) ∧
    deconvIterative id [[3, 1]] [1] 1 0 1 1 0 false none = .ok (rf', its', rmss') ∧
    picksOf id [2, 1] [1] 1 0 1 1 0 false = picksOf id [3, 1] [1] 1 0 1 1 0 false := by
  have run : ∀ a b : ℝ, ∃ out, deconvIterative id [[a, b]] [1] 1 0 1 1 0 false none = .ok out := fun a b =>
    C21_succeeds id [[a, b]] [1] 1 0 1 1 0 false (by norm_num) le_rfl (by
      intro r0 hr0
      refine ⟨0, ?_, by simp⟩
      simp only [List.mem_cons, List.not_mem_nil, or_false] at hr0
      subst hr0
      simp)
  obtain ⟨⟨rf, its, rmss⟩, h⟩ := run 2 1
  obtain ⟨⟨rf', its', rmss'⟩, h'⟩ := run 3 1
  exact ⟨rf, its, rmss, rf', its', rmss', h, h', by rw [picks_first 2 1 one_pos (by norm_num), picks_first 3 1 one_pos (by norm_num)]⟩

end wrong

end Verif.Props
