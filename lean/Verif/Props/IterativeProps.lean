import Verif.Props.Iterative
import Verif.Spec.Iterative

/-!
# Iterative deconvolution: C20 - C23
-/

set_option linter.unusedSimpArgs false
set_option linter.unusedSectionVars false

namespace Verif.Props
open Verif.Py Verif.Model Verif.Spec Finset Complex

section env
variable (fastLen : ℕ → ℕ) (r0 src : List ℝ) (sr tshift gauss : ℝ) (mute : Bool)

@[simp] theorem applyFilter_length (x : List ℝ) (f : List ℂ) : (applyFilter x f).length = f.length := by
  simp [applyFilter]

/-- The filtered source as a real series. -/
noncomputable def srcFlt (fastLen : ℕ → ℕ) (r0 src : List ℝ) (sr gauss : ℝ) (j : ℕ) : ℝ :=
  let n := fastLen (2 * r0.length)
  (applyFilter src (toC (gaussFilter (1 / sr) n gauss none))).getD j 0

theorem iterEnv_ok (hn : fastLen (2 * r0.length) ≠ 0) (hsr : sr ≠ 0) :
    EnvOK (iterEnv fastLen r0 src sr tshift gauss mute) (srcFlt fastLen r0 src sr gauss) := by
  set n := fastLen (2 * r0.length) with hn'
  have hs : ∀ j, srcFlt fastLen r0 src sr gauss j
      = (ifftRe (iterEnv fastLen r0 src sr tshift gauss mute).sSpec n).getD j 0 := by
    intro j
    simp only [srcFlt, iterEnv, applyFilter, ifftRe, toC_length, gaussFilter_length]
    rfl
  have hlen : (iterEnv fastLen r0 src sr tshift gauss mute).sSpec.length = n := by simp [iterEnv, hn']
  have hherm : Herm n fun k => if k < n then (iterEnv fastLen r0 src sr tshift gauss mute).sSpec.getD k 0 else 0 := by
    have hg : Herm n fun k => (((gaussFilter (1 / sr) n gauss none).getD k 0 : ℝ) : ℂ) :=
      real_herm fun k h1 h2 => gauss_even _ _ _ _ k h1 h2
    have := (dft_herm src n).mul hg
    have e : ∀ k < n, (iterEnv fastLen r0 src sr tshift gauss mute).sSpec.getD k 0
        = dft src n k * (((gaussFilter (1 / sr) n gauss none).getD k 0 : ℝ) : ℂ) := by
      intro k hk
      simp only [iterEnv]
      rw [mulL_get _ _ _ (by simpa using hk) (by simpa using hk), fft_toC_get _ _ _ hk, toC_getD]
    refine ⟨?_, fun k h1 h2 => ?_⟩
    · simp only [show 0 < n by omega, if_true, e 0 (by omega)]
      exact this.1
    · simp only [show n - k < n by omega, h2, if_true, e k h2, e (n - k) (by omega)]
      exact this.2 k h1 h2
  refine ⟨by simp only [iterEnv]; omega, by simp only [iterEnv]; positivity, hlen, ?_, ?_, by simp [iterEnv], ?_⟩
  · intro k hk
    have hk' : k < n := hk
    rw [← fft_ifft_get _ n k hk', fft_get _ _ _ hk']
    refine sum_congr rfl fun j hj => ?_
    have hj : j < n := mem_range.1 hj
    rw [hs, ifftRe_get _ _ _ hj, ifft_get _ _ _ hj]
    congr 1
    have him := herm_real n _ hherm j
    have e : (∑ k ∈ range n, (if k < n then (iterEnv fastLen r0 src sr tshift gauss mute).sSpec.getD k 0 else 0)
        * W n (k * j)) = ∑ k ∈ range n, (iterEnv fastLen r0 src sr tshift gauss mute).sSpec.getD k 0 * W n (k * j) :=
      sum_congr rfl fun k hk => by rw [if_pos (mem_range.1 hk)]
    rw [e] at him
    exact Complex.ext (by simp) (by simpa using him)
  · have : (iterEnv fastLen r0 src sr tshift gauss mute).powerS
        = power (ifftRe (iterEnv fastLen r0 src sr tshift gauss mute).sSpec n) := rfl
    rw [this, power_eq _ n (by simp)]
    exact sum_congr rfl fun j _ => by rw [hs]
  · have : (iterEnv fastLen r0 src sr tshift gauss mute).powerR
        = power (iterEnv fastLen r0 src sr tshift gauss mute).rFlt := rfl
    rw [this, power_eq _ n (by simp [iterEnv, hn'])]
    rfl

theorem pyIntR_eq (t sr : ℝ) : pyIntR (t * sr) = samplesIn t sr := by
  unfold pyIntR samplesIn
  rw [Int.floor_neg, neg_neg]

/-- Muted samples are inadmissible. -/
theorem admissible_of_not_muted (i : ℕ) (hi : i < fastLen (2 * r0.length))
    (h : ¬ Muted (iterEnv fastLen r0 src sr tshift gauss mute) i) :
    Admissible (fastLen (2 * r0.length)) r0.length mute (samplesIn tshift sr) i := by
  unfold Admissible
  unfold Muted at h
  simp only [iterEnv, clampIdx, pyIntR_eq] at h
  by_contra hc
  push Not at hc
  apply h
  refine ⟨by rw [if_neg (by omega)]; simp; omega, ?_⟩
  cases mute with
  | true =>
    simp only [if_true]
    rw [if_neg (by omega)]
    omega
  | false =>
    simp only [Bool.false_eq_true, if_false]
    have := hc.2 rfl
    split <;> omega

/-- Admissible lags are not muted, as long as the shift is not longer than the transform window. -/
theorem not_muted_of_admissible (hq : samplesIn tshift sr ≤ fastLen (2 * r0.length)) (i : ℕ)
    (hi : i < fastLen (2 * r0.length))
    (h : Admissible (fastLen (2 * r0.length)) r0.length mute (samplesIn tshift sr) i) :
    ¬ Muted (iterEnv fastLen r0 src sr tshift gauss mute) i := by
  unfold Admissible at h
  unfold Muted
  simp only [iterEnv, clampIdx, pyIntR_eq]
  rintro ⟨h1, h2⟩
  rw [if_neg (by omega)] at h1
  rcases h with h | ⟨rfl, h⟩
  · simp at h1; omega
  · simp only [Bool.false_eq_true, if_false] at h2
    rw [if_neg (by omega)] at h2
    omega

end env

section loop
variable {e : ItEnv} {s : ℕ → ℝ}

/-- States of the loop. -/
inductive Reach (e : ItEnv) (itmax : ℕ) (minderr : ℝ) : ItState → Prop
  | init : Reach e itmax minderr (iterInit e itmax minderr)
  | step {st st' : ItState} : Reach e itmax minderr st → |st.dErr| > minderr → st.it < itmax →
      iterStep e st = .ok st' → Reach e itmax minderr st'

/-- Value recorded before pass `j`. -/
noncomputable def prevRms (rms : List ℝ) (j : ℕ) : ℝ := if j = 0 then 1 else rms.getD (j - 1) 0

structure LoopInv (e : ItEnv) (s : ℕ → ℝ) (itmax : ℕ) (minderr : ℝ) (st : ItState) : Prop where
  ok : StOK e s st
  it : st.it ≤ itmax
  len : st.rms.length = itmax
  sumsq : st.sumsq = prevRms st.rms st.it
  energy : e.powerR ≠ 0 → st.sumsq = power st.rem / e.powerR
  mono : ∀ j < st.it, 0 ≤ st.rms.getD j 0 ∧ st.rms.getD j 0 ≤ prevRms st.rms j
  derr0 : st.it = 0 → st.dErr = 100 * e.powerR + minderr
  derr : ∀ j, st.it = j + 1 → st.dErr = 100 * (prevRms st.rms j - st.rms.getD j 0)
  rest : ∀ j, st.it ≤ j → st.rms.getD j 0 = 0
  spikes : ∀ j < e.nfft, Muted e j → st.p0.getD j 0 = 0

theorem getD_replicate (n j : ℕ) : (List.replicate n (0 : ℝ)).getD j 0 = 0 := by
  rw [List.getD_eq_getElem?_getD, List.getElem?_replicate]
  split <;> rfl

theorem inv_init (h : EnvOK e s) (itmax : ℕ) (minderr : ℝ) :
    LoopInv e s itmax minderr (iterInit e itmax minderr) := by
  refine ⟨⟨by simp [iterInit], by simp [iterInit, h.rlen], ?_⟩, by simp [iterInit], by simp [iterInit], ?_, ?_,
    ?_, ?_, ?_, ?_, ?_⟩
  · intro m _
    simp only [iterInit]
    rw [sum_eq_zero fun j _ => by rw [getD_replicate, zero_mul]]
    ring
  · simp [iterInit, prevRms]
  · intro h0
    simp only [iterInit]
    rw [power_eq _ _ h.rlen, ← h.powR, div_self h0]
  · intro j hj; simp [iterInit] at hj
  · intro _; rfl
  · intro j hj; simp [iterInit] at hj
  · intro j _; exact getD_replicate _ _
  · intro j _ _; exact getD_replicate _ _

theorem inv_step (h : EnvOK e s) (itmax : ℕ) (minderr : ℝ) (st st' : ItState)
    (hi : LoopInv e s itmax minderr st) (hlt : st.it < itmax) (hs : iterStep e st = .ok st') :
    LoopInv e s itmax minderr st' := by
  obtain ⟨hS, hR, hok, hit, hsq, hde, hrms, i1, hi1, a, ha1, ha2, -, hp0, -⟩ := iterStep_spec h st st' hi.ok hs
  have hen := (iterStep_energy h st st' hi.ok hs).1
  have hget : ∀ j, st'.rms.getD j 0 = if j = st.it then st'.sumsq else st.rms.getD j 0 := by
    intro j
    rw [hrms, getD_set _ _ _ _ (by rw [hi.len]; exact hlt)]
  have hprev : ∀ j ≤ st.it, prevRms st'.rms j = prevRms st.rms j := by
    intro j hj
    unfold prevRms
    split
    · rfl
    · rw [hget, if_neg (by omega)]
  have hle : st'.sumsq ≤ st.sumsq := by
    rw [hsq, hi.energy hR.ne']
    exact (div_le_div_iff_of_pos_right hR).2 hen
  have h0 : 0 ≤ st'.sumsq := by
    rw [hsq, power_eq _ _ hok.rlen]
    exact div_nonneg (sum_nonneg fun _ _ => sq_nonneg _) hR.le
  refine ⟨hok, by omega, by rw [hrms]; simp [hi.len], ?_, fun _ => hsq, ?_, by omega, ?_, ?_, ?_⟩
  · unfold prevRms
    rw [if_neg (by omega), hget, if_pos (by omega)]
  · intro j hj
    by_cases hj' : j = st.it
    · subst hj'
      rw [hget, if_pos rfl, hprev _ le_rfl, ← hi.sumsq]
      exact ⟨h0, hle⟩
    · rw [hget, if_neg hj', hprev j (by omega)]
      exact hi.mono j (by omega)
  · intro j hj
    have : j = st.it := by omega
    subst this
    rw [hde, hget, if_pos rfl, hprev _ le_rfl, ← hi.sumsq]
  · intro j hj
    rw [hget, if_neg (by omega)]
    exact hi.rest j (by omega)
  · intro j hj hm
    rw [hp0 j hj]
    split
    · rename_i hj1
      rw [hi.spikes j hj hm, ha1 (hj1 ▸ hm), zero_add]
    · exact hi.spikes j hj hm

theorem reach_inv (h : EnvOK e s) (itmax : ℕ) (minderr : ℝ) (st : ItState) (hr : Reach e itmax minderr st) :
    LoopInv e s itmax minderr st := by
  induction hr with
  | init => exact inv_init h itmax minderr
  | step _ _ hlt hs ih => exact inv_step h itmax minderr _ _ ih hlt hs

/-- The final state is reached, and the loop condition fails there. -/
theorem iterLoop_reach (h : EnvOK e s) (itmax : ℕ) (minderr : ℝ) (k : ℕ) (st fin : ItState)
    (hr : Reach e itmax minderr st) (hk : st.it + k = itmax) (hl : iterLoop e minderr k st = .ok fin) :
    Reach e itmax minderr fin ∧ (fin.it = itmax ∨ |fin.dErr| ≤ minderr) := by
  induction k generalizing st with
  | zero =>
    simp only [iterLoop, Except.ok.injEq] at hl
    subst hl
    exact ⟨hr, Or.inl (by omega)⟩
  | succ k ih =>
    unfold iterLoop at hl
    by_cases hd : |st.dErr| > minderr
    · rw [if_pos hd] at hl
      cases hs : iterStep e st with
      | error er => rw [hs] at hl; cases hl
      | ok st' =>
        rw [hs] at hl
        have hit := (iterStep_spec h st st' (reach_inv h _ _ _ hr).ok hs).2.2.2.1
        exact ih st' (Reach.step hr hd (by omega) hs) (by omega) hl
    · rw [if_neg hd] at hl
      simp only [Except.ok.injEq] at hl
      subst hl
      exact ⟨hr, Or.inr (not_lt.1 hd)⟩

end loop

section outer
variable (fastLen : ℕ → ℕ) (rsp : List (List ℝ)) (src : List ℝ) (sr tshift gauss : ℝ) (itmax : ℕ) (minderr : ℝ)
  (mute : Bool) (norm : Option ℤ)

theorem mapM_ok {α β : Type} (f : α → Res β) (l : List α) (ys : List β) (h : l.mapM f = .ok ys) :
    ys.length = l.length ∧ ∀ (i : ℕ) (x : α), l[i]? = some x → ∃ y, f x = .ok y ∧ ys[i]? = some y := by
  induction l generalizing ys with
  | nil =>
    simp only [List.mapM_nil, pure, Except.pure, Except.ok.injEq] at h
    subst h
    simp
  | cons a l ih =>
    rw [List.mapM_cons] at h
    cases ha : f a with
    | error e => rw [ha] at h; cases h
    | ok b =>
      rw [ha] at h
      cases hl : l.mapM f with
      | error e => rw [hl] at h; cases h
      | ok bs =>
        rw [hl] at h
        have h' : Except.ok (b :: bs) = (Except.ok ys : Res (List β)) := h
        injection h' with h'
        subst h'
        obtain ⟨i1, i2⟩ := ih bs hl
        refine ⟨by simp [i1], fun i x hx => ?_⟩
        cases i with
        | zero =>
          simp only [List.getElem?_cons_zero, Option.some.injEq] at hx
          subst hx
          exact ⟨b, ha, rfl⟩
        | succ i =>
          rw [List.getElem?_cons_succ] at hx ⊢
          exact i2 i x hx

/-- The parts of a successful call that belong to one response. -/
theorem iterative_comp (rf : List (List ℝ)) (its : List ℕ) (rmss : List (List ℝ))
    (h : deconvIterative fastLen rsp src sr tshift gauss itmax minderr mute norm = .ok (rf, its, rmss))
    (c : ℕ) (r0 : List ℝ) (hc : rsp[c]? = some r0) :
    sr ≠ 0 ∧ ∃ st, iterComp fastLen r0 src sr tshift gauss itmax minderr mute = .ok st ∧
      its[c]? = some st.it ∧ rmss[c]? = some st.rms ∧
      ∃ x, rf[c]? = some x ∧ (norm = none → x = iterOut fastLen r0 sr tshift gauss st.p0) := by
  unfold deconvIterative at h
  split at h
  · cases h
  rename_i hsr
  refine ⟨hsr, ?_⟩
  set f : List ℝ → Res (List ℝ × ItState) := fun r0 => do
      let st ← iterComp fastLen r0 src sr tshift gauss itmax minderr mute
      pure (iterOut fastLen r0 sr tshift gauss st.p0, st) with hf
  cases hm : rsp.mapM f with
  | error e => rw [hm] at h; cases h
  | ok sts =>
    rw [hm] at h
    obtain ⟨h1, h2⟩ := mapM_ok f rsp sts hm
    obtain ⟨y, hy, hy2⟩ := h2 c r0 hc
    have hst : ∃ st, iterComp fastLen r0 src sr tshift gauss itmax minderr mute = .ok st ∧
        y = (iterOut fastLen r0 sr tshift gauss st.p0, st) := by
      rw [hf] at hy
      simp only [] at hy
      cases hcmp : iterComp fastLen r0 src sr tshift gauss itmax minderr mute with
      | error e => rw [hcmp] at hy; cases hy
      | ok st =>
        rw [hcmp] at hy
        have hy' : Except.ok (iterOut fastLen r0 sr tshift gauss st.p0, st)
          = (Except.ok y : Res (List ℝ × ItState)) := hy
        injection hy' with hy'
        exact ⟨st, rfl, hy'.symm⟩
    obtain ⟨st, hst, rfl⟩ := hst
    refine ⟨st, hst, ?_⟩
    cases norm with
    | none =>
      have h' : Except.ok (sts.map Prod.fst, sts.map (·.2.it), sts.map (·.2.rms))
        = (.ok (rf, its, rmss) : Res (List (List ℝ) × List ℕ × List (List ℝ))) := h
      simp only [Except.ok.injEq, Prod.mk.injEq] at h'
      obtain ⟨rfl, rfl, rfl⟩ := h'
      exact ⟨by rw [List.getElem?_map, hy2]; rfl, by rw [List.getElem?_map, hy2]; rfl, _,
        by rw [List.getElem?_map, hy2]; rfl, fun _ => rfl⟩
    | some i =>
      have h' : (do
        let x ← getItem (sts.map Prod.fst) i
        let m ← maxAbsR x
        if m = 0 then .error .other
        else .ok ((sts.map Prod.fst).map (·.map (· * (1 / m))), sts.map (·.2.it), sts.map (·.2.rms)) :
        Res (List (List ℝ) × List ℕ × List (List ℝ))) = .ok (rf, its, rmss) := h
      cases hg : getItem (sts.map Prod.fst) i with
      | error e => rw [hg] at h'; cases h'
      | ok x =>
        rw [hg] at h'
        have h'' : (do
          let m ← maxAbsR x
          if m = 0 then .error .other
          else .ok ((sts.map Prod.fst).map (·.map (· * (1 / m))), sts.map (·.2.it), sts.map (·.2.rms)) :
          Res (List (List ℝ) × List ℕ × List (List ℝ))) = .ok (rf, its, rmss) := h'
        cases hx : maxAbsR x with
        | error e => rw [hx] at h''; cases h''
        | ok m =>
          rw [hx] at h''
          have h3 : (if m = 0 then .error .other
            else .ok ((sts.map Prod.fst).map (·.map (· * (1 / m))), sts.map (·.2.it), sts.map (·.2.rms)) :
            Res (List (List ℝ) × List ℕ × List (List ℝ))) = .ok (rf, its, rmss) := h''
          by_cases h0 : m = 0
          · rw [if_pos h0] at h3; cases h3
          · rw [if_neg h0] at h3
            simp only [Except.ok.injEq, Prod.mk.injEq] at h3
            obtain ⟨rfl, rfl, rfl⟩ := h3
            exact ⟨by rw [List.getElem?_map, hy2]; rfl, by rw [List.getElem?_map, hy2]; rfl, _,
              by rw [List.getElem?_map, List.getElem?_map, hy2]; rfl, fun h => by cases h⟩

theorem iterComp_inv (r0 : List ℝ) (hsr : sr ≠ 0) (st : ItState)
    (h : iterComp fastLen r0 src sr tshift gauss itmax minderr mute = .ok st) :
    fastLen (2 * r0.length) ≠ 0 ∧
    EnvOK (iterEnv fastLen r0 src sr tshift gauss mute) (srcFlt fastLen r0 src sr gauss) ∧
    LoopInv (iterEnv fastLen r0 src sr tshift gauss mute) (srcFlt fastLen r0 src sr gauss) itmax minderr st ∧
    (st.it = itmax ∨ |st.dErr| ≤ minderr) := by
  unfold iterComp at h
  simp only [] at h
  split at h
  · cases h
  rename_i hn
  have hn' : fastLen (2 * r0.length) ≠ 0 := hn
  have hok := iterEnv_ok fastLen r0 src sr tshift gauss mute hn' hsr
  obtain ⟨h1, h2⟩ := iterLoop_reach hok itmax minderr itmax _ st Reach.init (by simp [iterInit]) h
  exact ⟨hn', hok, reach_inv hok _ _ _ h1, h2⟩

/-- **C20**.  The misfits recorded for one response are non-negative, the first one is at most 1, and no
recorded misfit is larger than the one before. -/
theorem C20_misfit_decreases (rf : List (List ℝ)) (its : List ℕ) (rmss : List (List ℝ))
    (h : deconvIterative fastLen rsp src sr tshift gauss itmax minderr mute norm = .ok (rf, its, rmss))
    (c : ℕ) (hc : c < rsp.length) :
    ∃ it rms, its[c]? = some it ∧ rmss[c]? = some rms ∧
      ∀ j < it, 0 ≤ rms.getD j 0 ∧ rms.getD j 0 ≤ 1 ∧
        ∀ i < j, rms.getD j 0 ≤ rms.getD i 0 := by
  obtain ⟨hsr, st, hst, h1, h2, -⟩ := iterative_comp _ _ _ _ _ _ _ _ _ _ rf its rmss h c rsp[c]
    (List.getElem?_eq_getElem hc)
  obtain ⟨-, -, hinv, -⟩ := iterComp_inv _ _ _ _ _ _ _ _ _ hsr st hst
  refine ⟨st.it, st.rms, h1, h2, ?_⟩
  intro j
  induction j with
  | zero =>
    intro hj
    have := hinv.mono 0 hj
    exact ⟨this.1, by simpa [prevRms] using this.2, fun i hi => absurd hi (by omega)⟩
  | succ j ih =>
    intro hj
    obtain ⟨i1, i2, i3⟩ := ih (by omega)
    have := hinv.mono (j + 1) hj
    simp only [prevRms, Nat.succ_ne_zero, if_false, Nat.add_sub_cancel] at this
    refine ⟨this.1, this.2.trans i2, fun i hi => ?_⟩
    by_cases h : i = j
    · subst h; exact this.2
    · exact this.2.trans (i3 i (by omega))

/-- **C21** (termination).  At most `itmax` passes per response; unused entries of the misfit record stay
zero; if the loop stops earlier, the last improvement of the misfit was at most `minderr` percent. -/
theorem C21_stop (rf : List (List ℝ)) (its : List ℕ) (rmss : List (List ℝ))
    (h : deconvIterative fastLen rsp src sr tshift gauss itmax minderr mute norm = .ok (rf, its, rmss))
    (c : ℕ) (hc : c < rsp.length) :
    ∃ it rms, its[c]? = some it ∧ rmss[c]? = some rms ∧ it ≤ itmax ∧ rms.length = itmax ∧
      (∀ j, it ≤ j → rms.getD j 0 = 0) ∧
      (it < itmax → (it = 1 → 100 * (1 - rms.getD 0 0) ≤ minderr) ∧
        ∀ j, it = j + 2 → 100 * (rms.getD j 0 - rms.getD (j + 1) 0) ≤ minderr) := by
  obtain ⟨hsr, st, hst, h1, h2, -⟩ := iterative_comp _ _ _ _ _ _ _ _ _ _ rf its rmss h c rsp[c]
    (List.getElem?_eq_getElem hc)
  obtain ⟨-, -, hinv, hstop⟩ := iterComp_inv _ _ _ _ _ _ _ _ _ hsr st hst
  refine ⟨st.it, st.rms, h1, h2, hinv.it, hinv.len, hinv.rest, ?_⟩
  intro hlt
  have hd := hstop.resolve_left hlt.ne
  have hd' := (le_abs_self _).trans hd
  refine ⟨fun h1 => ?_, fun j hj => ?_⟩
  · have := hinv.derr 0 h1
    rw [this] at hd'
    simpa [prevRms] using hd'
  · have := hinv.derr (j + 1) hj
    rw [this] at hd'
    simpa [prevRms] using hd'

/-- **C21** (no pass without need).  With `minderr ≥ 0` and `itmax ≥ 1` no pass is made exactly if the
low-pass filtered response vanishes; then all misfit entries and (without normalisation) the whole
result are zero. -/
theorem C21_zero_response (hmin : 0 ≤ minderr) (hit : 0 < itmax) (rf : List (List ℝ)) (its : List ℕ)
    (rmss : List (List ℝ))
    (h : deconvIterative fastLen rsp src sr tshift gauss itmax minderr mute norm = .ok (rf, its, rmss))
    (c : ℕ) (r0 : List ℝ) (hc : rsp[c]? = some r0) :
    (its[c]? = some 0 ↔ ∀ j < fastLen (2 * r0.length),
        (applyFilter r0 (toC (gaussFilter (1 / sr) (fastLen (2 * r0.length)) gauss none))).getD j 0 = 0) ∧
    ((∀ v ∈ r0, v = 0) → its[c]? = some 0 ∧
      (norm = none → ∃ x, rf[c]? = some x ∧ ∀ v ∈ x, v = 0)) := by
  obtain ⟨hsr, st, hst, h1, h2, x, hx, hnone⟩ := iterative_comp _ _ _ _ _ _ _ _ _ _ rf its rmss h c r0 hc
  obtain ⟨hn, hok, hinv, hstop⟩ := iterComp_inv _ _ _ _ _ _ _ _ _ hsr st hst
  have hfin : st.it = 0 → st = iterInit (iterEnv fastLen r0 src sr tshift gauss mute) itmax minderr := by
    intro h0
    unfold iterComp at hst
    simp only [] at hst
    split at hst
    · cases hst
    obtain ⟨hre, -⟩ := iterLoop_reach hok itmax minderr itmax _ st Reach.init (by simp [iterInit]) hst
    cases hre with
    | init => rfl
    | step hr' _ _ hs =>
      have := (iterStep_spec hok _ _ (reach_inv hok _ _ _ hr').ok hs).2.2.2.1
      omega
  have hiff : its[c]? = some 0 ↔ ∀ j < fastLen (2 * r0.length),
        (applyFilter r0 (toC (gaussFilter (1 / sr) (fastLen (2 * r0.length)) gauss none))).getD j 0 = 0 := by
    rw [h1]
    simp only [Option.some.injEq]
    have hpow : (∀ j < fastLen (2 * r0.length),
        (applyFilter r0 (toC (gaussFilter (1 / sr) (fastLen (2 * r0.length)) gauss none))).getD j 0 = 0) ↔
        (iterEnv fastLen r0 src sr tshift gauss mute).powerR = 0 := by
      rw [hok.powR, sum_eq_zero_iff_of_nonneg fun _ _ => sq_nonneg _]
      refine forall_congr' fun j => ?_
      rw [mem_range, sq_eq_zero_iff]
      rfl
    rw [hpow]
    have hR0 : 0 ≤ (iterEnv fastLen r0 src sr tshift gauss mute).powerR := by
      rw [hok.powR]; exact sum_nonneg fun _ _ => sq_nonneg _
    constructor
    · intro h0
      have := hstop.resolve_left (by omega)
      rw [hinv.derr0 h0, abs_of_nonneg (by linarith)] at this
      linarith
    · intro h0
      unfold iterComp at hst
      simp only [] at hst
      split at hst
      · cases hst
      obtain ⟨k, rfl⟩ := Nat.exists_eq_succ_of_ne_zero hit.ne'
      unfold iterLoop at hst
      rw [if_neg] at hst
      · simp only [Except.ok.injEq] at hst
        rw [← hst]; rfl
      · simp only [iterInit, h0, mul_zero, zero_add, abs_of_nonneg hmin]
        exact lt_irrefl _
  refine ⟨hiff, fun hz => ?_⟩
  have h0 : its[c]? = some 0 := by
    rw [hiff]
    intro j hj
    have hg : ∀ i, r0.getD i 0 = 0 := by
      intro i
      rw [List.getD_eq_getElem?_getD]
      cases hi : r0[i]? with
      | none => rfl
      | some v => exact hz v (List.mem_of_getElem? hi)
    unfold applyFilter
    simp only [toC_length, gaussFilter_length]
    rw [getD_map_of_lt _ _ 0 0 j (by simpa using hj), ifft_get _ _ _ hj,
      sum_eq_zero fun k hk => by
        have hk := mem_range.1 hk
        rw [mulL_get _ _ _ (by simpa using hk) (by simpa using hk), fft_toC_get _ _ _ hk]
        unfold dft
        rw [sum_eq_zero fun i _ => by rw [hg]; simp]
        simp]
    simp
  refine ⟨h0, fun hnn => ⟨x, hx, ?_⟩⟩
  rw [h1] at h0
  have h00 : st.it = 0 := by simpa using h0
  rw [hnone hnn, hfin h00]
  intro v hv
  unfold iterOut applyFilter at hv
  simp only [] at hv
  have hv := List.mem_of_mem_take hv
  obtain ⟨z, hz, rfl⟩ := List.mem_map.1 hv
  obtain ⟨m, hm, rfl⟩ := List.getElem_of_mem hz
  simp only [ifft_length] at hm
  rw [← List.getD_eq_getElem _ 0, ifft_get _ _ _ hm,
      sum_eq_zero fun k hk => by
        have hk := mem_range.1 hk
        rw [mulL_get _ _ _ (by simpa using hk) hk, fft_toC_get _ _ _ hk]
        unfold dft
        rw [sum_eq_zero fun i _ => by simp only [iterInit]; rw [getD_replicate]; simp]
        simp]
  simp

/-- **C22**.  The result of a response is the filtered and delayed spike train constructed by the loop, and
this spike train is zero at all inadmissible positions. -/
theorem C22_admissible_spikes (rf : List (List ℝ)) (its : List ℕ) (rmss : List (List ℝ))
    (h : deconvIterative fastLen rsp src sr tshift gauss itmax minderr mute none = .ok (rf, its, rmss))
    (c : ℕ) (r0 : List ℝ) (hc : rsp[c]? = some r0) :
    ∃ st, iterComp fastLen r0 src sr tshift gauss itmax minderr mute = .ok st ∧
      rf[c]? = some (iterOut fastLen r0 sr tshift gauss st.p0) ∧
      st.p0.length = fastLen (2 * r0.length) ∧
      ∀ j < st.p0.length, st.p0.getD j 0 ≠ 0 →
        Admissible (fastLen (2 * r0.length)) r0.length mute (samplesIn tshift sr) j := by
  obtain ⟨hsr, st, hst, -, -, x, hx, hnone⟩ := iterative_comp _ _ _ _ _ _ _ _ _ _ rf its rmss h c r0 hc
  obtain ⟨hn, hok, hinv, -⟩ := iterComp_inv _ _ _ _ _ _ _ _ _ hsr st hst
  have hl : st.p0.length = fastLen (2 * r0.length) := hinv.ok.plen
  refine ⟨st, hst, by rw [hx, hnone rfl], hl, ?_⟩
  intro j hj hne
  rw [hl] at hj
  exact admissible_of_not_muted _ _ src _ _ gauss _ j hj fun hm => hne (hinv.spikes j hj hm)

/-- **C22**, output.  The receiver function is the sum of Gaussian pulses, one for each spike: a spike at position `j`
appears `tshift` seconds after the time of sample `j`. -/
theorem C22_output (r0 p : List ℝ) (hsr : sr ≠ 0) :
    (iterOut fastLen r0 sr tshift gauss p).length = min r0.length (fastLen (2 * r0.length)) ∧
    ∀ m < (iterOut fastLen r0 sr tshift gauss p).length, (iterOut fastLen r0 sr tshift gauss p).getD m 0
      = ∑ j ∈ range (fastLen (2 * r0.length)), p.getD j 0 *
        gaussPulse (fastLen (2 * r0.length)) (1 / sr) gauss (((m : ℝ) - j) * (1 / sr) - tshift) := by
  have hlen : (iterOut fastLen r0 sr tshift gauss p).length = min r0.length (fastLen (2 * r0.length)) := by
    simp [iterOut, applyFilter]
  refine ⟨hlen, fun m hm => ?_⟩
  rw [hlen] at hm
  set n := fastLen (2 * r0.length) with hn
  have hm1 : m < r0.length := by omega
  have hm2 : m < n := by omega
  have hn0 : (n : ℂ) ≠ 0 := by exact_mod_cast (by omega : n ≠ 0)
  have hd' : (sr : ℂ) ≠ 0 := by exact_mod_cast hsr
  -- one frequency
  have key : ∀ k < n, ∀ j : ℕ, ((p.getD j 0 : ℝ) : ℂ) * chr n (-(j * k)) *
      ((toC (gaussFilter (1 / sr) n gauss none)).getD k 0 * (phaseShiftFilter n (1 / sr) tshift).getD k 0) *
      chr n (k * m) = ((p.getD j 0 * Real.exp (-(freqAt n (1 / sr) k / gauss) ^ 2 / 2) : ℝ) : ℂ) *
        Complex.exp ((2 * Real.pi * freqAt n (1 / sr) k * (((m : ℝ) - j) * (1 / sr) - tshift) : ℝ) * I) := by
    intro k hk j
    have e1 : chr n (-(j * k)) * chr n (k * m) = Complex.exp ((2 * Real.pi * freqAt n (1 / sr) k *
        (((m : ℝ) - j) * (1 / sr)) : ℝ) * I) := by
      rw [chr_eq, chr_eq, ← W_add, ← W_mod_eq n (by omega) (freqIdx n k * (m - j)) (-(j * k) + k * m)]
      · unfold W freqAt
        rw [← freqIdx_eq]
        congr 1
        push_cast
        field_simp
      · obtain ⟨c, hc⟩ := freqIdx_dvd n k
        refine ⟨c * (m - j), ?_⟩
        have : freqIdx n k = k + n * c := by omega
        rw [this]; ring
    have e2 : (phaseShiftFilter n (1 / sr) tshift).getD k 0
        = Complex.exp ((2 * Real.pi * freqAt n (1 / sr) k * (-tshift) : ℝ) * I) := by
      rw [phase_get _ _ _ _ hk]
      unfold freqAt
      rw [freqIdx_eq]
      congr 1
      push_cast
      ring
    have e3 : (toC (gaussFilter (1 / sr) n gauss none)).getD k 0
        = ((Real.exp (-(freqAt n (1 / sr) k / gauss) ^ 2 / 2) : ℝ) : ℂ) := by
      rw [toC_getD, gauss_get _ _ _ _ _ hk]
      unfold freqAt
      rw [freqIdx_eq]
      congr 2
      ring
    rw [e2, e3]
    rw [show ((2 * Real.pi * freqAt n (1 / sr) k * (((m : ℝ) - j) * (1 / sr) - tshift) : ℝ) * I : ℂ)
      = ((2 * Real.pi * freqAt n (1 / sr) k * (((m : ℝ) - j) * (1 / sr)) : ℝ) : ℂ) * I
        + ((2 * Real.pi * freqAt n (1 / sr) k * (-tshift) : ℝ) : ℂ) * I by push_cast; ring, Complex.exp_add, ← e1]
    push_cast
    ring
  have hout : (iterOut fastLen r0 sr tshift gauss p).getD m 0
      = ((∑ k ∈ range n, ∑ j ∈ range n, ((p.getD j 0 * Real.exp (-(freqAt n (1 / sr) k / gauss) ^ 2 / 2) : ℝ) : ℂ) *
        Complex.exp ((2 * Real.pi * freqAt n (1 / sr) k * (((m : ℝ) - j) * (1 / sr) - tshift) : ℝ) * I)) / n).re := by
    unfold iterOut applyFilter
    simp only [mulL_length, toC_length, gaussFilter_length, phaseShiftFilter_length, min_self]
    rw [getD_take_of_lt _ _ _ _ hm1, getD_map_of_lt _ _ 0 0 m (by simpa using hm2), ← hn, ifft_get _ _ _ hm2]
    congr 2
    refine sum_congr rfl fun k hk => ?_
    have hk := mem_range.1 hk
    rw [mulL_get _ _ _ (by simpa using hk) (by simpa using hk), fft_toC_get _ _ _ hk,
      mulL_get _ _ _ (by simpa using hk) (by simpa using hk)]
    unfold dft
    rw [sum_mul, sum_mul]
    refine sum_congr rfl fun j _ => ?_
    rw [← key k hk j, chr_eq n (k * m)]
  rw [hout, sum_comm]
  unfold gaussPulse
  generalize 1 / sr = dt
  rw [← Complex.ofReal_natCast, Complex.div_ofReal_re, Complex.re_sum, sum_div]
  refine sum_congr rfl fun j _ => ?_
  rw [Complex.re_sum, ← mul_div_assoc, mul_sum]
  congr 1
  refine sum_congr rfl fun k _ => ?_
  rw [Complex.re_ofReal_mul, Complex.exp_ofReal_mul_I_re]
  ring

/-- **C23**.  One pass of the loop, from any state that is reached: no spike at an admissible position, with
any amplitude, leaves a smaller misfit than the spike which is added. -/
theorem C23_greedy (r0 : List ℝ) (hn : fastLen (2 * r0.length) ≠ 0) (hsr : sr ≠ 0)
    (hq : samplesIn tshift sr ≤ fastLen (2 * r0.length)) (st st' : ItState)
    (hr : Reach (iterEnv fastLen r0 src sr tshift gauss mute) itmax minderr st)
    (hs : iterStep (iterEnv fastLen r0 src sr tshift gauss mute) st = .ok st') :
    let n := fastLen (2 * r0.length)
    let low := toC (gaussFilter (1 / sr) n gauss none)
    let mf := misfit n (1 / sr) ((applyFilter r0 low).getD · 0) ((applyFilter src low).getD · 0)
    (∃ i < n, ∃ a : ℝ, ∀ j < n, st'.p0.getD j 0 = addSpike (st.p0.getD · 0) i a j) ∧
    ∀ i < n, Admissible n r0.length mute (samplesIn tshift sr) i → ∀ b : ℝ,
      mf (st'.p0.getD · 0) ≤ mf (addSpike (st.p0.getD · 0) i b) := by
  intro n low mf
  have hok := iterEnv_ok fastLen r0 src sr tshift gauss mute hn hsr
  have hinv := reach_inv hok _ _ _ hr
  obtain ⟨-, -, hok', -, -, -, -, i1, hi1, a, -, -, -, hp0, -⟩ := iterStep_spec hok st st' hinv.ok hs
  have hen := (iterStep_energy hok st st' hinv.ok hs).2
  refine ⟨⟨i1, hi1, a, fun j hj => hp0 j hj⟩, fun i hi had b => ?_⟩
  have hnm := not_muted_of_admissible fastLen r0 src sr tshift gauss mute hq i hi had
  have h1 := hen i hi hnm b
  have e1 : mf (st'.p0.getD · 0) = power st'.rem := by
    rw [power_eq _ _ hok'.rlen]
    refine sum_congr rfl fun m hm => ?_
    rw [hok'.rem m (mem_range.1 hm), mul_comm]
    rfl
  have e2 : mf (addSpike (st.p0.getD · 0) i b)
      = leftover n (srcFlt fastLen r0 src sr gauss) (1 / sr) (st.rem.getD · 0) i b := by
    refine sum_congr rfl fun m hm => ?_
    simp only []
    rw [hinv.ok.rem m (mem_range.1 hm)]
    have : ∑ j ∈ range n, addSpike (st.p0.getD · 0) i b j *
        (applyFilter src low).getD (((m : ℤ) - j) % n).toNat 0
        = ∑ j ∈ range n, st.p0.getD j 0 * srcFlt fastLen r0 src sr gauss (cidx n m j)
          + b * srcFlt fastLen r0 src sr gauss (cidx n m i) := by
      rw [← sum_erase_add _ _ (mem_range.2 hi), ← sum_erase_add (range n) _ (mem_range.2 hi)]
      unfold addSpike
      rw [if_pos rfl, add_mul, add_assoc]
      congr 1
      refine sum_congr rfl fun j hj => ?_
      rw [if_neg (mem_erase.1 hj).1]
      rfl
    rw [this]
    congr 1
    change _ = (iterEnv fastLen r0 src sr tshift gauss mute).rFlt.getD m 0 -
      (∑ j ∈ range n, st.p0.getD j 0 * srcFlt fastLen r0 src sr gauss (cidx n m j)) * (1 / sr) - _
    change (iterEnv fastLen r0 src sr tshift gauss mute).rFlt.getD m 0 - _ = _
    ring
  rw [e1, e2]
  exact h1

theorem iterLoop_total (e : ItEnv) (minderr : ℝ) (hS : e.powerS ≠ 0) (hR : e.powerR ≠ 0) (k : ℕ) (st : ItState) :
    ∃ fin, iterLoop e minderr k st = .ok fin := by
  induction k generalizing st with
  | zero => exact ⟨st, rfl⟩
  | succ k ih =>
    unfold iterLoop
    split
    · have : ∃ st', iterStep e st = .ok st' := by
        unfold iterStep
        rw [if_neg (by push Not; exact ⟨hS, hR⟩)]
        exact ⟨_, rfl⟩
      obtain ⟨st', h⟩ := this
      rw [h]
      exact ih st'
    · exact ⟨st, rfl⟩

theorem mapM_total {α β : Type} (f : α → Res β) (l : List α) (h : ∀ x ∈ l, ∃ y, f x = .ok y) :
    ∃ ys, l.mapM f = .ok ys := by
  induction l with
  | nil => exact ⟨[], rfl⟩
  | cons a l ih =>
    obtain ⟨b, hb⟩ := h a List.mem_cons_self
    obtain ⟨bs, hbs⟩ := ih fun x hx => h x (List.mem_cons_of_mem _ hx)
    exact ⟨b :: bs, by rw [List.mapM_cons, hb, hbs]; rfl⟩

/-- The filtered source has energy if the source has a non-zero sample in the transform window. -/
theorem powerS_ne_zero (r0 : List ℝ) (hsr : sr ≠ 0) (j : ℕ) (hj : j < fastLen (2 * r0.length))
    (h : src.getD j 0 ≠ 0) : (iterEnv fastLen r0 src sr tshift gauss mute).powerS ≠ 0 := by
  have hn : fastLen (2 * r0.length) ≠ 0 := by omega
  have hok := iterEnv_ok fastLen r0 src sr tshift gauss mute hn hsr
  intro h0
  rw [hok.powS, sum_eq_zero_iff_of_nonneg fun _ _ => sq_nonneg _] at h0
  obtain ⟨k, hk, hk2⟩ := dft_ne_zero src _ j hj h
  have h1 := hok.spec k hk
  rw [sum_eq_zero fun i hi => by rw [pow_eq_zero_iff two_ne_zero |>.1 (h0 i hi)]; simp] at h1
  simp only [iterEnv] at h1
  rw [mulL_get _ _ _ (by simpa using hk) (by simpa using hk), fft_toC_get _ _ _ hk, toC_getD] at h1
  rcases mul_eq_zero.1 h1 with h2 | h2
  · exact hk2 h2
  · have h3 : (gaussFilter (1 / sr) (fastLen (2 * r0.length)) gauss none).getD k 0 = 0 := by exact_mod_cast h2
    rw [gauss_get _ _ _ _ _ hk] at h3
    exact (Real.exp_pos _).ne' h3

/-- **C21** (no failure).  If the source has a non-zero sample in each transform window and `minderr ≥ 0`, the
method without normalisation succeeds for all responses, also for vanishing ones. -/
theorem C21_succeeds (hsr : sr ≠ 0) (hmin : 0 ≤ minderr)
    (hsrc : ∀ r0 ∈ rsp, ∃ j < fastLen (2 * r0.length), src.getD j 0 ≠ 0) :
    ∃ out, deconvIterative fastLen rsp src sr tshift gauss itmax minderr mute none = .ok out := by
  unfold deconvIterative
  rw [if_neg hsr]
  obtain ⟨ys, hys⟩ := mapM_total (fun r0 => do
      let st ← iterComp fastLen r0 src sr tshift gauss itmax minderr mute
      pure (iterOut fastLen r0 sr tshift gauss st.p0, st)) rsp (by
    intro r0 hr0
    obtain ⟨j, hj, hne⟩ := hsrc r0 hr0
    have hn : fastLen (2 * r0.length) ≠ 0 := by omega
    have hok := iterEnv_ok fastLen r0 src sr tshift gauss mute hn hsr
    have hS := powerS_ne_zero fastLen src sr tshift gauss mute r0 hsr j hj hne
    have : ∃ st, iterComp fastLen r0 src sr tshift gauss itmax minderr mute = .ok st := by
      unfold iterComp
      simp only []
      rw [if_neg (by exact hn)]
      by_cases hR : (iterEnv fastLen r0 src sr tshift gauss mute).powerR = 0
      · cases itmax with
        | zero => exact ⟨_, rfl⟩
        | succ k =>
          unfold iterLoop
          rw [if_neg]
          · exact ⟨_, rfl⟩
          · simp only [iterInit, hR, mul_zero, zero_add, abs_of_nonneg hmin]
            exact lt_irrefl _
      · exact iterLoop_total _ _ hS hR _ _
    obtain ⟨st, hst⟩ := this
    exact ⟨_, by rw [hst]; rfl⟩)
  rw [hys]
  exact ⟨_, rfl⟩

/-- Non-vacuity of C20-C22: a concrete call succeeds. -/
example : ∃ out, deconvIterative id [[1, 2, -1 / 2], [0, 0, 0]] [1, -1 / 3] 10 (1 / 10) (1 / 2) 400 (1 / 1000) false none
    = .ok out :=
  C21_succeeds id _ _ _ _ _ _ _ _ (by norm_num) (by norm_num) (by
    intro r hr
    have : r.length = 3 := by
      rcases List.mem_cons.1 hr with rfl | hr
      · rfl
      · rw [List.mem_singleton] at hr; subst hr; rfl
    exact ⟨0, by simp [this], by norm_num⟩)

/-- Non-vacuity of C23: the first pass for a non-zero response. -/
example : ∃ st st', Reach (iterEnv id [1, 2] [1, -1 / 3] 10 0 (1 / 2) false) 5 0 st ∧
    iterStep (iterEnv id [1, 2] [1, -1 / 3] 10 0 (1 / 2) false) st = .ok st' ∧ samplesIn 0 10 ≤ id (2 * 2) := by
  have h : ∃ st', iterStep (iterEnv id [1, 2] [1, -1 / 3] 10 0 (1 / 2) false)
      (iterInit (iterEnv id [1, 2] [1, -1 / 3] 10 0 (1 / 2) false) 5 0) = .ok st' := by
    unfold iterStep
    rw [if_neg]
    · exact ⟨_, rfl⟩
    · push Not
      refine ⟨powerS_ne_zero id [1, -1 / 3] 10 0 (1 / 2) false [1, 2] (by norm_num) 0 (by decide) (by norm_num), ?_⟩
      have := powerS_ne_zero id [1, 2] 10 0 (1 / 2) false [1, 2] (by norm_num) 0 (by decide) (by norm_num)
      have e : (iterEnv id [1, 2] [1, 2] 10 0 (1 / 2) false).powerS
          = (iterEnv id [1, 2] [1, -1 / 3] 10 0 (1 / 2) false).powerR := by
        simp [iterEnv, applyFilter, ifftRe]
      rwa [e] at this
  obtain ⟨st', h⟩ := h
  exact ⟨_, st', Reach.init, h, by norm_num [samplesIn]⟩

end outer
end Verif.Props
