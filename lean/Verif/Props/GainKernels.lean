import Verif.Model.Kernels
import Verif.Props.Gain
import Verif.Props.DeconvTime
import Verif.Props.WaterNorm
import Verif.Props.Iterative
import Verif.Props.MultitaperWindows

/-!
# C137: the kernels of the package do not depend on a common gain of source, responses and noise
-/

set_option linter.unusedSimpArgs false
set_option linter.unusedSectionVars false

namespace Verif.Props
open Verif.Py Verif.Model Verif.Spec Finset

section results

theorem bind_map_congr {α β γ : Type} (x : Res α) (φ : α → β) (f : β → Res γ) (g : α → Res γ) (h : ∀ a, f (φ a) = g a) :
    (x.map φ >>= f) = (x >>= g) := by
  cases x with
  | error e => rfl
  | ok a => exact h a

theorem bind_congr_ok {α γ : Type} (x : Res α) (f g : α → Res γ) (h : ∀ a, f a = g a) : (x >>= f) = (x >>= g) := by
  cases x with
  | error e => rfl
  | ok a => exact h a

theorem bind_fmap {α β γ : Type} (x : Res α) (φ : α → β) (f : β → Res γ) : (x >>= fun a => f (φ a)) = (x.map φ >>= f) := by
  cases x <;> rfl

theorem mapM_map_eq {α β γ : Type} (f g : α → Res β) (k : α → α) (π : β → γ) (l : List α)
    (h : ∀ a, (f (k a)).map π = (g a).map π) : ((l.map k).mapM f).map (·.map π) = (l.mapM g).map (·.map π) := by
  induction l with
  | nil => rfl
  | cons a l ih =>
    rw [List.map_cons, List.mapM_cons, List.mapM_cons]
    have h1 := h a
    revert ih h1
    generalize f (k a) = x
    generalize g a = y
    generalize (l.map k).mapM f = X
    generalize l.mapM g = Y
    intro ih h1
    cases x <;> cases y <;> cases X <;> cases Y <;>
      simp_all [Except.map, bind, Except.bind, pure, Except.pure]

end results

section transforms

theorem toC_smul (c : ℝ) (x : List ℝ) : toC (x.map (c * ·)) = (toC x).map ((c : ℂ) * ·) := by
  unfold toC
  rw [List.map_map, List.map_map]
  exact List.map_congr_left fun v _ => by simp

theorem getD_smul {R : Type} [MulZeroClass R] (c : R) (x : List R) (j : ℕ) :
    (x.map (c * ·)).getD j 0 = c * x.getD j 0 := by
  rw [List.getD_eq_getElem?_getD, List.getD_eq_getElem?_getD, List.getElem?_map]
  cases x[j]? <;> simp

theorem fft_smul (c : ℂ) (x : List ℂ) (n : ℕ) : fft (x.map (c * ·)) n = (fft x n).map (c * ·) := by
  unfold fft
  rw [List.map_map]
  refine List.map_congr_left fun k _ => ?_
  simp only [Function.comp]
  rw [mul_sum]
  exact sum_congr rfl fun j _ => by rw [getD_smul, mul_assoc]

theorem ifft_smul (c : ℂ) (x : List ℂ) (n : ℕ) : ifft (x.map (c * ·)) n = (ifft x n).map (c * ·) := by
  unfold ifft
  rw [List.map_map]
  refine List.map_congr_left fun k _ => ?_
  simp only [Function.comp]
  rw [← mul_div_assoc, mul_sum]
  congr 1
  exact sum_congr rfl fun j _ => by rw [getD_smul, mul_assoc]

theorem mulL_smul (c d : ℂ) (x y : List ℂ) :
    mulL (x.map (c * ·)) (y.map (d * ·)) = (mulL x y).map (c * d * ·) := by
  unfold mulL
  rw [List.zipWith_map, List.map_zipWith]
  congr 1
  funext a b
  ring

theorem mulL_smul_left (c : ℂ) (x y : List ℂ) : mulL (x.map (c * ·)) y = (mulL x y).map (c * ·) := by
  have := mulL_smul c 1 x y
  simpa using this

theorem mulL_smul_right (c : ℂ) (x y : List ℂ) : mulL x (y.map (c * ·)) = (mulL x y).map (c * ·) := by
  have := mulL_smul 1 c x y
  simpa using this

theorem re_smul (c : ℝ) (x : List ℂ) : (x.map ((c : ℂ) * ·)).map Complex.re = (x.map Complex.re).map (c * ·) := by
  rw [List.map_map, List.map_map]
  exact List.map_congr_left fun v _ => by simp

theorem ifftRe_smul (c : ℝ) (x : List ℂ) (n : ℕ) : ifftRe (x.map ((c : ℂ) * ·)) n = (ifftRe x n).map (c * ·) := by
  unfold ifftRe
  rw [ifft_smul, re_smul]

theorem applyFilter_smul (c : ℝ) (x : List ℝ) (f : List ℂ) :
    applyFilter (x.map (c * ·)) f = (applyFilter x f).map (c * ·) := by
  unfold applyFilter
  simp only
  rw [toC_smul, fft_smul, mulL_smul_left, ifft_smul, re_smul]

theorem power_smul (c : ℝ) (x : List ℝ) : power (x.map (c * ·)) = c ^ 2 * power x := by
  unfold power
  induction x with
  | nil => simp
  | cons a x ih =>
    simp only [List.map_cons, List.sum_cons] at ih ⊢
    rw [ih]
    ring

theorem zipSub_smul (c : ℝ) (x y : List ℝ) :
    List.zipWith (· - ·) (x.map (c * ·)) (y.map (c * ·)) = (List.zipWith (· - ·) x y).map (c * ·) := by
  rw [List.zipWith_map, List.map_zipWith]
  congr 1
  funext a b
  ring

end transforms

section kernels

theorem time_gain (ka : KernelArgs) (hs : ExactSolver ka.solve) (hl : 0 < ka.spiking) (c : ℝ) (hc : 0 < c)
    (rd : List (List ℝ)) (src : List ℝ) (sh : ℤ) (n : Option Norm) (hn : n ≠ some .none) :
    timeKernel ka (gainL c rd) (src.map (fun (v : ℝ) => c * v)) sh n = timeKernel ka rd src sh n := by
  by_cases hE : ∃ v ∈ src, v ≠ 0
  · have hidx : ∀ i : ℤ, deconvTime ka.solve (gainL c rd) (src.map (fun (v : ℝ) => c * v)) sh ka.spiking ka.lengthT (some i)
        = deconvTime ka.solve rd src sh ka.spiking ka.lengthT (some i) := by
      intro i
      have hEc : ∃ v ∈ src.map (c * ·), v ≠ 0 := by
        obtain ⟨v, hv, hne⟩ := hE
        exact ⟨c * v, List.mem_map_of_mem hv, mul_ne_zero hc.ne' hne⟩
      rw [show gainL c rd = rd.map (·.map (c * ·)) from rfl,
        (C13_scale_invariant ka.solve hs rd _ hEc ka.spiking hl sh ka.lengthT i c hc).1,
        (C13_scale_invariant ka.solve hs rd src hE ka.spiking hl sh ka.lengthT i c hc).2]
    match n, hn with
    | none, _ => exact hidx 0
    | some (.idx i), _ => exact hidx i
    | some .src, _ =>
      -- both succeed, or both fail in the same way, before the index is looked up
      have main : ∀ N, ((do
          let sts ← stsVec (src.map (c * ·)) N ka.spiking
          let rf ← timeLoop ka.solve sts (src.map (c * ·)) N sh (gainL c rd)
          .ok rf : Res (List (List ℝ))).bind
            fun _ => (.error .typeError : Res (List (List ℝ)))) = ((do
          let sts ← stsVec src N ka.spiking
          let rf ← timeLoop ka.solve sts src N sh rd
          .ok rf : Res (List (List ℝ))).bind fun _ => .error .typeError) := by
        intro N
        rw [stsVec_smul c hc.ne' src hE]
        by_cases hN : N = 0
        · subst hN; rfl
        obtain ⟨sts, h1, h2, F, hF, hU, hloop⟩ := timeLoop_map ka.solve hs src hE ka.spiking hl N (by omega) sh
        have hEc : ∃ v ∈ src.map (c * ·), v ≠ 0 := by
          obtain ⟨v, hv, hne⟩ := hE
          exact ⟨c * v, List.mem_map_of_mem hv, mul_ne_zero hc.ne' hne⟩
        obtain ⟨sts', h1', h2', F', hF', hU', hloop'⟩ :=
          timeLoop_map ka.solve hs (src.map (c * ·)) hEc ka.spiking hl N (by omega) sh
        have hss : sts' = sts := by
          rw [stsVec_smul c hc.ne' src hE, h1] at h1'
          exact (Except.ok.inj h1').symm
        subst hss
        simp only [h1, bind, Except.bind, hloop, hloop']
      unfold timeKernel deconvTime
      cases hlen : ka.lengthT with
      | some N =>
        have := main N
        simp only [bind, Except.bind] at this ⊢
        exact this
      | none =>
        cases rd with
        | nil => rfl
        | cons r rest =>
          have := main r.length
          simp only [gainL, List.map_cons, List.length_map, bind, Except.bind] at this ⊢
          exact this
  · -- no energy in the source: NaN in both cases
    have hz : src.map (fun (v : ℝ) => c * v) = src := by
      push Not at hE
      conv_rhs => rw [← List.map_id src]
      exact List.map_congr_left fun v hv => by simp [hE v hv]
    rw [hz]
    have hsts : ∀ N, ∃ e, stsVec src N ka.spiking = .error e := by
      intro N
      by_cases hN : N = 0
      · subst hN; exact ⟨_, rfl⟩
      obtain ⟨r, hr, hrl, hv⟩ := C09_values src N (by omega)
      have h0 := hv 0 (by omega)
      unfold stsVec
      rw [hr]
      simp only [bind, Except.bind]
      match r, hrl, h0 with
      | [], hrl, _ => simp at hrl; omega
      | r0 :: rs, _, h0 =>
        refine ⟨.other, ?_⟩
        simp only
        rw [if_pos]
        simp only [List.getD_cons_zero] at h0
        rw [h0]
        refine sum_eq_zero fun j _ => ?_
        have : src.getD j 0 = 0 := by
          rw [List.getD_eq_getElem?_getD]
          cases hj : src[j]? with
          | none => rfl
          | some v =>
            push Not at hE
            exact hE v (List.mem_of_getElem? hj)
        rw [this]
        ring
    have key : ∀ m, deconvTime ka.solve (gainL c rd) src sh ka.spiking ka.lengthT m
        = deconvTime ka.solve rd src sh ka.spiking ka.lengthT m := by
      intro m
      unfold deconvTime
      cases ka.lengthT with
      | some N =>
        obtain ⟨e, he⟩ := hsts N
        simp only [bind, Except.bind, he]
      | none =>
        cases rd with
        | nil => rfl
        | cons r rest =>
          obtain ⟨e, he⟩ := hsts r.length
          simp only [gainL, List.map_cons, List.length_map, bind, Except.bind, he]
    unfold timeKernel
    split
    · rw [key]
    · rw [key]

theorem water_nil (fastLen : ℕ → ℕ) (src : List ℝ) (sr wl T : ℝ) (gauss : Option ℝ) (norm : Norm) (nfft : Option ℕ) :
    deconvWaterlevel fastLen [] src sr wl gauss T none norm nfft = .error .indexError := rfl

theorem water_gain (ka : KernelArgs) (c : ℝ) (hc : 0 < c) (rd : List (List ℝ)) (src : List ℝ) (sr ts : ℝ) (n : Option Norm) :
    waterKernel ka (gainL c rd) (src.map (fun (v : ℝ) => c * v)) sr ts n = waterKernel ka rd src sr ts n := by
  unfold waterKernel
  congr 1
  generalize n.getD (.idx 0) = m
  have hl : outLen (gainL c rd) ka.lengthW = outLen rd ka.lengthW := by
    unfold outLen
    cases rd <;> simp [gainL]
  cases hN : outLen rd ka.lengthW with
  | none =>
    have : rd = [] := by
      unfold outLen at hN
      cases rd with
      | nil => rfl
      | cons r rs => simp at hN
    subst this
    unfold outLen at hN
    cases h : ka.lengthW with
    | none => rw [show gainL c ([] : List (List ℝ)) = [] from rfl, water_nil, water_nil]
    | some N => rw [h] at hN; simp at hN
  | some N =>
    cases m with
    | idx i => exact C19_scale_invariant ka.fastLen rd src sr ka.waterlevel ts ka.gaussW ka.lengthW ka.nfft N hN i c c hc hc
    | none | src =>
      rw [water_eq _ _ _ _ _ _ _ _ _ _ N (hl.trans hN), water_eq _ _ _ _ _ _ _ _ _ _ N hN]
      simp only
      by_cases hn : ka.nfft.getD (ka.fastLen N) = 0
      · rw [if_pos hn, if_pos hn]
      rw [if_neg hn, if_neg hn]
      by_cases hsr : sr = 0
      · rw [if_pos hsr, if_pos hsr]
      rw [if_neg hsr, if_neg hsr]
      have hz := water_zero_iff src ka.waterlevel _ c hc.ne' (Nat.pos_of_ne_zero hn)
      by_cases hw : 0 ∈ waterPower (fft (toC src) (ka.nfft.getD (ka.fastLen N))) ka.waterlevel
      · rw [if_pos hw, if_pos (hz.2 hw)]
      rw [if_neg hw, if_neg (fun h => hw (hz.1 h))]
      have e0 : ∀ r, rawRf (src.map (fun (v : ℝ) => c * v)) sr ka.waterlevel ts ka.gaussW (ka.nfft.getD (ka.fastLen N)) N
          (r.map (fun (v : ℝ) => c * v)) = rawRf src sr ka.waterlevel ts ka.gaussW (ka.nfft.getD (ka.fastLen N)) N r := by
        intro r
        rw [rawRf_src_smul _ _ _ _ _ _ _ _ _ hc.ne', rawRf_smul, List.map_map]
        conv_rhs => rw [← List.map_id (rawRf src sr ka.waterlevel ts ka.gaussW (ka.nfft.getD (ka.fastLen N)) N r)]
        refine List.map_congr_left fun v _ => ?_
        have : (c : ℂ) ≠ 0 := by exact_mod_cast hc.ne'
        simp only [Function.comp, id]
        push_cast
        field_simp
      have e1 : (gainL c rd).map (rawRf (src.map (fun (v : ℝ) => c * v)) sr ka.waterlevel ts ka.gaussW
          (ka.nfft.getD (ka.fastLen N)) N)
          = rd.map (rawRf src sr ka.waterlevel ts ka.gaussW (ka.nfft.getD (ka.fastLen N)) N) := by
        unfold gainL
        rw [List.map_map]
        exact List.map_congr_left fun r _ => e0 r
      rw [e1]
      try rw [e0]

end kernels

section iterative

/-- Two states of the loop that belong to the same data with different gain. -/
structure SameButGain (c minderr : ℝ) (st st' : ItState) : Prop where
  p0 : st'.p0 = st.p0
  rem : st'.rem = st.rem.map (c * ·)
  it : st'.it = st.it
  sumsq : st'.sumsq = st.sumsq
  rms : st'.rms = st.rms
  goOn : |st'.dErr| > minderr ↔ |st.dErr| > minderr

/-- The same for the fixed data. -/
structure SameEnv (c : ℝ) (e e' : ItEnv) : Prop where
  nfft : e'.nfft = e.nfft
  dt : e'.dt = e.dt
  rFlt : e'.rFlt = e.rFlt.map (c * ·)
  sSpec : e'.sSpec = e.sSpec.map ((c : ℂ) * ·)
  powerS : e'.powerS = c ^ 2 * e.powerS
  powerR : e'.powerR = c ^ 2 * e.powerR
  muteMin : e'.muteMin = e.muteMin
  muteMax : e'.muteMax = e.muteMax

theorem iterEnv_gain (fastLen : ℕ → ℕ) (r0 src : List ℝ) (sr tshift gauss : ℝ) (mute : Bool) (c : ℝ) :
    SameEnv c (iterEnv fastLen r0 src sr tshift gauss mute)
      (iterEnv fastLen (r0.map (c * ·)) (src.map (c * ·)) sr tshift gauss mute) := by
  have e1 : ∀ (g : List ℂ) (n : ℕ), mulL (fft (toC (src.map (c * ·))) n) g
      = (mulL (fft (toC src) n) g).map ((c : ℂ) * ·) := by
    intro g n
    rw [toC_smul, fft_smul, mulL_smul_left]
  unfold iterEnv
  simp only [List.length_map]
  refine ⟨rfl, rfl, applyFilter_smul c _ _, e1 _ _, ?_, ?_, rfl, rfl⟩
  · rw [e1, ifftRe_smul, power_smul]
  · rw [applyFilter_smul, power_smul]

theorem corr_gain (c : ℝ) (hc : c ≠ 0) (e e' : ItEnv) (h : SameEnv c e e') (rem : List ℝ) :
    e'.corr (rem.map (c * ·)) = e.corr rem := by
  unfold ItEnv.corr
  simp only
  rw [h.nfft, h.dt, h.sSpec, h.powerS, h.muteMin, h.muteMax]
  have e1 : (e.sSpec.map ((c : ℂ) * ·)).map (starRingEnd ℂ) = (e.sSpec.map (starRingEnd ℂ)).map ((c : ℂ) * ·) := by
    rw [List.map_map, List.map_map]
    exact List.map_congr_left fun v _ => by simp
  rw [e1, toC_smul, fft_smul, mulL_smul, show ((c : ℂ) * (c : ℂ)) = ((c ^ 2 : ℝ) : ℂ) by push_cast; ring, ifftRe_smul,
    List.map_map]
  congr 1
  refine List.map_congr_left fun v _ => ?_
  simp only [Function.comp]
  rw [mul_div_mul_left _ _ (pow_ne_zero 2 hc)]

theorem predict_gain (c : ℝ) (e e' : ItEnv) (h : SameEnv c e e') (p0 : List ℝ) :
    e'.predict p0 = (e.predict p0).map (c * ·) := by
  unfold ItEnv.predict
  rw [h.nfft, h.dt, h.sSpec, mulL_smul_right, ifftRe_smul, List.map_map, List.map_map]
  refine List.map_congr_left fun v _ => ?_
  simp only [Function.comp]
  ring

/-- Outcomes that belong together. -/
def RelRes (c minderr : ℝ) : Res ItState → Res ItState → Prop
  | .ok st, .ok st' => SameButGain c minderr st st'
  | .error e, .error e' => e' = e
  | _, _ => False

theorem iterStep_gain (c minderr : ℝ) (hc : c ≠ 0) (e e' : ItEnv) (h : SameEnv c e e') (st st' : ItState)
    (hs : SameButGain c minderr st st') : RelRes c minderr (iterStep e st) (iterStep e' st') := by
  unfold iterStep
  have hz : (e'.powerS = 0 ∨ e'.powerR = 0) ↔ (e.powerS = 0 ∨ e.powerR = 0) := by
    rw [h.powerS, h.powerR]
    simp [hc]
  by_cases h0 : e.powerS = 0 ∨ e.powerR = 0
  · rw [if_pos h0, if_pos (hz.2 h0)]
    rfl
  · rw [if_neg h0, if_neg (fun hx => h0 (hz.1 hx))]
    simp only
    rw [hs.rem, corr_gain c hc e e' h, hs.p0, predict_gain c e e' h, h.rFlt, zipSub_smul, power_smul, h.powerR,
      mul_div_mul_left _ _ (pow_ne_zero 2 hc), hs.it, hs.sumsq, hs.rms]
    exact ⟨rfl, rfl, rfl, rfl, rfl, Iff.rfl⟩

theorem iterLoop_gain (c minderr : ℝ) (hc : c ≠ 0) (e e' : ItEnv) (h : SameEnv c e e') (k : ℕ) (st st' : ItState)
    (hs : SameButGain c minderr st st') : RelRes c minderr (iterLoop e minderr k st) (iterLoop e' minderr k st') := by
  induction k generalizing st st' with
  | zero => exact hs
  | succ k ih =>
    unfold iterLoop
    by_cases hg : |st.dErr| > minderr
    · rw [if_pos hg, if_pos (hs.goOn.2 hg)]
      have := iterStep_gain c minderr hc e e' h st st' hs
      revert this
      cases iterStep e st with
      | error x =>
        cases iterStep e' st' with
        | error y => intro this; exact this
        | ok y => intro this; exact this.elim
      | ok x =>
        cases iterStep e' st' with
        | error y => intro this; exact this.elim
        | ok y => intro this; exact ih x y this
    · rw [if_neg hg, if_neg (fun hx => hg (hs.goOn.1 hx))]
      exact hs

theorem iterInit_gain (c minderr : ℝ) (hc : 0 < c) (e e' : ItEnv) (h : SameEnv c e e') (hp : 0 ≤ e.powerR) (itmax : ℕ) :
    SameButGain c minderr (iterInit e itmax minderr) (iterInit e' itmax minderr) := by
  unfold iterInit
  refine ⟨by rw [h.nfft], h.rFlt, rfl, rfl, rfl, ?_⟩
  simp only
  rw [h.powerR]
  have hc2 : 0 < c ^ 2 := by positivity
  have key : ∀ P : ℝ, 0 ≤ P → (|100 * P + minderr| > minderr ↔ 0 < P ∨ minderr < 0) := by
    intro P hP
    constructor
    · intro hx
      by_contra hcon
      push Not at hcon
      have : P = 0 := le_antisymm hcon.1 hP
      rw [this, mul_zero, zero_add, abs_of_nonneg hcon.2] at hx
      exact lt_irrefl _ hx
    · rintro (hx | hx)
      · exact lt_of_lt_of_le (by linarith) (le_abs_self _)
      · exact lt_of_lt_of_le hx (abs_nonneg _)
  rw [key _ (by positivity), key _ hp, mul_pos_iff_of_pos_left hc2]

theorem iterComp_gain (fastLen : ℕ → ℕ) (r0 src : List ℝ) (sr tshift gauss : ℝ) (itmax : ℕ) (minderr : ℝ) (mute : Bool)
    (c : ℝ) (hc : 0 < c) : RelRes c minderr (iterComp fastLen r0 src sr tshift gauss itmax minderr mute)
      (iterComp fastLen (r0.map (c * ·)) (src.map (c * ·)) sr tshift gauss itmax minderr mute) := by
  have hE := iterEnv_gain fastLen r0 src sr tshift gauss mute c
  unfold iterComp
  simp only
  rw [hE.nfft]
  split
  · rfl
  · refine iterLoop_gain c minderr hc.ne' _ _ hE itmax _ _ (iterInit_gain c minderr hc _ _ hE ?_ itmax)
    unfold iterEnv power
    simp only
    refine List.sum_nonneg fun v hv => ?_
    obtain ⟨u, -, rfl⟩ := List.mem_map.1 hv
    exact sq_nonneg u

/-- What a component contributes to the outcome. -/
def itPart (y : List ℝ × ItState) : List ℝ × ℕ × List ℝ := (y.1, y.2.it, y.2.rms)

open Classical in
/-- The outcome from these contributions. -/
noncomputable def itFinish (normalize : Option ℤ) (parts : List (List ℝ × ℕ × List ℝ)) :
    Res (List (List ℝ) × List ℕ × List (List ℝ)) :=
  match normalize with
  | none => .ok (parts.map Prod.fst, parts.map (·.2.1), parts.map (·.2.2))
  | some i => do
    let x ← getItem (parts.map Prod.fst) i
    let m ← maxAbsR x
    if m = 0 then .error .other
    else .ok ((parts.map Prod.fst).map (·.map (· * (1 / m))), parts.map (·.2.1), parts.map (·.2.2))

theorem iterative_eq (fastLen : ℕ → ℕ) (rsp : List (List ℝ)) (src : List ℝ) (sr tshift gauss : ℝ) (itmax : ℕ)
    (minderr : ℝ) (mute : Bool) (norm : Option ℤ) :
    deconvIterative fastLen rsp src sr tshift gauss itmax minderr mute norm
      = if sr = 0 then .error .zeroDivision else
        (Except.map (List.map itPart) (rsp.mapM (fun r0 => do
          let st ← iterComp fastLen r0 src sr tshift gauss itmax minderr mute
          pure (iterOut fastLen r0 sr tshift gauss st.p0, st))) >>= itFinish norm) := by
  unfold deconvIterative
  split
  · rfl
  · rw [← bind_fmap]
    refine bind_congr_ok _ _ _ fun sts => ?_
    unfold itFinish
    simp only [List.map_map]
    rfl

theorem iterative_gain (fastLen : ℕ → ℕ) (rsp : List (List ℝ)) (src : List ℝ) (sr tshift gauss : ℝ) (itmax : ℕ)
    (minderr : ℝ) (mute : Bool) (norm : Option ℤ) (c : ℝ) (hc : 0 < c) :
    deconvIterative fastLen (gainL c rsp) (src.map (c * ·)) sr tshift gauss itmax minderr mute norm
      = deconvIterative fastLen rsp src sr tshift gauss itmax minderr mute norm := by
  rw [iterative_eq, iterative_eq]
  unfold gainL
  rw [mapM_map_eq]
  intro r0
  have h1 := iterComp_gain fastLen r0 src sr tshift gauss itmax minderr mute c hc
  have eo : ∀ p, iterOut fastLen (r0.map (c * ·)) sr tshift gauss p = iterOut fastLen r0 sr tshift gauss p := by
    intro p
    unfold iterOut
    rw [List.length_map]
  simp only [eo]
  revert h1
  generalize iterComp fastLen r0 src sr tshift gauss itmax minderr mute = x
  generalize iterComp fastLen (r0.map (c * ·)) (src.map (c * ·)) sr tshift gauss itmax minderr mute = y
  generalize iterOut fastLen r0 sr tshift gauss = F
  intro h1
  cases x with
  | error a =>
    cases y with
    | error b =>
      have h1 : b = a := h1
      rw [h1]
    | ok b => exact h1.elim
  | ok a =>
    cases y with
    | error b => exact h1.elim
    | ok b =>
      have h1 : SameButGain c minderr a b := h1
      show Except.ok (itPart (F b.p0, b)) = Except.ok (itPart (F a.p0, a))
      unfold itPart
      simp only [h1.p0, h1.it, h1.rms]

theorem iter_gain (ka : KernelArgs) (c : ℝ) (hc : 0 < c) (rd : List (List ℝ)) (src : List ℝ) (sr ts : ℝ) (n : Option Norm) :
    iterKernel ka (gainL c rd) (src.map (fun (v : ℝ) => c * v)) sr ts n = iterKernel ka rd src sr ts n := by
  unfold iterKernel
  split <;> rw [iterative_gain ka.fastLen rd src sr ts ka.gaussI ka.itmax ka.minderr ka.muteShift _ c hc]

end iterative

section multitaper

theorem mtPad_gain (c : ℝ) (nft : ℕ) (x : List ℝ) : mtPad nft (x.map (c * ·)) = (mtPad nft x).map (·.map (c * ·)) := by
  unfold mtPad
  rw [List.length_map]
  split
  · simp [Except.map]
  · rfl

theorem mtBit_gain (c : ℝ) (nft js : ℕ) (tap x : List ℝ) :
    mtBit nft js tap (x.map (c * ·)) = (mtBit nft js tap x).map (·.map (c * ·)) := by
  unfold mtBit
  simp only [List.length_map]
  split
  · rfl
  · simp only [Except.map, List.map_map]
    congr 1
    refine List.map_congr_left fun m _ => ?_
    simp only [Function.comp]
    rw [getD_smul]
    ring

/-- All spectra multiplied with one factor. -/
noncomputable def gainC (c : ℝ) (a : List (List ℂ)) : List (List ℂ) := a.map (·.map ((c : ℂ) * ·))

theorem mtWindow_gain (c : ℝ) (nft js : ℕ) (taps : List (List ℝ)) (x : List ℝ) (acc : List (List ℂ)) :
    mtWindow nft js taps (x.map (c * ·)) (gainC c acc) = (mtWindow nft js taps x acc).map (gainC c) := by
  unfold mtWindow
  have hb : taps.mapM (fun tap => mtBit nft js tap (x.map (c * ·)))
      = (taps.mapM (fun tap => mtBit nft js tap x)).map (·.map (·.map (c * ·))) := by
    induction taps with
    | nil => rfl
    | cons tap taps ih =>
      rw [List.mapM_cons, List.mapM_cons, ih, mtBit_gain]
      cases mtBit nft js tap x with
      | error e => rfl
      | ok b =>
        cases taps.mapM (fun tap => mtBit nft js tap x) with
        | error e => rfl
        | ok bs => rfl
  rw [hb]
  cases taps.mapM (fun tap => mtBit nft js tap x) with
  | error e => rfl
  | ok bits =>
    simp only [Except.map, bind, Except.bind]
    congr 1
    unfold gainC
    rw [List.zipWith_map, List.map_zipWith]
    congr 1
    funext a b
    rw [toC_smul, fft_smul]
    unfold addL
    rw [List.zipWith_map, List.map_zipWith]
    congr 1
    funext p q
    ring

theorem mtSum_gain (c : ℝ) (guard : Bool) (nft ntap nwin : ℕ) (ofac : ℝ) (taps : List (List ℝ)) (x : List ℝ) :
    mtSum guard nft ntap nwin ofac taps (x.map (c * ·)) = (mtSum guard nft ntap nwin ofac taps x).map (gainC c) := by
  have key : ∀ (l : List ℕ) (acc : List (List ℂ)),
      l.foldlM (fun acc (j : ℕ) =>
        let js := mtStart ntap ofac j
        if guard && !(decide (js + ntap < nft)) then .ok acc else mtWindow nft js taps (x.map (c * ·)) acc) (gainC c acc)
      = (l.foldlM (fun acc (j : ℕ) =>
        let js := mtStart ntap ofac j
        if guard && !(decide (js + ntap < nft)) then .ok acc else mtWindow nft js taps x acc) acc : Res _).map (gainC c) := by
    intro l
    induction l with
    | nil => intro acc; rfl
    | cons j l ih =>
      intro acc
      rw [List.foldlM_cons, List.foldlM_cons]
      simp only
      split
      · exact ih acc
      · rw [mtWindow_gain]
        cases mtWindow nft (mtStart ntap ofac j) taps x acc with
        | error e => rfl
        | ok a => exact ih a
  unfold mtSum
  rw [← key]
  congr 1
  unfold gainC
  rw [List.map_map]
  refine List.map_congr_left fun t _ => ?_
  simp

theorem mtScale_gain (c fac : ℝ) (a : List (List ℂ)) : mtScale fac (gainC c a) = gainC c (mtScale fac a) := by
  unfold mtScale gainC
  rw [List.map_map, List.map_map]
  refine List.map_congr_left fun x _ => ?_
  simp only [Function.comp, List.map_map]
  refine List.map_congr_left fun v _ => ?_
  simp only [Function.comp]
  ring

theorem mtNoise_gain (c : ℝ) (nft : ℕ) (N : List (List ℂ)) (el : List ℝ) :
    mtNoise nft (gainC c N) el = (mtNoise nft N el).map (c ^ 2 * ·) := by
  unfold mtNoise gainC
  rw [List.map_map]
  refine List.map_congr_left fun m _ => ?_
  simp only [Function.comp]
  rw [List.zipWith_map_left]
  simp only [getD_smul]
  induction N generalizing el with
  | nil => simp
  | cons n N ih =>
    cases el with
    | nil => simp
    | cons l el =>
      rw [List.zipWith_cons_cons, List.sum_cons, ih, List.zipWith_cons_cons, List.sum_cons]
      rw [Complex.re_ofReal_mul, Complex.im_ofReal_mul]
      ring

theorem mtNum_gain (c : ℝ) (nft : ℕ) (S D : List (List ℂ)) :
    mtNum nft (gainC c S) (gainC c D) = (mtNum nft S D).map (((c ^ 2 : ℝ) : ℂ) * ·) := by
  unfold mtNum gainC
  rw [List.map_map]
  refine List.map_congr_left fun m _ => ?_
  simp only [Function.comp]
  rw [List.zipWith_map]
  simp only [getD_smul]
  induction S generalizing D with
  | nil => simp
  | cons s S ih =>
    cases D with
    | nil => simp
    | cons d D =>
      rw [List.zipWith_cons_cons, List.sum_cons, ih, List.zipWith_cons_cons, List.sum_cons]
      rw [map_mul, Complex.conj_ofReal]
      push_cast
      ring

theorem mtQuot_gain (c : ℝ) (hc : c ≠ 0) (nft : ℕ) (S D : List (List ℂ)) (s0 : List ℝ) :
    mtQuot nft (gainC c S) (gainC c D) (s0.map (c ^ 2 * ·)) = mtQuot nft S D s0 := by
  unfold mtQuot
  refine List.map_congr_left fun m _ => ?_
  rw [mtNum_gain, mtNum_gain, getD_smul, getD_smul, getD_smul]
  have : ((c ^ 2 : ℝ) : ℂ) ≠ 0 := by exact_mod_cast pow_ne_zero 2 hc
  rw [Complex.ofReal_mul, ← mul_add, mul_div_mul_left _ _ this]

/-- The removal of mean and trend commutes with a factor. -/
def Homogeneous (f : List ℝ → List ℝ) : Prop := ∀ c : ℝ, 0 < c → ∀ x, f (x.map (c * ·)) = (f x).map (c * ·)

theorem mtComp_gain (env : MtEnv) (hd : Homogeneous env.detrend) (nft ntap nwav : ℕ) (dt ofac tshift : ℝ)
    (gauss : Option ℝ) (taps : List (List ℝ)) (el : List ℝ) (S : List (List ℂ)) (dat nos : List ℝ) (c : ℝ) (hc : 0 < c) :
    mtComp env nft ntap nwav dt ofac tshift gauss taps el (gainC c S) (dat.map (c * ·)) (nos.map (c * ·))
      = mtComp env nft ntap nwav dt ofac tshift gauss taps el S dat nos := by
  unfold mtComp
  simp only [hd c hc, List.length_map]
  rw [mtPad_gain]
  refine bind_map_congr _ _ _ _ fun pad => ?_
  rw [mtSum_gain]
  refine bind_map_congr _ _ _ _ fun N => ?_
  refine bind_congr_ok _ _ _ fun fac => ?_
  rw [mtSum_gain]
  refine bind_map_congr _ _ _ _ fun D => ?_
  refine bind_congr_ok _ _ _ fun fac' => ?_
  rw [mtScale_gain, mtScale_gain, mtNoise_gain, mtQuot_gain c hc.ne', mtNum_gain]
  have hiff : (∃ m < nft, ((mtNum nft S S).map (((c ^ 2 : ℝ) : ℂ) * ·)).getD m 0
      + ((((mtNoise nft (mtScale fac N) el).map (c ^ 2 * ·)).getD m 0 : ℝ) : ℂ) = 0)
      ↔ ∃ m < nft, (mtNum nft S S).getD m 0 + (((mtNoise nft (mtScale fac N) el).getD m 0 : ℝ) : ℂ) = 0 := by
    refine exists_congr fun m => and_congr_right fun _ => ?_
    have : ((c ^ 2 : ℝ) : ℂ) ≠ 0 := by exact_mod_cast pow_ne_zero 2 hc.ne'
    rw [getD_smul, getD_smul, Complex.ofReal_mul, ← mul_add, mul_eq_zero, or_iff_right this]
  exact ite_congr (propext hiff) (fun _ => rfl) (fun _ => rfl)

theorem multitaper_gain (env : MtEnv) (hd : Homogeneous env.detrend) (rsp : List (List ℝ)) (src : List ℝ)
    (nse : List (List ℝ)) (sr tshift : ℝ) (gauss : Option ℝ) (K : ℕ) (T olap : ℝ) (norm : Option ℤ) (c : ℝ) (hc : 0 < c) :
    deconvMultitaper env (gainL c rsp) (src.map (c * ·)) (gainL c nse) sr tshift gauss K T olap norm
      = deconvMultitaper env rsp src nse sr tshift gauss K T olap norm := by
  unfold deconvMultitaper
  simp only [gainL, getItem_map, List.length_map, hd c hc]
  refine bind_map_congr _ _ _ _ fun r0 => ?_
  rw [List.length_map]
  refine ite_congr rfl (fun _ => rfl) fun _ => ?_
  refine bind_map_congr _ _ _ _ fun n0 => ?_
  rw [List.length_map]
  refine ite_congr rfl (fun _ => rfl) fun _ => ?_
  refine ite_congr rfl (fun _ => rfl) fun _ => ?_
  refine ite_congr rfl (fun _ => rfl) fun _ => ?_
  refine ite_congr rfl (fun _ => rfl) fun _ => ?_
  rw [mtPad_gain]
  refine bind_map_congr _ _ _ _ fun pad => ?_
  rw [mtSum_gain]
  refine bind_map_congr _ _ _ _ fun S => ?_
  refine bind_congr_ok _ _ _ fun fac => ?_
  rw [mtScale_gain]
  congr 1
  refine mapM_congr_ok _ _ _ fun c' _ => ?_
  refine bind_map_congr _ _ _ _ fun nos => ?_
  have : (rsp.map (·.map (c * ·))).getD c' [] = (rsp.getD c' []).map (c * ·) := by
    rw [List.getD_eq_getElem?_getD, List.getD_eq_getElem?_getD, List.getElem?_map]
    cases rsp[c']? <;> simp
  rw [this, mtComp_gain env hd _ _ _ _ _ _ _ _ _ _ _ _ c hc]

theorem mt_gain (ka : KernelArgs) (hd : Homogeneous ka.mt.detrend) (c : ℝ) (hc : 0 < c) (rd : List (List ℝ)) (src : List ℝ)
    (nse : List (List ℝ)) (sr ts : ℝ) (n : Option Norm) :
    mtKernel ka (gainL c rd) (src.map (fun (v : ℝ) => c * v)) (gainL c nse) sr ts n = mtKernel ka rd src nse sr ts n := by
  unfold mtKernel
  split <;> rw [multitaper_gain ka.mt hd rd src nse sr ts ka.gaussM ka.tapers ka.taperLength ka.olap _ c hc]

theorem lineDetrend_smul : Homogeneous lineDetrend := by
  intro c hc x
  have e0 : (x.map (c * ·)).sum = c * x.sum := by rw [List.sum_map_mul_left, List.map_id']
  have ez : (x.map (c * ·)).zipIdx = x.zipIdx.map (fun (p : ℝ × ℕ) => (c * p.1, p.2)) := by
    rw [List.zipIdx_map]
    rfl
  have e1 : ((x.map (c * ·)).zipIdx.map fun (p : ℝ × ℕ) => p.1 * p.2).sum
      = c * (x.zipIdx.map fun (p : ℝ × ℕ) => p.1 * p.2).sum := by
    rw [ez, List.map_map, ← List.sum_map_mul_left]
    congr 1
    refine List.map_congr_left fun p _ => ?_
    simp only [Function.comp]
    ring
  unfold lineDetrend
  simp only [List.length_map, e0, e1]
  rw [ez, List.map_map, List.map_map]
  refine List.map_congr_left fun p _ => ?_
  simp only [Function.comp]
  ring

/-- C137, kernels.  With an exact solver, a positive spiking constant and a homogeneous removal of the trend, the
functions of the package satisfy what C137 asks of the kernels, given that cutting, tapering and the choice of the noise
window commute with a factor. -/
theorem C137_kernels (ka : KernelArgs) (hs : ExactSolver ka.solve) (hl : 0 < ka.spiking) (hd : Homogeneous ka.mt.detrend)
    (dec : DeconvEnv ℝ) (h1 : ∀ c, 0 < c → ∀ t a b, dec.trimPad (gain c t) a b = gain c (dec.trimPad t a b))
    (h2 : ∀ c, 0 < c → ∀ t a, dec.taper (gain c t) a = gain c (dec.taper t a))
    (h3 : ∀ (c : Nat → ℝ) (k : ℝ) (h : Heap ℝ) (s rsp : List Nat) (rc : Option Str), 0 < k →
      (∀ r ∈ s, c r = k) → (∀ r ∈ rsp, r ∈ s) → dec.noise (gainH c h) s rsp rc = (dec.noise h s rsp rc).map (gainL k)) :
    GainKernels (withKernels ka dec) where
  trimPad := h1
  taper := h2
  noise := h3
  time c hc rd src sh n hn := time_gain ka hs hl c hc rd src sh n hn
  water c hc rd src sr ts n := water_gain ka c hc rd src sr ts n
  iter c hc rd src sr ts n := iter_gain ka c hc rd src sr ts n
  mt c hc rd src nse sr ts n := mt_gain ka hd c hc rd src nse sr ts n

open Classical in
/-- A solver as C137 asks for: it returns the solution if there is exactly one. -/
noncomputable def uniqueSolve (a y : List ℝ) : Res (List ℝ) :=
  if h : ∃ x, IsToeplitzSol a y x ∧ ∀ x', IsToeplitzSol a y x' → x' = x then .ok h.choose else .error .other

theorem uniqueSolve_exact : ExactSolver uniqueSolve := by
  intro a y x _ hx hu
  have h : ∃ x, IsToeplitzSol a y x ∧ ∀ x', IsToeplitzSol a y x' → x' = x := ⟨x, hx, hu⟩
  unfold uniqueSolve
  rw [dif_pos h]
  exact congrArg Except.ok (hu _ h.choose_spec.1)

/-- The hypotheses of `C137_kernels` can be met, with the defaults of the package. -/
example : GainKernels (withKernels
    { solve := uniqueSolve, spiking := 1, lengthT := none, fastLen := id, waterlevel := 1 / 20, gaussW := some (1 / 2),
      lengthW := none, nfft := none, gaussI := 1 / 2, itmax := 400, minderr := 1 / 1000, muteShift := false,
      mt := { tapers := fun n k => (List.replicate k (List.replicate n 1), List.replicate k 1), detrend := lineDetrend },
      gaussM := some (1 / 2), tapers := 3, taperLength := 10, olap := 3 / 4 }
    { trimPad := fun t _ _ => t, taper := fun t _ => t, noise := fun h _ rsp _ => .ok (rsp.map fun r => (h r).data),
      time := fun _ _ _ _ => .ok [], water := fun _ _ _ _ _ => .ok [], iter := fun _ _ _ _ _ => .ok [],
      mt := fun _ _ _ _ _ _ => .ok [], func := fun h r _ _ _ => (h, .ok r) }) := by
  refine C137_kernels _ uniqueSolve_exact one_pos lineDetrend_smul _ (fun _ _ _ _ _ => rfl) (fun _ _ _ _ => rfl) ?_
  intro c k h s rsp rc _ hc hsub
  unfold gainL
  simp only [Except.map, List.map_map, Except.ok.injEq]
  refine List.map_congr_left fun r hr => ?_
  simp only [gainH, gain, Function.comp, hc r (hsub r hr)]

end multitaper
end Verif.Props
