import Verif.Model.DeconvMt
import Verif.Props.IterativeProps
import Verif.Props.Deconvolve
import Mathlib.Algebra.Order.Chebyshev

/-!
# Multitaper deconvolution: C24 - C26
-/

set_option linter.unusedSimpArgs false
set_option linter.unusedSectionVars false

namespace Verif.Props
open Verif.Py Verif.Model Verif.Spec Finset Complex

section windows

theorem foldlM_total {α β : Type} (f : β → α → Res β) (l : List α) (b : β)
    (h : ∀ a ∈ l, ∀ b, ∃ b', f b a = .ok b') : ∃ r, l.foldlM f b = .ok r := by
  induction l generalizing b with
  | nil => exact ⟨b, rfl⟩
  | cons a l ih =>
    obtain ⟨b', hb⟩ := h a List.mem_cons_self b
    rw [List.foldlM_cons, hb]
    exact ih b' fun a ha => h a (List.mem_cons_of_mem _ ha)

theorem mtWindow_ok (nft ntap js : ℕ) (taps : List (List ℝ)) (x : List ℝ) (acc : List (List ℂ))
    (ht : ∀ tap ∈ taps, tap.length = ntap) (hx : x.length = nft) (hw : js + ntap ≤ nft) :
    ∃ acc', mtWindow nft js taps x acc = .ok acc' := by
  unfold mtWindow
  obtain ⟨ys, hys⟩ := mapM_total (fun tap => mtBit nft js tap x) taps (by
    intro tap htap
    unfold mtBit
    simp only []
    rw [if_neg]
    · exact ⟨_, rfl⟩
    · have := ht tap htap
      rw [this]
      omega)
  rw [hys]
  exact ⟨_, rfl⟩

theorem mtSum_ok (guard : Bool) (nft ntap nwin : ℕ) (ofac : ℝ) (taps : List (List ℝ)) (x : List ℝ)
    (ht : ∀ tap ∈ taps, tap.length = ntap) (hx : x.length = nft)
    (hw : guard = true ∨ ∀ j < nwin, mtStart ntap ofac j + ntap ≤ nft) :
    ∃ A, mtSum guard nft ntap nwin ofac taps x = .ok A := by
  unfold mtSum
  refine foldlM_total _ _ _ fun j hj acc => ?_
  simp only []
  split
  · exact ⟨acc, rfl⟩
  · rename_i hg
    apply mtWindow_ok nft ntap _ taps x acc ht hx
    rcases hw with h | h
    · subst h
      simp at hg
      omega
    · exact h j (List.mem_range.1 hj)

theorem pyIntR_nonneg (x : ℝ) (h : 0 ≤ x) : pyIntR x = ⌊x⌋ := by unfold pyIntR; rw [if_pos h]

/-- The last sample of each window. -/
theorem window_end (olap : ℝ) (h1 : olap < 1) (len ntap : ℕ) (hnt : 0 < ntap) (j : ℕ)
    (hj : j < (mtNwin (1 / (1 - olap)) len ntap).toNat) :
    ((mtStart ntap (1 / (1 - olap)) j + ntap : ℕ) : ℝ) ≤ len + olap * ntap := by
  have ho : 0 < 1 - olap := by linarith
  have hnt' : (0 : ℝ) < ntap := by exact_mod_cast hnt
  unfold mtNwin at hj
  unfold mtStart
  rw [pyIntR_nonneg _ (by positivity)] at hj ⊢
  have h2 : ((j : ℤ) + 1) ≤ ⌊1 / (1 - olap) * len / ntap⌋ := by omega
  have h3 : ((j : ℝ) + 1) ≤ 1 / (1 - olap) * len / ntap := by
    have := Int.le_floor.1 h2
    exact_mod_cast this
  have h4 : ((⌊(j : ℝ) * ntap / (1 / (1 - olap))⌋.toNat : ℕ) : ℝ) ≤ j * ntap / (1 / (1 - olap)) := by
    have h5 : (0 : ℤ) ≤ ⌊(j : ℝ) * ntap / (1 / (1 - olap))⌋ := Int.floor_nonneg.2 (by positivity)
    have h6 : ((⌊(j : ℝ) * ntap / (1 / (1 - olap))⌋.toNat : ℕ) : ℝ)
        = ((⌊(j : ℝ) * ntap / (1 / (1 - olap))⌋ : ℤ) : ℝ) := by
      exact_mod_cast congrArg (Int.cast (R := ℝ)) (Int.toNat_of_nonneg h5)
    rw [h6]
    exact Int.floor_le _
  push_cast
  have h7 : ((j : ℝ) + 1) * (ntap * (1 - olap)) ≤ len := by
    rw [le_div_iff₀ hnt', one_div, inv_mul_eq_div, le_div_iff₀ ho] at h3
    linarith
  have h8 : (j : ℝ) * ntap / (1 / (1 - olap)) = j * (ntap * (1 - olap)) := by field_simp
  rw [h8] at h4 ⊢
  nlinarith

theorem nwin_pos (olap : ℝ) (h1 : olap < 1) (len ntap : ℕ) (hnt : 0 < ntap) (c : ℕ)
    (h : c * (ntap * (1 - olap)) ≤ (len : ℝ)) : (c : ℤ) ≤ mtNwin (1 / (1 - olap)) len ntap := by
  have ho : 0 < 1 - olap := by linarith
  have hnt' : (0 : ℝ) < ntap := by exact_mod_cast hnt
  unfold mtNwin
  rw [pyIntR_nonneg _ (by positivity), Int.le_floor, le_div_iff₀ hnt', one_div, inv_mul_eq_div, le_div_iff₀ ho]
  push_cast
  linarith

theorem mtFac_ok (num : ℝ) (nwin : ℤ) (nft : ℕ) (h1 : nwin ≠ 0) (h2 : nft ≠ 0) :
    ∃ f, mtFac num nwin nft = .ok f := by
  unfold mtFac
  rw [if_neg (mul_ne_zero h1 (by exact_mod_cast h2))]
  exact ⟨_, rfl⟩

/-- What is assumed about the external code: `k` tapers of the right length; removing the trend keeps the
number of samples. -/
structure Shaped (env : MtEnv) : Prop where
  taps : ∀ ntap K, ∀ tap ∈ (env.tapers ntap K).1, tap.length = ntap
  count : ∀ ntap K, (env.tapers ntap K).1.length = K
  detrend : ∀ x, (env.detrend x).length = x.length

/-- **C24**, partial.  With well-shaped input - all responses of the same length `nft`, as many noise arrays,
none longer than `nft` - the method does not fail with a shape mismatch or a division by a window count
if
* the source plus the overlapping part of one taper fits into the response, and
* source and noise are not shorter than the step between two tapers and the response not shorter than
  two steps.
(A zero spectral denominator, NaN in the code, is the only remaining exceptional outcome.)  Without the first
condition the claim is false, see `C24_counterexample`. -/
theorem C24_no_failure_partial (env : MtEnv) (henv : Shaped env) (rsp : List (List ℝ)) (src : List ℝ)
    (nse : List (List ℝ)) (sr tshift : ℝ) (gauss : Option ℝ) (K : ℕ) (T olap : ℝ) (nft ntap : ℕ)
    (hr : rsp ≠ []) (hlen : ∀ r ∈ rsp, r.length = nft) (hsr : sr ≠ 0)
    (hnl : nse.length = rsp.length) (hnt : pyRound (T / (1 / sr)) = ntap) (hnt0 : 0 < ntap) (ho : olap < 1)
    (hsrc : src.length < nft) (hsrc1 : (src.length : ℝ) + olap * ntap ≤ nft)
    (hsrc2 : ntap * (1 - olap) ≤ src.length)
    (hnse : ∀ x ∈ nse, x.length ≤ nft ∧ ntap * (1 - olap) ≤ (x.length : ℝ))
    (hrsp : 2 * (ntap * (1 - olap)) ≤ (nft : ℝ)) (er : PyErr)
    (h : deconvMultitaper env rsp src nse sr tshift gauss K T olap none = .error er) : er = .other := by
  obtain ⟨r0, rs, rfl⟩ := List.exists_cons_of_ne_nil hr
  have hr0 : r0.length = nft := hlen r0 List.mem_cons_self
  obtain ⟨n0, ns, rfl⟩ : ∃ n0 ns, nse = n0 :: ns := by
    cases nse with
    | nil => simp at hnl
    | cons a b => exact ⟨a, b, rfl⟩
  have hn0 := hnse n0 List.mem_cons_self
  have hg1 : getItem (r0 :: rs) 0 = .ok r0 := rfl
  have hg2 : getItem (n0 :: ns) 0 = .ok n0 := rfl
  unfold deconvMultitaper at h
  rw [hg1] at h
  simp only [bind, Except.bind] at h
  rw [if_neg (by rw [hr0]; simpa using hsrc)] at h
  rw [hg2] at h
  simp only [] at h
  rw [if_neg (by rw [hr0]; simpa using hn0.1), if_neg hsr, hr0, hnt] at h
  simp only [Int.toNat_natCast] at h
  rw [if_neg (by linarith), if_neg hnt0.ne'] at h
  have hpad : ∀ x : List ℝ, x.length ≤ nft → ∃ p, mtPad nft x = .ok p ∧ p.length = nft := by
    intro x hx
    unfold mtPad
    rw [if_pos hx]
    exact ⟨_, rfl, by simp; omega⟩
  obtain ⟨p, hp, hpl⟩ := hpad (env.detrend src) (by rw [henv.detrend]; omega)
  rw [hp, henv.detrend] at h
  simp only [] at h
  have hw1 : ∀ j < (mtNwin (1 / (1 - olap)) src.length ntap).toNat,
      mtStart ntap (1 / (1 - olap)) j + ntap ≤ nft := by
    intro j hj
    have := window_end olap ho src.length ntap hnt0 j hj
    exact_mod_cast this.trans hsrc1
  obtain ⟨S, hS⟩ := mtSum_ok false nft ntap _ (1 / (1 - olap)) (env.tapers ntap K).1 p
    (henv.taps ntap K) hpl (Or.inr hw1)
  rw [hS] at h
  simp only [] at h
  have hnft : nft ≠ 0 := by omega
  have hnw := nwin_pos olap ho src.length ntap hnt0 1 (by simpa using hsrc2)
  obtain ⟨f, hf⟩ := mtFac_ok src.length _ nft (show mtNwin (1 / (1 - olap)) src.length ntap ≠ 0 by omega) hnft
  rw [hf] at h
  simp only [] at h
  have hmap : ∀ l : List ℕ, (∀ c ∈ l, c < (r0 :: rs).length) → ∀ er,
      l.mapM (fun (c : ℕ) => do
            let nos ← getItem (n0 :: ns) c
            mtComp env nft ntap src.length (1 / sr) (1 / (1 - olap)) tshift gauss (env.tapers ntap K).1
              (env.tapers ntap K).2 (mtScale f S) ((r0 :: rs).getD c []) nos) = .error er → er = .other := by
    intro l
    induction l with
    | nil => intro _ er h; cases h
    | cons c l ih =>
      intro hl er h
      rw [List.mapM_cons] at h
      have hc := hl c List.mem_cons_self
      rw [getItem_lt (n0 :: ns) c (by omega)] at h
      simp only [bind, Except.bind] at h
      have hx := hnse ((n0 :: ns)[c]'(by omega)) (List.getElem_mem _)
      cases hcomp : mtComp env nft ntap src.length (1 / sr) (1 / (1 - olap)) tshift gauss (env.tapers ntap K).1
              (env.tapers ntap K).2 (mtScale f S) ((r0 :: rs).getD c []) ((n0 :: ns)[c]'(by omega)) with
      | error er' =>
        rw [hcomp] at h
        have e : er' = er := by injection h
        subst e
        unfold mtComp at hcomp
        simp only [bind, Except.bind] at hcomp
        obtain ⟨q, hq, hql⟩ := hpad (env.detrend ((n0 :: ns)[c]'(by omega))) (by rw [henv.detrend]; exact hx.1)
        rw [hq] at hcomp
        simp only [] at hcomp
        obtain ⟨N, hN⟩ := mtSum_ok true nft ntap (mtNwin (1 / (1 - olap))
          (env.detrend ((n0 :: ns)[c]'(by omega))).length ntap).toNat (1 / (1 - olap)) (env.tapers ntap K).1 q
          (henv.taps ntap K) hql (Or.inl rfl)
        rw [hN] at hcomp
        simp only [] at hcomp
        have hnw2 := nwin_pos olap ho ((n0 :: ns)[c]'(by omega)).length ntap hnt0 1 (by simpa using hx.2)
        obtain ⟨f2, hf2⟩ := mtFac_ok src.length (mtNwin (1 / (1 - olap))
          (env.detrend ((n0 :: ns)[c]'(by omega))).length ntap) nft (by rw [henv.detrend]; omega) hnft
        rw [hf2] at hcomp
        simp only [] at hcomp
        have hdl : (env.detrend ((r0 :: rs).getD c [])).length = nft := by
          rw [henv.detrend, List.getD_eq_getElem _ _ hc]
          exact hlen _ (List.getElem_mem _)
        obtain ⟨D, hD⟩ := mtSum_ok true nft ntap (mtNwin (1 / (1 - olap)) nft ntap - 1).toNat (1 / (1 - olap))
          (env.tapers ntap K).1 (env.detrend ((r0 :: rs).getD c [])) (henv.taps ntap K) hdl (Or.inl rfl)
        rw [hD] at hcomp
        simp only [] at hcomp
        have hnw3 := nwin_pos olap ho nft ntap hnt0 2 (by push_cast; linarith)
        obtain ⟨f3, hf3⟩ := mtFac_ok nft (mtNwin (1 / (1 - olap)) nft ntap - 1) nft
          (by have : (2 : ℤ) ≤ mtNwin (1 / (1 - olap)) nft ntap := by exact_mod_cast hnw3
              omega) hnft
        rw [hf3] at hcomp
        simp only [] at hcomp
        split at hcomp
        · injection hcomp with hcomp; exact hcomp.symm
        · cases hcomp
      | ok y =>
        rw [hcomp] at h
        simp only [] at h
        have h' : (do let ys ← l.mapM (fun (c : ℕ) => do
            let nos ← getItem (n0 :: ns) c
            mtComp env nft ntap src.length (1 / sr) (1 / (1 - olap)) tshift gauss (env.tapers ntap K).1
              (env.tapers ntap K).2 (mtScale f S) ((r0 :: rs).getD c []) nos)
                      pure (y :: ys) : Res (List (List ℝ))) = .error er := h
        cases hm : l.mapM (fun (c : ℕ) => do
            let nos ← getItem (n0 :: ns) c
            mtComp env nft ntap src.length (1 / sr) (1 / (1 - olap)) tshift gauss (env.tapers ntap K).1
              (env.tapers ntap K).2 (mtScale f S) ((r0 :: rs).getD c []) nos) with
        | error e2 =>
          rw [hm] at h'
          injection h' with h'
          subst h'
          exact ih (fun c hc => hl c (List.mem_cons_of_mem _ hc)) _ hm
        | ok ys => rw [hm] at h'; cases h'
  have hm := hmap (List.range (r0 :: rs).length) (fun c hc => List.mem_range.1 hc)
  simp only [bind, Except.bind] at hm
  split at h
  · rename_i e he
    injection h with h
    subst h
    exact hm _ he
  · cases h

/-- A one-window step that does not fit fails. -/
theorem mtWindow_error (nft ntap js : ℕ) (taps : List (List ℝ)) (x : List ℝ) (acc : List (List ℂ))
    (ht : ∀ tap ∈ taps, tap.length = ntap) (hne : taps ≠ []) (h2 : 2 ≤ ntap) (hw : nft < js + ntap) :
    mtWindow nft js taps x acc = .error .valueError := by
  obtain ⟨t, ts, rfl⟩ := List.exists_cons_of_ne_nil hne
  unfold mtWindow
  have : mtBit nft js t x = .error .valueError := by
    unfold mtBit
    simp only []
    rw [if_pos]
    left
    rw [ht t List.mem_cons_self]
    omega
  rw [List.mapM_cons, this]
  rfl

/-- C24: a taper with one point fits into every window, also behind the end of the trace. -/
theorem C24_one_point (nft js : ℕ) (w : ℝ) (x : List ℝ) (hx : x.length = nft) :
    mtBit nft js [w] x = .ok ((List.range nft).map fun (m : ℕ) => (if m = js then w else 0) * x.getD m 0) := by
  unfold mtBit
  simp only [List.length_singleton]
  rw [if_neg (by simp [hx])]
  congr 1
  apply List.map_congr_left
  intro m _
  by_cases h : m = js
  · simp [h]
  · rw [if_neg h, if_neg (by omega)]

-- one sample, and a window behind the end
example : mtBit 2 1 [3] [5, 7] = .ok [0, 21] ∧ mtBit 2 4 [3] [5, 7] = .ok [0, 0] := by
  constructor
  · rw [C24_one_point 2 1 3 [5, 7] rfl]; norm_num [List.range_succ]
  · rw [C24_one_point 2 4 3 [5, 7] rfl]; norm_num [List.range_succ]

/-- **C24** fails: a source of 4 samples, a response and noise of 5 samples (1 Hz), tapers of 4 s, the
default overlap 0.75.  The third window covers the samples 2-5, outside the trace: ValueError, for all
values of the samples, all tapers and all further arguments. -/
theorem C24_counterexample (env : MtEnv) (henv : Shaped env) (r src nse : List ℝ) (hr : r.length = 5)
    (hs : src.length = 4) (hn : nse.length = 5) (tshift : ℝ) (gauss : Option ℝ) (K : ℕ) (hK : 1 ≤ K)
    (norm : Option ℤ) :
    deconvMultitaper env [r] src [nse] 1 tshift gauss K 4 (3 / 4) norm = .error .valueError := by
  unfold deconvMultitaper
  rw [show getItem [r] 0 = .ok r from rfl, show getItem [nse] 0 = .ok nse from rfl]
  simp only [bind, Except.bind]
  have hround : pyRound ((4 : ℝ) / (1 / 1)) = 4 := by
    unfold pyRound
    norm_num
  rw [if_neg (by omega), if_neg (by omega), if_neg one_ne_zero, hround]
  simp only [show (4 : ℤ).toNat = 4 from rfl]
  rw [if_neg (by norm_num), if_neg (by decide)]
  have hpad : mtPad r.length (env.detrend src) = .ok (env.detrend src ++ List.replicate (r.length - (env.detrend src).length) 0) := by
    unfold mtPad
    rw [if_pos (by rw [henv.detrend]; omega)]
  rw [hpad]
  simp only []
  have hof : (1 : ℝ) / (1 - 3 / 4) = 4 := by norm_num
  have hnw : (mtNwin (1 / (1 - 3 / 4)) (env.detrend src).length 4).toNat = 4 := by
    unfold mtNwin
    rw [henv.detrend, hs, hof, pyIntR_nonneg _ (by norm_num)]
    norm_num
    rfl
  have hstart : ∀ j : ℕ, mtStart 4 (1 / (1 - 3 / 4)) j = j := by
    intro j
    unfold mtStart
    rw [hof, pyIntR_nonneg _ (by positivity)]
    push_cast
    rw [mul_div_assoc, div_self (by norm_num), mul_one, Int.floor_natCast]
    simp
  have hsum : mtSum false r.length 4 (mtNwin (1 / (1 - 3 / 4)) (env.detrend src).length 4).toNat (1 / (1 - 3 / 4))
      (env.tapers 4 K).1 (env.detrend src ++ List.replicate (r.length - (env.detrend src).length) 0)
      = .error .valueError := by
    rw [hnw]
    unfold mtSum
    have hxl : (env.detrend src ++ List.replicate (r.length - (env.detrend src).length) 0).length = r.length := by
      simp only [List.length_append, List.length_replicate, henv.detrend]
      omega
    set x := env.detrend src ++ List.replicate (r.length - (env.detrend src).length) 0
    have hr4 : List.range 4 = [0, 1, 2, 3] := by decide
    rw [hr4, List.foldlM_cons]
    simp only [hstart, Bool.false_and, Bool.false_eq_true, if_false]
    obtain ⟨a0, h0⟩ := mtWindow_ok r.length 4 0 (env.tapers 4 K).1 x ((env.tapers 4 K).1.map fun _ => List.replicate r.length 0)
      (henv.taps 4 K) hxl (by omega)
    rw [h0]
    simp only [bind, Except.bind]
    rw [List.foldlM_cons]
    obtain ⟨a1, h1⟩ := mtWindow_ok r.length 4 1 (env.tapers 4 K).1 x a0 (henv.taps 4 K) hxl (by omega)
    rw [h1]
    simp only [bind, Except.bind]
    rw [List.foldlM_cons]
    rw [mtWindow_error r.length 4 2 (env.tapers 4 K).1 x a1 (henv.taps 4 K)
      (by intro h; have := henv.count 4 K; rw [h] at this; simp at this; omega) (by omega) (by omega)]
    rfl
  rw [hsum]

/-- **C24** fails also for a noise array shorter than the step between two tapers: division by zero.  (The
pre-event noise which `deconvolve()` cuts out may have any length.) -/
theorem C24_counterexample_noise (env : MtEnv) (henv : Shaped env) (nft ntap nwav : ℕ) (dt ofac tshift : ℝ)
    (gauss : Option ℝ) (taps : List (List ℝ)) (el : List ℝ) (S : List (List ℂ)) (dat : List ℝ) :
    mtComp env nft ntap nwav dt ofac tshift gauss taps el S dat [] = .error .zeroDivision := by
  unfold mtComp
  have h0 : (env.detrend []).length = 0 := by rw [henv.detrend]; rfl
  have h1 : mtPad nft (env.detrend []) = .ok (env.detrend [] ++ List.replicate (nft - 0) 0) := by
    unfold mtPad; rw [if_pos (by omega), h0]
  have h2 : mtNwin ofac (env.detrend []).length ntap = 0 := by
    unfold mtNwin
    rw [h0, pyIntR_nonneg _ (by simp)]
    simp
  simp only [bind, Except.bind]
  rw [h1]
  simp only []
  rw [h2]
  have h3 : ∀ x, mtSum true nft ntap (0 : ℤ).toNat ofac taps x = .ok (taps.map fun _ => List.replicate nft 0) := by
    intro x; rfl
  rw [h3]
  simp only []
  rw [show mtFac (nwav : ℝ) 0 nft = .error .zeroDivision by unfold mtFac; rw [if_pos (by simp)]]

/-- Non-vacuity of `C24_no_failure_partial`: tapers of 4 s at 1 Hz with overlap 0.75, a source of 4 samples
and a response of 8 samples. -/
example : pyRound ((4 : ℚ) / (1 / 1)) = (4 : ℕ) ∧ ((4 : ℕ) : ℚ) + 3 / 4 * (4 : ℕ) ≤ (8 : ℕ) ∧
    (4 : ℕ) * (1 - 3 / 4 : ℚ) ≤ (4 : ℕ) ∧ 2 * ((4 : ℕ) * (1 - 3 / 4 : ℚ)) ≤ (8 : ℕ) := by decide +kernel

end windows

section output

/-- Low-pass of the multitaper method at frequency index `k`. -/
noncomputable def lowpass (n : ℕ) (dt : ℝ) (gauss : Option ℝ) (k : ℕ) : ℝ :=
  match gauss with
  | none => 1
  | some g => Real.exp (-(freqAt n dt k / g) ^ 2 / 2)

@[simp] theorem mtOut_length (n : ℕ) (dt t : ℝ) (gauss : Option ℝ) (Q : List ℂ) :
    (mtOut n dt t gauss Q).length = n := by simp [mtOut]

/-- **C25**.  The reversed output with the phase shift by `tshift - dt` equals (the real part of) the inverse
transform of the conjugate quotient, low-pass filtered and delayed by `-tshift` - for every spectrum, also
for shifts which are not a multiple of the sampling interval.  `deconvolve()` passes minus the time
between window start and onset. -/
theorem C25_reversal_and_shift (n : ℕ) (dt t : ℝ) (hdt : dt ≠ 0) (gauss : Option ℝ) (Q : List ℂ)
    (hQ : Q.length = n) (m : ℕ) (hm : m < n) :
    (mtOut n dt t gauss Q).getD m 0 = ((∑ k ∈ range n, (starRingEnd ℂ) (Q.getD k 0) * lowpass n dt gauss k *
      Complex.exp (-2 * Real.pi * I * freqAt n dt k * ((-t : ℝ) : ℂ)) * chr n (k * m)) / n).re := by
  have hn : n ≠ 0 := by omega
  unfold mtOut
  set F := mtLow n dt gauss Q with hF
  have hFlen : F.length = n := by
    rw [hF]; cases gauss <;> simp [hQ, mtLow]
  have hFget : ∀ k < n, F.getD k 0 = Q.getD k 0 * (lowpass n dt gauss k : ℝ) := by
    intro k hk
    rw [hF]
    unfold mtLow
    cases gauss with
    | none => simp [lowpass]
    | some g =>
      simp only []
      rw [mulL_get _ _ _ (by omega) (by simpa using hk), toC_getD, gauss_get _ _ _ _ _ hk]
      congr 2
      unfold lowpass freqAt
      rw [freqIdx_eq]
      congr 1
      ring
  rw [List.getD_eq_getElem _ _ (by simpa using hm), List.getElem_reverse,
    ← List.getD_eq_getElem _ (0 : ℝ), getD_map_of_lt _ _ 0 0 _ (by simp; omega)]
  simp only [List.length_map, ifft_length]
  rw [ifft_get _ _ _ (by omega), ← Complex.conj_re]
  congr 1
  rw [map_div₀, map_natCast, map_sum]
  congr 1
  refine sum_congr rfl fun k hk => ?_
  have hk := mem_range.1 hk
  rw [mulL_get _ _ _ (by omega) (by simpa using hk), hFget k hk, phase_get _ _ _ _ hk]
  have h1 : Complex.exp (-2 * I * Real.pi * ((freqIdx n k : ℝ) / (n * dt) : ℝ) * ((t - dt : ℝ) : ℂ))
      = Complex.exp (2 * Real.pi * I * freqAt n dt k * ((-t : ℝ) : ℂ)) * W n k := by
    rw [← W_mod_eq n hn (freqIdx n k) k (freqIdx_dvd n k)]
    unfold W
    rw [← Complex.exp_add]
    congr 1
    unfold freqAt
    rw [← freqIdx_eq]
    have hn' : (n : ℂ) ≠ 0 := by exact_mod_cast hn
    have hd' : (dt : ℂ) ≠ 0 := by exact_mod_cast hdt
    push_cast
    field_simp
    ring
  have h2 : W n (k : ℤ) * W n ((k : ℤ) * ((n - 1 - m : ℕ) : ℤ)) = W n (-(k * m)) := by
    rw [← W_add]
    apply W_mod_eq n hn
    refine ⟨k, ?_⟩
    rw [Nat.cast_sub (by omega), Nat.cast_sub (by omega)]
    push_cast
    ring
  rw [h1, mul_assoc (Q.getD k 0 * _), mul_assoc (Complex.exp _), h2, map_mul, map_mul, map_mul, W_conj, neg_neg,
    Complex.conj_ofReal, ← Complex.exp_conj, chr_eq]
  rw [← mul_assoc]
  congr 3
  simp only [map_mul, conj_I, conj_ofReal, Complex.conj_ofNat]
  ring

/-- **C25** (zero time).  If response and source have the same tapered spectra (up to positive factors), i.e.
the quotient is real and not negative, the output for `tshift = -s * dt` peaks at sample `s` - the sample of
the onset, as for the other methods. -/
theorem C25_zero_time (n : ℕ) (dt : ℝ) (hdt : dt ≠ 0) (gauss : Option ℝ) (Q : List ℂ) (hQ : Q.length = n)
    (hre : ∀ k < n, 0 ≤ (Q.getD k 0).re ∧ (Q.getD k 0).im = 0) (s : ℕ) (hs : s < n) :
    ∀ m < n, |(mtOut n dt (-(s * dt)) gauss Q).getD m 0| ≤ (mtOut n dt (-(s * dt)) gauss Q).getD s 0 := by
  have hn : 0 < n := by omega
  have hn' : (0 : ℝ) < n := by exact_mod_cast hn
  have hl : ∀ k, 0 ≤ lowpass n dt gauss k := by
    intro k; unfold lowpass; cases gauss with
    | none => exact zero_le_one
    | some g => exact (Real.exp_pos _).le
  have key : ∀ m < n, (mtOut n dt (-(s * dt)) gauss Q).getD m 0
      = ((∑ k ∈ range n, (((Q.getD k 0).re * lowpass n dt gauss k : ℝ) : ℂ) * W n (k * ((m : ℤ) - s))) / n).re := by
    intro m hm
    rw [C25_reversal_and_shift n dt _ hdt gauss Q hQ m hm]
    congr 2
    refine sum_congr rfl fun k hk => ?_
    have hk := mem_range.1 hk
    have h1 : (starRingEnd ℂ) (Q.getD k 0) = ((Q.getD k 0).re : ℂ) := by
      apply Complex.ext
      · rw [Complex.conj_re, Complex.ofReal_re]
      · rw [Complex.conj_im, (hre k hk).2, Complex.ofReal_im, neg_zero]
    have h2 : Complex.exp (-2 * Real.pi * I * freqAt n dt k * ((- -((s : ℝ) * dt) : ℝ) : ℂ)) = W n (-(k * s)) := by
      rw [← phase_W n dt hdt s k hk, phase_get _ _ _ _ hk]
      unfold freqAt
      rw [← freqIdx_eq]
      congr 1
      push_cast
      ring
    rw [h1, h2, chr_eq, mul_assoc, ← W_add]
    push_cast
    congr 2
    ring
  intro m hm
  rw [key m hm, key s hs]
  have hsum : (∑ k ∈ range n, (((Q.getD k 0).re * lowpass n dt gauss k : ℝ) : ℂ) * W n (k * ((s : ℤ) - s)))
      = ((∑ k ∈ range n, (Q.getD k 0).re * lowpass n dt gauss k : ℝ) : ℂ) := by
    push_cast
    exact sum_congr rfl fun k _ => by simp
  rw [hsum, ← Complex.ofReal_natCast, ← Complex.ofReal_div, Complex.ofReal_re]
  refine (Complex.abs_re_le_norm _).trans ?_
  rw [norm_div, Complex.norm_real, Real.norm_eq_abs, abs_of_pos hn']
  refine div_le_div_of_nonneg_right ((norm_sum_le _ _).trans (sum_le_sum fun k hk => ?_)) hn'.le
  rw [norm_mul, W_norm, mul_one, Complex.norm_real, Real.norm_eq_abs,
    abs_of_nonneg (mul_nonneg (hre k (mem_range.1 hk)).1 (hl k))]

end output

section quotient

theorem zipWith_sum {α β : Type} (f : α → β → ℂ) (a : List α) (b : List β) (da : α) (db : β) (h : a.length = b.length) :
    (List.zipWith f a b).sum = ∑ k ∈ range a.length, f (a.getD k da) (b.getD k db) := by
  induction a generalizing b with
  | nil => simp
  | cons x a ih =>
    cases b with
    | nil => simp at h
    | cons y b =>
      simp only [List.length_cons, Nat.add_right_cancel_iff] at h
      rw [List.zipWith_cons_cons, List.sum_cons, ih b h, List.length_cons, sum_range_succ']
      simp [add_comm]

theorem mtNum_get (n : ℕ) (S D : List (List ℂ)) (h : S.length = D.length) (m : ℕ) (hm : m < n) :
    (mtNum n S D).getD m 0
      = ∑ k ∈ range S.length, (S.getD k []).getD m 0 * (starRingEnd ℂ) ((D.getD k []).getD m 0) := by
  unfold mtNum
  rw [getD_map_range_c _ _ _ _ hm, zipWith_sum _ _ _ [] [] h]

/-- **C26**.  At each frequency, for any number of tapers: the denominator is the source power plus the noise
power, a non-negative real number; if the source power is positive the quotient is bounded by
`sqrt(response power) / sqrt(source power)`, and noise only reduces its modulus. -/
theorem C26_damped (n : ℕ) (S D : List (List ℂ)) (h : S.length = D.length) (s0 : List ℝ) (m : ℕ) (hm : m < n)
    (h0 : 0 ≤ s0.getD m 0) :
    let pS := ∑ k ∈ range S.length, ‖(S.getD k []).getD m 0‖ ^ 2
    let pD := ∑ k ∈ range S.length, ‖(D.getD k []).getD m 0‖ ^ 2
    (mtNum n S S).getD m 0 + (s0.getD m 0 : ℝ) = ((pS + s0.getD m 0 : ℝ) : ℂ) ∧ 0 ≤ pS + s0.getD m 0 ∧
    (0 < pS → ‖(mtQuot n S D s0).getD m 0‖ ≤ Real.sqrt pD / Real.sqrt pS ∧
      ‖(mtQuot n S D s0).getD m 0‖ ≤ ‖(mtQuot n S D []).getD m 0‖) := by
  intro pS pD
  have hden : (mtNum n S S).getD m 0 = ((pS : ℝ) : ℂ) := by
    rw [mtNum_get n S S rfl m hm]
    rw [Complex.ofReal_sum]
    refine sum_congr rfl fun k _ => ?_
    rw [Complex.mul_conj, Complex.normSq_eq_norm_sq]
  have hpS : 0 ≤ pS := sum_nonneg fun _ _ => sq_nonneg _
  have hpD : 0 ≤ pD := sum_nonneg fun _ _ => sq_nonneg _
  refine ⟨by rw [hden]; push_cast; rfl, by linarith, fun hpos => ?_⟩
  have hq : ∀ s0 : List ℝ, (mtQuot n S D s0).getD m 0 = (mtNum n S D).getD m 0 / ((pS + s0.getD m 0 : ℝ) : ℂ) := by
    intro s0
    unfold mtQuot
    rw [getD_map_range_c _ _ _ _ hm, hden]
    push_cast
    rfl
  have hcs : ‖(mtNum n S D).getD m 0‖ ≤ Real.sqrt pS * Real.sqrt pD := by
    rw [mtNum_get n S D h m hm]
    refine (norm_sum_le _ _).trans ?_
    have := Real.sum_mul_le_sqrt_mul_sqrt (range S.length) (fun k => ‖(S.getD k []).getD m 0‖)
      (fun k => ‖(D.getD k []).getD m 0‖)
    refine le_trans (le_of_eq (sum_congr rfl fun k _ => ?_)) this
    rw [norm_mul, RCLike.norm_conj]
  have hd : 0 < pS + s0.getD m 0 := by linarith
  have hnorm : ∀ s0 : List ℝ, 0 ≤ s0.getD m 0 →
      ‖(mtQuot n S D s0).getD m 0‖ = ‖(mtNum n S D).getD m 0‖ / (pS + s0.getD m 0) := by
    intro s0 h
    rw [hq, norm_div, Complex.norm_real, Real.norm_eq_abs, abs_of_pos (by linarith)]
  rw [hnorm s0 h0, hnorm [] (by simp)]
  refine ⟨?_, ?_⟩
  · have hsq : 0 < Real.sqrt pS := Real.sqrt_pos.2 hpos
    rw [div_le_div_iff₀ hd hsq]
    calc ‖(mtNum n S D).getD m 0‖ * Real.sqrt pS ≤ Real.sqrt pS * Real.sqrt pD * Real.sqrt pS :=
          mul_le_mul_of_nonneg_right hcs hsq.le
      _ = Real.sqrt pD * (Real.sqrt pS * Real.sqrt pS) := by ring
      _ = Real.sqrt pD * pS := by rw [Real.mul_self_sqrt hpS]
      _ ≤ Real.sqrt pD * (pS + s0.getD m 0) := mul_le_mul_of_nonneg_left (by linarith) (Real.sqrt_nonneg _)
  · simp only [List.getD_nil, add_zero]
    exact div_le_div_of_nonneg_left (norm_nonneg _) hpos (by linarith)

/-- **C26** (noise power).  With non-negative eigenvalues the noise power is not negative. -/
theorem C26_noise_nonneg (n : ℕ) (N : List (List ℂ)) (el : List ℝ) (hel : ∀ l ∈ el, 0 ≤ l) (m : ℕ) (hm : m < n) :
    0 ≤ (mtNoise n N el).getD m 0 := by
  unfold mtNoise
  rw [getD_map_range_c _ _ _ _ hm]
  apply List.sum_nonneg
  intro x hx
  obtain ⟨i, hi, rfl⟩ := List.getElem_of_mem hx
  rw [List.getElem_zipWith]
  refine div_nonneg (by positivity) (hel _ (List.getElem_mem _))

theorem foldlM_inv {α β : Type} (P : β → Prop) (f : β → α → Res β) (l : List α) (b r : β) (hb : P b)
    (h : ∀ a ∈ l, ∀ b b', P b → f b a = .ok b' → P b') (hr : l.foldlM f b = .ok r) : P r := by
  induction l generalizing b with
  | nil =>
    have : b = r := by injection hr
    rwa [← this]
  | cons a l ih =>
    rw [List.foldlM_cons] at hr
    cases hf : f b a with
    | error e => rw [hf] at hr; cases hr
    | ok b' =>
      rw [hf] at hr
      exact ih b' (h a List.mem_cons_self b b' hb hf) (fun a ha => h a (List.mem_cons_of_mem _ ha)) hr

theorem mtSum_length (guard : Bool) (nft ntap nwin : ℕ) (ofac : ℝ) (taps : List (List ℝ)) (x : List ℝ)
    (A : List (List ℂ)) (h : mtSum guard nft ntap nwin ofac taps x = .ok A) : A.length = taps.length := by
  unfold mtSum at h
  refine foldlM_inv (fun A => A.length = taps.length) _ _ _ _ (by simp) ?_ h
  intro j _ b b' hb hf
  simp only [] at hf
  split at hf
  · injection hf with hf; rwa [← hf]
  · unfold mtWindow at hf
    cases hm : taps.mapM fun tap => mtBit nft (mtStart ntap ofac j) tap x with
    | error e => rw [hm] at hf; cases hf
    | ok bits =>
      rw [hm] at hf
      have hf' : Except.ok (List.zipWith (fun a bit => addL a (fft (toC bit) nft)) b bits)
        = (Except.ok b' : Res (List (List ℂ))) := hf
      injection hf' with hf'
      rw [← hf', List.length_zipWith, hb, (mapM_ok _ _ _ hm).1]
      simp

/-- **C26** (the method as a whole).  Without normalisation every result is, after the reversal and shift of
C25, the low-pass filtered quotient of C26 for spectra of the same `K` tapers and a noise power which is not
negative; all denominators are positive. -/
theorem C26_result (env : MtEnv) (henv : Shaped env) (hel : ∀ ntap K, ∀ l ∈ (env.tapers ntap K).2, 0 ≤ l)
    (rsp : List (List ℝ)) (src : List ℝ) (nse : List (List ℝ)) (sr tshift : ℝ) (gauss : Option ℝ) (K : ℕ)
    (T olap : ℝ) (rf : List (List ℝ))
    (h : deconvMultitaper env rsp src nse sr tshift gauss K T olap none = .ok rf) (c : ℕ) (hc : c < rsp.length) :
    ∃ n, (∃ r0, rsp[0]? = some r0 ∧ n = r0.length) ∧ ∃ (S D : List (List ℂ)) (s0 : List ℝ),
      S.length = K ∧ D.length = K ∧ (∀ m < n, 0 ≤ s0.getD m 0) ∧
      (∀ m < n, (mtNum n S S).getD m 0 + (s0.getD m 0 : ℝ) ≠ 0) ∧
      rf[c]? = some (mtOut n (1 / sr) tshift gauss (mtQuot n S D s0)) := by
  unfold deconvMultitaper at h
  obtain ⟨r0, rs, rfl⟩ : ∃ r0 rs, rsp = r0 :: rs := by
    cases rsp with
    | nil => simp at hc
    | cons a b => exact ⟨a, b, rfl⟩
  rw [show getItem (r0 :: rs) 0 = .ok r0 from rfl] at h
  simp only [bind, Except.bind] at h
  split at h
  · cases h
  split at h
  · cases h
  split at h
  · cases h
  split at h
  · cases h
  split at h
  · cases h
  split at h
  · cases h
  split at h
  · cases h
  split at h
  · cases h
  rename_i S hS
  split at h
  · cases h
  rename_i fac hfac
  split at h
  · cases h
  rename_i rf' hmap
  have e : rf' = rf := by injection h
  subst e
  refine ⟨r0.length, ⟨r0, rfl, rfl⟩, ?_⟩
  obtain ⟨y, hy, hy2⟩ := (mapM_ok _ _ _ hmap).2 c c (by rw [List.getElem?_range hc])
  split at hy
  · cases hy
  rename_i nos hnos
  unfold mtComp at hy
  simp only [bind, Except.bind] at hy
  split at hy
  · cases hy
  split at hy
  · cases hy
  rename_i N hN
  split at hy
  · cases hy
  rename_i fac2 hfac2
  split at hy
  · cases hy
  rename_i D hD
  split at hy
  · cases hy
  rename_i fac3 hfac3
  split at hy
  · cases hy
  rename_i hden
  push Not at hden
  injection hy with hy
  rw [← hy] at hy2
  refine ⟨_, _, _, ?_, ?_, ?_, ?_, hy2⟩
  · unfold mtScale
    rw [List.length_map, mtSum_length _ _ _ _ _ _ _ _ hS, henv.count]
  · unfold mtScale
    rw [List.length_map, mtSum_length _ _ _ _ _ _ _ _ hD, henv.count]
  · exact fun m hm => C26_noise_nonneg _ _ _ (hel _ _) m hm
  · exact hden

end quotient
end Verif.Props
