import Verif.Props.Water
import Verif.Props.DeconvTime
import Verif.Props.Deconvolve

/-!
# Water level deconvolution: self-deconvolution (C17), linearity and normalisation (C19)
-/

set_option linter.unusedSimpArgs false
set_option linter.unusedSectionVars false

namespace Verif.Props
open Verif.Py Verif.Model Verif.Spec Finset Complex

section maxC

/-- `a` is not larger than `b` in the order `numpy` uses for complex numbers. -/
def LexLe (a b : ℂ) : Prop := a.re < b.re ∨ (a.re = b.re ∧ a.im ≤ b.im)

theorem LexLe.trans {a b c : ℂ} (h1 : LexLe a b) (h2 : LexLe b c) : LexLe a c := by
  unfold LexLe at *
  rcases h1 with h1 | ⟨h1, h1'⟩ <;> rcases h2 with h2 | ⟨h2, h2'⟩
  · left; linarith
  · left; linarith
  · left; linarith
  · right; exact ⟨h1.trans h2, h1'.trans h2'⟩

theorem LexLe.re {a b : ℂ} (h : LexLe a b) : a.re ≤ b.re := by
  rcases h with h | h
  · exact h.le
  · exact h.1.le

open Classical in
theorem foldl_lex (xs : List ℂ) (m : ℂ) :
    let r := xs.foldl (fun m y => if m.re < y.re ∨ (m.re = y.re ∧ m.im < y.im) then y else m) m
    (r = m ∨ r ∈ xs) ∧ LexLe m r ∧ ∀ y ∈ xs, LexLe y r := by
  induction xs generalizing m with
  | nil => simp [LexLe]
  | cons x xs ih =>
    simp only [List.foldl_cons, List.mem_cons, forall_eq_or_imp]
    by_cases h : m.re < x.re ∨ (m.re = x.re ∧ m.im < x.im)
    · rw [if_pos h]
      obtain ⟨i1, i2, i3⟩ := ih x
      have hm : LexLe m x := by
        rcases h with h | h
        · exact Or.inl h
        · exact Or.inr ⟨h.1, h.2.le⟩
      refine ⟨?_, hm.trans i2, i2, i3⟩
      rcases i1 with i1 | i1
      · exact Or.inr (Or.inl i1)
      · exact Or.inr (Or.inr i1)
    · rw [if_neg h]
      obtain ⟨i1, i2, i3⟩ := ih m
      have hm : LexLe x m := by
        push Not at h
        rcases lt_or_eq_of_le h.1 with h' | h'
        · exact Or.inl h'
        · exact Or.inr ⟨h', h.2 h'.symm⟩
      refine ⟨?_, i2, hm.trans i2, i3⟩
      rcases i1 with i1 | i1
      · exact Or.inl i1
      · exact Or.inr (Or.inr i1)

theorem maxC_spec (l : List ℂ) (m : ℂ) (h : maxC l = .ok m) : m ∈ l ∧ ∀ y ∈ l, LexLe y m := by
  cases l with
  | nil => cases h
  | cons x xs =>
    simp only [maxC, Except.ok.injEq] at h
    obtain ⟨i1, i2, i3⟩ := foldl_lex xs x
    rw [h] at i1 i2 i3
    refine ⟨?_, ?_⟩
    · rcases i1 with h | h
      · rw [h]; exact List.mem_cons_self
      · exact List.mem_cons_of_mem _ h
    · intro y hy
      rcases List.mem_cons.1 hy with rfl | hy
      · exact i2
      · exact i3 y hy

open Classical in
theorem maxC_smul (l : List ℂ) (c : ℝ) (hc : 0 < c) :
    maxC (l.map ((c : ℂ) * ·)) = (maxC l).map ((c : ℂ) * ·) := by
  cases l with
  | nil => rfl
  | cons x xs =>
    simp only [maxC, List.map_cons, Except.map]
    congr 1
    induction xs generalizing x with
    | nil => rfl
    | cons y ys ih =>
      simp only [List.map_cons, List.foldl_cons]
      have : (((c : ℂ) * x).re < ((c : ℂ) * y).re ∨
          (((c : ℂ) * x).re = ((c : ℂ) * y).re ∧ ((c : ℂ) * x).im < ((c : ℂ) * y).im)) ↔
          (x.re < y.re ∨ (x.re = y.re ∧ x.im < y.im)) := by
        simp [Complex.mul_re, Complex.mul_im, hc, hc.ne']
      by_cases h : x.re < y.re ∨ (x.re = y.re ∧ x.im < y.im)
      · rw [if_pos h, if_pos (this.2 h)]; exact ih y
      · rw [if_neg h, if_neg (fun h' => h (this.1 h'))]; exact ih x

end maxC

section self
variable (fastLen : ℕ → ℕ) (rsp : List (List ℝ)) (src : List ℝ) (sr wl T : ℝ) (gauss : Option ℝ)

theorem rawRf_length (n N : ℕ) (r : List ℝ) : (rawRf src sr wl T gauss n N r).length = min N n := by
  simp [rawRf]

theorem rawRf_get (n N : ℕ) (r : List ℝ) (m : ℕ) (hN : m < N) (hn : m < n) :
    (rawRf src sr wl T gauss n N r).getD m 0
      = (∑ k ∈ range n, filterAt n (1 / sr) T gauss k * dft r n k * (starRingEnd ℂ) (dft src n k)
        / ((waterPower (fft (toC src) n) wl).getD k 0 : ℝ) * W n (k * m)) / n := by
  unfold rawRf
  rw [getD_take_of_lt _ _ _ _ hN, ifft_get _ _ _ hn]
  congr 1
  exact sum_congr rfl fun k hk => by rw [spec_get _ _ _ _ _ _ _ _ (mem_range.1 hk)]

/-- The filter for a delay by `s` samples. -/
theorem filter_sample (n : ℕ) (hsr : sr ≠ 0) (s : ℤ) (k : ℕ) (hk : k < n) :
    ∃ g : ℝ, 0 < g ∧ filterAt n (1 / sr) (s / sr) gauss k = g * W n (-(k * s)) := by
  have h1 := phase_W n (1 / sr) (by positivity) s k hk
  have h2 := filter_get n (1 / sr) (s * (1 / sr)) none k hk
  unfold waterFilter at h2
  simp only at h2
  rw [h1] at h2
  rw [mul_one_div] at h2
  unfold filterAt at h2 ⊢
  simp only [one_mul] at h2
  rw [← h2]
  cases gauss with
  | none => exact ⟨1, one_pos, by simp⟩
  | some g => exact ⟨_, Real.exp_pos _, rfl⟩

/-- Spectrum of the self-deconvolution. -/
theorem self_raw (n N : ℕ) (hsr : sr ≠ 0) (s : ℕ) (hsn : s < n) :
    ∃ a : ℕ → ℝ, (∀ k < n, 0 ≤ a k) ∧
      (∀ k < n, dft src n k ≠ 0 → 0 < a k) ∧
      ∀ m, m < N → m < n → (rawRf src sr wl (s / sr) gauss n N src).getD m 0
        = (∑ k ∈ range n, (a k : ℂ) * W n (k * ((m : ℤ) - s))) / n := by
  have hn : 0 < n := by omega
  obtain ⟨M, ⟨j, hj, hM⟩, h3, h4⟩ := water_get src wl n hn
  have hf : ∀ k, ∃ g : ℝ, 0 < g ∧ (k < n → filterAt n (1 / sr) (s / sr) gauss k = g * W n (-(k * s))) := by
    intro k
    by_cases hk : k < n
    · obtain ⟨g, h1, h2⟩ := filter_sample sr gauss n hsr s k hk
      exact ⟨g, h1, fun _ => by exact_mod_cast h2⟩
    · exact ⟨1, one_pos, fun h => absurd h hk⟩
  choose g hg1 hg2 using hf
  refine ⟨fun k => g k * ‖dft src n k‖ ^ 2 / max (‖dft src n k‖ ^ 2) (M * wl), fun k _ => ?_, fun k _ hk => ?_, ?_⟩
  · have := (hg1 k).le
    have : 0 ≤ max (‖dft src n k‖ ^ 2) (M * wl) := le_max_of_le_left (by positivity)
    positivity
  · have := hg1 k
    have : 0 < max (‖dft src n k‖ ^ 2) (M * wl) := lt_max_of_lt_left (by positivity)
    positivity
  · intro m hmN hmn
    rw [rawRf_get _ _ _ _ _ _ _ _ _ hmN hmn]
    congr 1
    refine sum_congr rfl fun k hk => ?_
    have hk := mem_range.1 hk
    rw [h4 k hk, hg2 k hk]
    have e : ((‖dft src n k‖ ^ 2 : ℝ) : ℂ) = dft src n k * (starRingEnd ℂ) (dft src n k) := by
      rw [Complex.mul_conj, Complex.normSq_eq_norm_sq]
    rw [Complex.ofReal_div, Complex.ofReal_mul, e, mul_sub, sub_eq_add_neg, W_add]
    push_cast
    ring

/-- The self-deconvolution peaks at sample `s`. -/
theorem self_peak (n N : ℕ) (hsr : sr ≠ 0) (s : ℕ) (hsN : s < N) (hsn : s < n) :
    ∃ c : ℝ, 0 ≤ c ∧ (rawRf src sr wl (s / sr) gauss n N src).getD s 0 = (c : ℂ) ∧
      ((∃ k < n, dft src n k ≠ 0) → 0 < c) ∧
      ∀ x ∈ rawRf src sr wl (s / sr) gauss n N src, ‖x‖ ≤ c := by
  obtain ⟨a, h0, h1, h2⟩ := self_raw src sr wl gauss n N hsr s hsn
  have hn : 0 < n := by omega
  have hn' : (0 : ℝ) < n := by exact_mod_cast hn
  refine ⟨(∑ k ∈ range n, a k) / n, ?_, ?_, ?_, ?_⟩
  · exact div_nonneg (sum_nonneg fun k hk => h0 k (mem_range.1 hk)) hn'.le
  · rw [h2 s hsN hsn]
    push_cast
    congr 1
    exact sum_congr rfl fun k _ => by simp
  · rintro ⟨k, hk, h⟩
    refine div_pos (sum_pos' (fun k hk => h0 k (mem_range.1 hk)) ⟨k, mem_range.2 hk, h1 k hk h⟩) hn'
  · intro x hx
    obtain ⟨m, hm, rfl⟩ := List.getElem_of_mem hx
    rw [rawRf_length, lt_min_iff] at hm
    rw [← List.getD_eq_getElem _ 0, h2 m hm.1 hm.2, norm_div, Complex.norm_natCast]
    refine div_le_div_of_nonneg_right ?_ hn'.le
    refine (norm_sum_le _ _).trans (sum_le_sum fun k hk => ?_)
    rw [norm_mul, W_norm, mul_one, Complex.norm_real, Real.norm_eq_abs,
      abs_of_nonneg (h0 k (mem_range.1 hk))]

/-- **C17**.  Deconvolving the source from itself with a delay of `s` samples: the value at sample `s` is real,
not negative - positive if the source does not vanish in the transform window - and no sample has a larger
modulus. -/
theorem C17_peak_at_tshift (length nfft : Option ℕ) (N : ℕ) (hN : outLen rsp length = some N)
    (s : ℕ) (hsN : s < N) (hsn : s < nfft.getD (fastLen N)) (rf : List (List ℂ))
    (h : deconvWaterlevel fastLen rsp src sr wl gauss (s / sr) length .none nfft = .ok rf)
    (i : ℕ) (hr : rsp[i]? = some src) :
    ∃ x, ∃ c : ℝ, rf[i]? = some x ∧ 0 ≤ c ∧ x.getD s 0 = (c : ℂ) ∧ (∀ v ∈ x, ‖v‖ ≤ c) ∧
      ((∃ j < nfft.getD (fastLen N), src.getD j 0 ≠ 0) → 0 < c) := by
  obtain ⟨hn, hsr, hw, rfl⟩ := water_raw _ _ _ _ _ _ _ _ _ _ hN _ h
  obtain ⟨c, h1, h2, h3, h4⟩ := self_peak src sr wl gauss _ N hsr s hsN hsn
  refine ⟨_, c, by rw [List.getElem?_map, hr]; rfl, h1, h2, h4, ?_⟩
  rintro ⟨j, hj, h⟩
  exact h3 (dft_ne_zero src _ j hj h)

/-- A successful call normalised to result `i`. -/
theorem water_idx (length nfft : Option ℕ) (N : ℕ) (hN : outLen rsp length = some N) (rf : List (List ℂ))
    (i : ℤ) (h : deconvWaterlevel fastLen rsp src sr wl gauss T length (.idx i) nfft = .ok rf) :
    nfft.getD (fastLen N) ≠ 0 ∧ sr ≠ 0 ∧ 0 ∉ waterPower (fft (toC src) (nfft.getD (fastLen N))) wl ∧
      ∃ x m, getItem (rsp.map (rawRf src sr wl T gauss (nfft.getD (fastLen N)) N)) i = .ok x ∧
        maxC x = .ok m ∧ m ≠ 0 ∧
        rf = scaleAll (1 / m) (rsp.map (rawRf src sr wl T gauss (nfft.getD (fastLen N)) N)) := by
  rw [water_eq _ _ _ _ _ _ _ _ _ _ N hN] at h
  simp only at h
  split at h
  · cases h
  split at h
  · cases h
  split at h
  · cases h
  refine ⟨by assumption, by assumption, by assumption, ?_⟩
  obtain ⟨x, hx⟩ : ∃ x, getItem (rsp.map (rawRf src sr wl T gauss (nfft.getD (fastLen N)) N)) i = .ok x := by
    cases hg : getItem (rsp.map (rawRf src sr wl T gauss (nfft.getD (fastLen N)) N)) i with
    | error e => rw [hg] at h; cases h
    | ok x => exact ⟨x, rfl⟩
  rw [hx] at h
  obtain ⟨m, hm⟩ : ∃ m, maxC x = .ok m := by
    cases hg : maxC x with
    | error e =>
      have h' : (do let m ← maxC x; if m = 0 then .error .other else .ok (scaleAll (1 / m)
        (rsp.map (rawRf src sr wl T gauss (nfft.getD (fastLen N)) N))) : Res (List (List ℂ))) = .ok rf := h
      rw [hg] at h'; cases h'
    | ok x => exact ⟨x, rfl⟩
  have h' : (do let m ← maxC x; if m = 0 then .error .other else .ok (scaleAll (1 / m)
        (rsp.map (rawRf src sr wl T gauss (nfft.getD (fastLen N)) N))) : Res (List (List ℂ))) = .ok rf := h
  rw [hm] at h'
  have h'' : (if m = 0 then .error .other else .ok (scaleAll (1 / m)
        (rsp.map (rawRf src sr wl T gauss (nfft.getD (fastLen N)) N))) : Res (List (List ℂ))) = .ok rf := h'
  by_cases h0 : m = 0
  · rw [if_pos h0] at h''; cases h''
  · rw [if_neg h0] at h''
    injection h'' with h''
    exact ⟨x, m, hx, hm, h0, h''.symm⟩

/-- **C17** (normalised).  With normalisation to the trace that holds the source itself, the value at sample
`s = tshift * sampling_rate` is exactly 1, and no sample exceeds 1 in modulus. -/
theorem C17_normalised (length nfft : Option ℕ) (N : ℕ) (hN : outLen rsp length = some N)
    (s : ℕ) (hsN : s < N) (hsn : s < nfft.getD (fastLen N)) (rf : List (List ℂ)) (i : ℕ)
    (h : deconvWaterlevel fastLen rsp src sr wl gauss (s / sr) length (.idx i) nfft = .ok rf)
    (hr : rsp[i]? = some src) :
    ∃ x, rf[i]? = some x ∧ x.getD s 0 = 1 ∧ ∀ v ∈ x, ‖v‖ ≤ 1 := by
  obtain ⟨hn, hsr, hw, x, m, hx, hm, h0, rfl⟩ := water_idx _ _ _ _ _ _ _ _ _ _ hN _ _ h
  set n := nfft.getD (fastLen N)
  have hget : (rsp.map (rawRf src sr wl (s / sr) gauss n N))[i]? = some (rawRf src sr wl (s / sr) gauss n N src) := by
    rw [List.getElem?_map, hr]; rfl
  obtain ⟨hlt, hge⟩ := List.getElem?_eq_some_iff.1 hget
  have hx' : x = rawRf src sr wl (s / sr) gauss n N src := by
    have := getItem_lt (rsp.map (rawRf src sr wl (s / sr) gauss n N)) i hlt
    rw [hx] at this
    injection this with this
    rw [this, hge]
  subst hx'
  obtain ⟨c, h1, h2, h3, h4⟩ := self_peak src sr wl gauss _ N hsr s hsN hsn
  obtain ⟨m1, m2⟩ := maxC_spec _ _ hm
  have hmem : (c : ℂ) ∈ rawRf src sr wl (s / sr) gauss n N src := by
    rw [← h2, List.getD_eq_getElem _ _ (by rw [rawRf_length]; exact lt_min hsN hsn)]
    exact List.getElem_mem _
  have hmc : m = c := by
    have e1 := (m2 _ hmem).re
    have e2 := h4 _ m1
    have e3 := (Complex.abs_re_le_norm m)
    simp only [Complex.ofReal_re] at e1
    have hre : m.re = c := le_antisymm ((le_abs_self _).trans (e3.trans e2)) e1
    have hsq : m.re ^ 2 + m.im ^ 2 ≤ c ^ 2 := by
      have : ‖m‖ ^ 2 ≤ c ^ 2 := by gcongr
      rw [← Complex.normSq_eq_norm_sq, Complex.normSq_apply] at this
      nlinarith
    have him : m.im = 0 := by
      rw [hre] at hsq
      have : m.im ^ 2 ≤ 0 := by linarith
      exact pow_eq_zero_iff (two_ne_zero) |>.1 (le_antisymm this (sq_nonneg _))
    exact Complex.ext (by simpa using hre) (by simpa using him)
  subst hmc
  have hc0 : c ≠ 0 := by exact_mod_cast h0
  refine ⟨(rawRf src sr wl (s / sr) gauss n N src).map (· * (1 / (c : ℂ))), ?_, ?_, ?_⟩
  · unfold scaleAll
    rw [List.getElem?_map, hget]; rfl
  · rw [getD_map_of_lt _ _ 0 0 s (by rw [rawRf_length]; exact lt_min hsN hsn), h2]
    field_simp
  · intro v hv
    obtain ⟨u, hu, rfl⟩ := List.mem_map.1 hv
    rw [norm_mul, norm_div, norm_one, Complex.norm_real, Real.norm_eq_abs, abs_of_nonneg h1, mul_one_div]
    exact (div_le_one (lt_of_le_of_ne h1 hc0.symm)).2 (h4 u hu)

end self

section linear
variable (fastLen : ℕ → ℕ) (rsp : List (List ℝ)) (src : List ℝ) (sr wl T : ℝ) (gauss : Option ℝ)

theorem dft_lin (r r1 r2 : List ℝ) (a b : ℝ) (n k : ℕ)
    (h : ∀ j < n, r.getD j 0 = a * r1.getD j 0 + b * r2.getD j 0) :
    dft r n k = a * dft r1 n k + b * dft r2 n k := by
  unfold dft
  rw [mul_sum, mul_sum, ← sum_add_distrib]
  refine sum_congr rfl fun j hj => ?_
  rw [h j (mem_range.1 hj)]
  push_cast
  ring

/-- **C19** (linearity).  Without normalisation: if response `i` is `a * r1 + b * r2` sample by sample inside
the transform window, its result is `a *` the result of `r1` `+ b *` the result of `r2`. -/
theorem C19_linear (rsp1 rsp2 : List (List ℝ)) (N : ℕ) (nfft : Option ℕ) (rf rf1 rf2 : List (List ℂ))
    (h : deconvWaterlevel fastLen rsp src sr wl gauss T (some N) .none nfft = .ok rf)
    (h1 : deconvWaterlevel fastLen rsp1 src sr wl gauss T (some N) .none nfft = .ok rf1)
    (h2 : deconvWaterlevel fastLen rsp2 src sr wl gauss T (some N) .none nfft = .ok rf2)
    (i : ℕ) (r r1 r2 : List ℝ) (hr : rsp[i]? = some r) (hr1 : rsp1[i]? = some r1) (hr2 : rsp2[i]? = some r2)
    (a b : ℝ) (hlin : ∀ j < nfft.getD (fastLen N), r.getD j 0 = a * r1.getD j 0 + b * r2.getD j 0) :
    ∃ x x1 x2, rf[i]? = some x ∧ rf1[i]? = some x1 ∧ rf2[i]? = some x2 ∧
      x.length = x1.length ∧ x.length = x2.length ∧
      ∀ m < x.length, x.getD m 0 = a * x1.getD m 0 + b * x2.getD m 0 := by
  obtain ⟨hn, hsr, hw, rfl⟩ := water_raw _ _ _ _ _ _ _ _ _ N rfl _ h
  obtain ⟨-, -, -, rfl⟩ := water_raw _ _ _ _ _ _ _ _ _ N rfl _ h1
  obtain ⟨-, -, -, rfl⟩ := water_raw _ _ _ _ _ _ _ _ _ N rfl _ h2
  refine ⟨_, _, _, by rw [List.getElem?_map, hr]; rfl, by rw [List.getElem?_map, hr1]; rfl,
    by rw [List.getElem?_map, hr2]; rfl, by simp [rawRf_length], by simp [rawRf_length], ?_⟩
  intro m hm
  rw [rawRf_length, lt_min_iff] at hm
  rw [rawRf_get _ _ _ _ _ _ _ _ _ hm.1 hm.2, rawRf_get _ _ _ _ _ _ _ _ _ hm.1 hm.2,
    rawRf_get _ _ _ _ _ _ _ _ _ hm.1 hm.2, ← mul_div_assoc, ← mul_div_assoc, ← add_div, mul_sum, mul_sum,
    ← sum_add_distrib]
  congr 1
  refine sum_congr rfl fun k _ => ?_
  rw [dft_lin r r1 r2 a b _ k hlin]
  ring

theorem dft_smul (r : List ℝ) (c : ℝ) (n k : ℕ) : dft (r.map (c * ·)) n k = c * dft r n k := by
  unfold dft
  rw [mul_sum]
  refine sum_congr rfl fun j _ => ?_
  have : (r.map (c * ·)).getD j 0 = c * r.getD j 0 := by
    rw [List.getD_eq_getElem?_getD, List.getD_eq_getElem?_getD, List.getElem?_map]
    cases r[j]? <;> simp
  rw [this]
  push_cast
  ring

theorem listC_ext (x y : List ℂ) (h : x.length = y.length) (h2 : ∀ m < x.length, x.getD m 0 = y.getD m 0) :
    x = y := by
  refine List.ext_getElem h fun m hx hy => ?_
  have := h2 m hx
  rwa [List.getD_eq_getElem _ _ hx, List.getD_eq_getElem _ _ hy] at this

theorem rawRf_smul (n N : ℕ) (r : List ℝ) (c : ℝ) :
    rawRf src sr wl T gauss n N (r.map (c * ·)) = (rawRf src sr wl T gauss n N r).map ((c : ℂ) * ·) := by
  refine listC_ext _ _ (by simp [rawRf_length]) fun m hm => ?_
  rw [rawRf_length, lt_min_iff] at hm
  rw [getD_map_of_lt _ _ 0 0 m (by rw [rawRf_length]; exact lt_min hm.1 hm.2),
    rawRf_get _ _ _ _ _ _ _ _ _ hm.1 hm.2, rawRf_get _ _ _ _ _ _ _ _ _ hm.1 hm.2, ← mul_div_assoc, mul_sum]
  congr 1
  refine sum_congr rfl fun k _ => ?_
  rw [dft_smul]
  ring

theorem waterPower_smul (n : ℕ) (d : ℝ) (hn : 0 < n) (k : ℕ) (hk : k < n) :
    (waterPower (fft (toC (src.map (d * ·))) n) wl).getD k 0
      = d ^ 2 * (waterPower (fft (toC src) n) wl).getD k 0 := by
  obtain ⟨M, ⟨j, hj, hM⟩, h3, h4⟩ := water_get src wl n hn
  obtain ⟨M', ⟨j', hj', hM'⟩, h3', h4'⟩ := water_get (src.map (d * ·)) wl n hn
  rw [h4 k hk, h4' k hk]
  have e : ∀ k, ‖dft (src.map (d * ·)) n k‖ ^ 2 = d ^ 2 * ‖dft src n k‖ ^ 2 := by
    intro k
    rw [dft_smul, norm_mul, mul_pow, Complex.norm_real, Real.norm_eq_abs, sq_abs]
  have hMM : M' = d ^ 2 * M := by
    apply le_antisymm
    · rw [hM', e]; exact mul_le_mul_of_nonneg_left (h3 j' hj') (sq_nonneg _)
    · rw [hM, ← e]; exact h3' j hj
  rw [e, hMM, mul_max_of_nonneg _ _ (sq_nonneg d), mul_assoc]

theorem water_zero_iff (n : ℕ) (d : ℝ) (hd : d ≠ 0) (hn : 0 < n) :
    0 ∈ waterPower (fft (toC (src.map (d * ·))) n) wl ↔ 0 ∈ waterPower (fft (toC src) n) wl := by
  have e : ∀ x : List ℝ, 0 ∈ waterPower (fft (toC x) n) wl ↔
      ∃ k < n, (waterPower (fft (toC x) n) wl).getD k 0 = 0 := by
    intro x
    constructor
    · intro h
      obtain ⟨k, hk, h⟩ := List.getElem_of_mem h
      exact ⟨k, by simpa using hk, by rw [List.getD_eq_getElem _ _ hk, h]⟩
    · rintro ⟨k, hk, h⟩
      rw [List.getD_eq_getElem _ _ (by simpa using hk)] at h
      rw [← h]
      exact List.getElem_mem _
  rw [e, e]
  refine exists_congr fun k => and_congr_right fun hk => ?_
  rw [waterPower_smul src wl n d hn k hk]
  simp [hd]

theorem rawRf_src_smul (n N : ℕ) (r : List ℝ) (d : ℝ) (hd : d ≠ 0) :
    rawRf (src.map (d * ·)) sr wl T gauss n N r
      = (rawRf src sr wl T gauss n N r).map (((d⁻¹ : ℝ) : ℂ) * ·) := by
  refine listC_ext _ _ (by simp [rawRf_length]) fun m hm => ?_
  rw [rawRf_length, lt_min_iff] at hm
  rw [getD_map_of_lt _ _ 0 0 m (by rw [rawRf_length]; exact lt_min hm.1 hm.2),
    rawRf_get _ _ _ _ _ _ _ _ _ hm.1 hm.2, rawRf_get _ _ _ _ _ _ _ _ _ hm.1 hm.2, ← mul_div_assoc, mul_sum]
  congr 1
  refine sum_congr rfl fun k hk => ?_
  have hk := mem_range.1 hk
  rw [waterPower_smul src wl n d (by omega) k hk, dft_smul, map_mul, Complex.conj_ofReal]
  have hd' : (d : ℂ) ≠ 0 := by exact_mod_cast hd
  push_cast
  generalize ((waterPower (fft (toC src) n) wl).getD k 0 : ℂ) = w
  by_cases hw : w = 0
  · simp [hw]
  · field_simp

/-- **C19** (amplitude invariance).  With `normalize = i` the outcome (also a failure) does not change if all
responses are multiplied with `c > 0` and the source with `d > 0`. -/
theorem C19_scale_invariant (length nfft : Option ℕ) (N : ℕ) (hN : outLen rsp length = some N) (i : ℤ)
    (c d : ℝ) (hc : 0 < c) (hd : 0 < d) :
    deconvWaterlevel fastLen (rsp.map (·.map (c * ·))) (src.map (d * ·)) sr wl gauss T length (.idx i) nfft
      = deconvWaterlevel fastLen rsp src sr wl gauss T length (.idx i) nfft := by
  have hN' : outLen (rsp.map (·.map (c * ·))) length = some N := by
    rw [← hN]
    unfold outLen
    cases rsp <;> simp
  rw [water_eq _ _ _ _ _ _ _ _ _ _ N hN', water_eq _ _ _ _ _ _ _ _ _ _ N hN]
  simp only
  by_cases hn : nfft.getD (fastLen N) = 0
  · rw [if_pos hn, if_pos hn]
  rw [if_neg hn, if_neg hn]
  by_cases hsr : sr = 0
  · rw [if_pos hsr, if_pos hsr]
  rw [if_neg hsr, if_neg hsr]
  by_cases hw : 0 ∈ waterPower (fft (toC src) (nfft.getD (fastLen N))) wl
  · rw [if_pos hw, if_pos ((water_zero_iff src wl _ d hd.ne' (Nat.pos_of_ne_zero hn)).2 hw)]
  rw [if_neg hw, if_neg (fun h => hw ((water_zero_iff src wl _ d hd.ne' (Nat.pos_of_ne_zero hn)).1 h))]
  set n := nfft.getD (fastLen N)
  have e0 : 0 < d⁻¹ * c := by positivity
  have e1 : (rsp.map (·.map (c * ·))).map (rawRf (src.map (d * ·)) sr wl T gauss n N)
      = (rsp.map (rawRf src sr wl T gauss n N)).map (·.map (((d⁻¹ * c : ℝ) : ℂ) * ·)) := by
    rw [List.map_map, List.map_map]
    refine List.map_congr_left fun r _ => ?_
    simp only [Function.comp]
    rw [rawRf_src_smul _ _ _ _ _ _ _ _ _ hd.ne', rawRf_smul, List.map_map]
    refine List.map_congr_left fun v _ => ?_
    simp only [Function.comp]
    push_cast
    ring
  rw [e1, getItem_map]
  cases getItem (rsp.map (rawRf src sr wl T gauss n N)) i with
  | error e => rfl
  | ok x =>
    simp only [Except.map, bind, Except.bind]
    rw [maxC_smul _ _ e0]
    cases maxC x with
    | error e => rfl
    | ok m =>
      simp only [Except.map]
      have hne : ((d⁻¹ * c : ℝ) : ℂ) ≠ 0 := by exact_mod_cast e0.ne'
      by_cases h0 : m = 0
      · rw [if_pos h0, if_pos (by rw [h0, mul_zero])]
      · rw [if_neg h0, if_neg (mul_ne_zero hne h0)]
        congr 1
        unfold scaleAll
        rw [List.map_map]
        refine List.map_congr_left fun y _ => ?_
        simp only [Function.comp, List.map_map]
        refine List.map_congr_left fun v _ => ?_
        simp only [Function.comp]
        generalize ((d⁻¹ * c : ℝ) : ℂ) = q at hne
        field_simp

/-- **C19** (maximum 1), partial: the largest value of result `i` is 1, provided that the unnormalised result
is real and has a positive sample. -/
theorem C19_maximum_one_partial (length nfft : Option ℕ) (N : ℕ) (hN : outLen rsp length = some N) (i : ℕ)
    (rf raw : List (List ℂ))
    (h : deconvWaterlevel fastLen rsp src sr wl gauss T length (.idx i) nfft = .ok rf)
    (hraw : deconvWaterlevel fastLen rsp src sr wl gauss T length .none nfft = .ok raw)
    (y : List ℂ) (hy : raw[i]? = some y) (hreal : ∀ v ∈ y, v.im = 0) (hpos : ∃ v ∈ y, 0 < v.re) :
    ∃ x, rf[i]? = some x ∧ 1 ∈ x ∧ ∀ v ∈ x, v.im = 0 ∧ v.re ≤ 1 := by
  obtain ⟨hn, hsr, hw, x, m, hx, hm, h0, rfl⟩ := water_idx _ _ _ _ _ _ _ _ _ _ hN _ _ h
  obtain ⟨-, -, -, rfl⟩ := water_raw _ _ _ _ _ _ _ _ _ N hN _ hraw
  obtain ⟨hlt, hge⟩ := List.getElem?_eq_some_iff.1 hy
  have hx' : x = y := by
    have := getItem_lt _ i hlt
    rw [hx] at this
    injection this with this
    rw [this, hge]
  subst hx'
  obtain ⟨m1, m2⟩ := maxC_spec _ _ hm
  have him := hreal m m1
  obtain ⟨v, hv, hv0⟩ := hpos
  have hm0 : 0 < m.re := hv0.trans_le (m2 v hv).re
  have hmr : m = (m.re : ℂ) := Complex.ext rfl (by simpa using him)
  refine ⟨x.map (· * (1 / m)), ?_, ?_, ?_⟩
  · unfold scaleAll
    rw [List.getElem?_map, hy]; rfl
  · exact List.mem_map.2 ⟨m, m1, by field_simp⟩
  · intro u hu
    obtain ⟨w, hw, rfl⟩ := List.mem_map.1 hu
    have hwr : w = (w.re : ℂ) := Complex.ext rfl (by simpa using hreal w hw)
    rw [hmr, hwr, show (w.re : ℂ) * (1 / (m.re : ℂ)) = ((w.re / m.re : ℝ) : ℂ) by push_cast; ring]
    refine ⟨Complex.ofReal_im _, ?_⟩
    rw [Complex.ofReal_re]
    exact (div_le_one hm0).2 (m2 w hw).re

end linear

section cases

theorem dft_delta (n k : ℕ) (hn : 0 < n) : dft [1] n k = 1 := by
  unfold dft
  rw [sum_eq_single 0]
  · simp [chr_eq]
  · intro j _ hj
    obtain ⟨j, rfl⟩ := Nat.exists_eq_succ_of_ne_zero hj
    simp
  · intro h; exact absurd (mem_range.2 hn) h

theorem delta_water (wl : ℝ) (hwl : wl ≤ 1) (n k : ℕ) (hk : k < n) :
    (waterPower (fft (toC [1]) n) wl).getD k 0 = 1 := by
  obtain ⟨M, ⟨j, hj, hM⟩, h3, h4⟩ := water_get [1] wl n (by omega)
  rw [h4 k hk, hM, dft_delta n k (by omega), dft_delta n j (by omega)]
  simp [hwl]

theorem delta_ok (wl : ℝ) (hwl : wl ≤ 1) (n : ℕ) : 0 ∉ waterPower (fft (toC [1]) n) wl := by
  intro h
  obtain ⟨k, hk, h⟩ := List.getElem_of_mem h
  have := delta_water wl hwl n k (by simpa using hk)
  rw [List.getD_eq_getElem _ _ hk, h] at this
  exact zero_ne_one this

/-- Deconvolution of a unit spike without shift and filter returns the response. -/
theorem delta_raw (wl : ℝ) (hwl : wl ≤ 1) (n N : ℕ) (r : List ℝ) (m : ℕ) (hN : m < N) (hn : m < n) :
    (rawRf [1] 1 wl 0 none n N r).getD m 0 = ((r.getD m 0 : ℝ) : ℂ) := by
  rw [rawRf_get _ _ _ _ _ _ _ _ _ hN hn, ← toC_getD, ← ifft_fft_get (toC r) n m hn, ifft_get _ _ _ hn]
  congr 1
  refine sum_congr rfl fun k hk => ?_
  have hk := mem_range.1 hk
  rw [delta_water wl hwl n k hk, dft_delta n k (by omega), fft_toC_get _ _ _ hk]
  simp [filterAt]

/-- **C19**: the documented "maximum of the trace with supplied index is 1" fails for a result without a
positive sample: source `[1]`, response `[-1, -2]`, no shift, no filter give `[1, 2]`. -/
theorem C19_counterexample :
    deconvWaterlevel id [[-1, -2]] [1] 1 (1 / 20) none 0 none (.idx 0) none = .ok [[1, 2]] := by
  rw [water_eq _ _ _ _ _ _ _ _ _ _ 2 rfl]
  have e : rawRf [1] 1 (1 / 20) 0 none 2 2 [-1, -2] = [-1, -2] := by
    refine listC_ext _ _ (by simp [rawRf_length]) fun m hm => ?_
    rw [rawRf_length, lt_min_iff] at hm
    rw [delta_raw _ (by norm_num) _ _ _ _ hm.1 hm.2]
    obtain ⟨h, -⟩ := hm
    interval_cases m <;> simp
  have hm : maxC [-1, -2] = .ok (-1) := by
    simp [maxC]
  simp only [Option.getD_none, id]
  rw [if_neg (by norm_num), if_neg (by norm_num), if_neg (delta_ok _ (by norm_num) 2)]
  simp only [List.map_cons, List.map_nil, e]
  rw [show getItem [[(-1 : ℂ), -2]] 0 = .ok [-1, -2] from rfl]
  simp only [bind, Except.bind, hm]
  rw [if_neg (by norm_num)]
  simp [scaleAll]

/-- Non-vacuity of C15-C17 and C19: a source with a non-zero sample in the transform window. -/
example : outLen [[1, 2, -1 / 2]] none = some 3 ∧ ∃ j < (none : Option ℕ).getD (id 3), ([1, 2, -1 / 2] : List ℝ).getD j 0 ≠ 0 :=
  ⟨rfl, 1, by decide, by norm_num⟩

/-- The calls of C15-C17 succeed for it, with a Gauss filter and a shift by two samples. -/
example : ∃ rf, deconvWaterlevel id [[1, 2, -1 / 2], [0, 3, 1]] [1, 2, -1 / 2] 10 (1 / 20) (some (1 / 2)) ((2 : ℕ) / 10)
    none .none none = .ok rf ∧ rf.length = 2 :=
  C15_succeeds id [[1, 2, -1 / 2], [0, 3, 1]] [1, 2, -1 / 2] 10 (1 / 20) _ _ none none 3 rfl (by decide) (by norm_num)
    (by norm_num) ⟨1, by decide, by norm_num⟩

/-- ... and normalised (C17_normalised, C19_maximum_one_partial): a unit spike. -/
example : deconvWaterlevel id [[1, -2, 4]] [1] 1 (1 / 20) none 0 none (.idx 0) none = .ok [[1 / 4, -1 / 2, 1]] := by
  rw [water_eq _ _ _ _ _ _ _ _ _ _ 3 rfl]
  have e : rawRf [1] 1 (1 / 20) 0 none 3 3 [1, -2, 4] = [1, -2, 4] := by
    refine listC_ext _ _ (by simp [rawRf_length]) fun m hm => ?_
    rw [rawRf_length, lt_min_iff] at hm
    rw [delta_raw _ (by norm_num) _ _ _ _ hm.1 hm.2]
    obtain ⟨h, -⟩ := hm
    interval_cases m <;> simp
  have hm : maxC [1, -2, 4] = .ok 4 := by
    simp [maxC]
    norm_num
  simp only [Option.getD_none, id]
  rw [if_neg (by norm_num), if_neg (by norm_num), if_neg (delta_ok _ (by norm_num) 3)]
  simp only [List.map_cons, List.map_nil, e]
  rw [show getItem [[(1 : ℂ), -2, 4]] 0 = .ok [1, -2, 4] from rfl]
  simp only [bind, Except.bind, hm]
  rw [if_neg (by norm_num)]
  simp [scaleAll]
  norm_num

end cases
end Verif.Props
