import Verif.Props.WaterDelay
import Verif.Props.DeconvTime
import Verif.Props.Iter

/-!
# C211: zeros at the ends of the source window
-/

set_option linter.unusedSimpArgs false
set_option linter.unusedSectionVars false

namespace Verif.Spec

/-- The array with `l` zeros before and `r` zeros after it. -/
def zeroPadded {K : Type} [Zero K] (l r : ℕ) (x : List K) : List K := List.replicate l 0 ++ x ++ List.replicate r 0

end Verif.Spec

namespace Verif.Props
open Verif.Py Verif.Model Verif.Spec Finset Complex

section time
variable {K : Type} [Field K] [LinearOrder K]

theorem sig_zeroPadded (l r : ℕ) (x : List K) (i : ℤ) : sig (zeroPadded l r x) i = sig x (i - l) := by
  unfold zeroPadded
  rw [sig_append_right, sig_append_left]

theorem zeroPadded_length (l r : ℕ) (x : List K) : (zeroPadded l r x).length = l + x.length + r := by
  unfold zeroPadded
  simp only [List.length_append, List.length_replicate]

theorem corrAt_zeroPadded (a x : List K) (l r : ℕ) (d : ℤ) : corrAt a (zeroPadded l r x) d = corrAt a x (d + l) := by
  unfold corrAt
  rw [zeroPadded_length, sum_window (fun m => sig a (d + (m : ℕ)) * sig (zeroPadded l r x) (m : ℕ)) l x.length _ (by omega)]
  · refine sum_congr rfl fun m _ => ?_
    rw [sig_zeroPadded]
    push_cast
    congr 2 <;> ring
  · intro n hn
    rw [sig_zeroPadded, sig_neg x _ (by omega), mul_zero]
  · intro n hn
    rw [sig_zeroPadded, sig_ge x _ (by omega), mul_zero]

theorem corrAt_left (a x : List K) (l r : ℕ) (d : ℤ) : corrAt (zeroPadded l r a) x d = corrAt a x (d - l) := by
  unfold corrAt
  refine sum_congr rfl fun m _ => ?_
  rw [sig_zeroPadded]
  congr 2
  ring

theorem acorrt_zeroPadded (x : List K) (l r N : ℕ) : acorrt (zeroPadded l r x) N = acorrt x N := by
  by_cases hN : N = 0
  · subst hN; rfl
  have key : ∀ y : List K, ∃ z, acorrt y N = .ok z ∧ z.length = N ∧ ∀ k < N, z.getD k 0 = corrAt y y k := by
    intro y
    obtain ⟨z, hz, hl, hv⟩ := C09_values y N (by omega)
    refine ⟨z, hz, hl, fun k hk => ?_⟩
    rw [hv k hk]
    unfold corrAt
    refine sum_congr rfl fun m _ => ?_
    rw [show ((k : ℤ) + (m : ℤ)) = ((k + m : Nat) : ℤ) by push_cast; ring, sig_nat, sig_nat]
  obtain ⟨z1, h1, l1, v1⟩ := key x
  obtain ⟨z2, h2, l2, v2⟩ := key (zeroPadded l r x)
  rw [h1, h2]
  congr 1
  refine List.ext_getElem (by omega) fun k hk1 hk2 => ?_
  rw [← List.getD_eq_getElem _ 0, ← List.getD_eq_getElem _ 0, v1 k (by omega), v2 k (by omega), corrAt_zeroPadded, corrAt_left]
  congr 1
  ring

/-- **C211** (time domain; partial: both windows contain the onset in their inside, or have an odd number of samples, cf.
`C11_counterexample`).  Zeros before and after the source change nothing, with any solver. -/
theorem C211_time_partial [FloorRing K] [IsStrictOrderedRing K] (solve : List K → List K → Res (List K)) (rsp : List (List K))
    (N : ℕ) (hN : 1 ≤ N) (hrsp : ∀ r ∈ rsp, r.length = N) (src : List K) (l r : ℕ) (tshift sr : K) (hsr : sr ≠ 0) (s : ℤ)
    (hs : tshift * sr = s)
    (hw : src.length % 2 = 1 ∨ (0 < s ∧ s < src.length))
    (hw' : (l + src.length + r) % 2 = 1 ∨ (0 < s + l ∧ s < src.length + r)) (lam : K) (norm : Option ℤ) :
    deconvTime solve rsp (zeroPadded l r src)
        (pyRound ((tshift + l / sr) * sr - (((zeroPadded l r src).length / 2 : ℕ) : K))) lam none norm =
      deconvTime solve rsp src (pyRound (tshift * sr - ((src.length / 2 : ℕ) : K))) lam none norm := by
  have e1 : tshift * sr - ((src.length / 2 : ℕ) : K) = ((s - (src.length / 2 : ℕ) : ℤ) : K) := by
    rw [hs, Int.cast_sub, Int.cast_natCast]
  have e2 : (tshift + l / sr) * sr - (((zeroPadded l r src).length / 2 : ℕ) : K)
      = (((s + l : ℤ) - ((zeroPadded l r src).length / 2 : ℕ) : ℤ) : K) := by
    rw [add_mul, hs, div_mul_cancel₀ _ hsr, Int.cast_sub, Int.cast_add, Int.cast_natCast, Int.cast_natCast]
  rw [e1, e2, pyRound_int, pyRound_int]
  have hlen := zeroPadded_length l r src
  have hx : ∀ a ∈ rsp, xcorrt a (zeroPadded l r src) N ((s + l : ℤ) - ((zeroPadded l r src).length / 2 : ℕ))
      = xcorrt a src N (s - (src.length / 2 : ℕ)) := by
    intro a ha
    have haN := hrsp a ha
    rw [xcorrt_eq _ _ _ _ hN, xcorrt_eq _ _ _ _ hN, haN, xcorrOffset_value, xcorrOffset_value, if_neg (by omega), if_neg (by omega)]
    refine List.map_congr_left fun k _ => ?_
    rw [corrAt_zeroPadded]
    congr 1
    ring
  have hloop : ∀ (sts : List K), ∀ rs : List (List K), (∀ a ∈ rs, a ∈ rsp) →
      timeLoop solve sts (zeroPadded l r src) N ((s + l : ℤ) - ((zeroPadded l r src).length / 2 : ℕ)) rs
      = timeLoop solve sts src N (s - (src.length / 2 : ℕ)) rs := by
    intro sts rs
    induction rs with
    | nil => intro _; rfl
    | cons a rs ih =>
      intro h
      unfold timeLoop
      simp only [hx a (h a (by simp)), ih fun b hb => h b (by simp [hb])]
  have hsts : ∀ n, stsVec (zeroPadded l r src) n lam = stsVec src n lam := by
    intro n
    unfold stsVec
    rw [acorrt_zeroPadded]
  unfold deconvTime
  cases rsp with
  | nil => rfl
  | cons a rs =>
    have := hrsp a (by simp)
    simp only [bind, Except.bind, this, hsts, hloop _ (a :: rs) (fun _ h => h)]

end time

section water
variable (fastLen : ℕ → ℕ) (src : List ℝ) (sr wl T : ℝ) (gauss : Option ℝ)

theorem getD_zeroPadded (l r : ℕ) (x : List ℝ) (j : ℕ) :
    (zeroPadded l r x).getD j 0 = if j < l then 0 else x.getD (j - l) 0 := by
  rw [← sig_nat, sig_zeroPadded]
  split
  · rw [sig_neg _ _ (by omega)]
  · rw [show (j : ℤ) - l = ((j - l : ℕ) : ℤ) by omega, sig_nat]

theorem delayed_zeroPadded (n l r : ℕ) (x : List ℝ) (h : l + x.length ≤ n) : DelayedBy n l x (zeroPadded l r x) := by
  refine ⟨by omega, fun j hj => ?_, fun j hj => ?_, fun j hj hj' => ?_⟩
  · rw [getD_zeroPadded, if_pos hj]
  · rw [getD_zeroPadded, if_neg (by omega), Nat.add_sub_cancel_left]
  · exact List.getD_eq_default _ _ (by omega)

theorem rawRf_source (n N k : ℕ) (hsr : sr ≠ 0) (src' r : List ℝ) (hs : DelayedBy n k src src') :
    rawRf src' sr wl (T + k / sr) gauss n N r = rawRf src sr wl T gauss n N r := by
  refine List.ext_getElem (by simp [rawRf_length]) fun m h1 h2 => ?_
  rw [← List.getD_eq_getElem _ 0, ← List.getD_eq_getElem _ 0]
  refine rawRf_shift src sr wl T gauss n N src' r r _ 0 (fun q _ => by rw [waterPower_delayed src wl n k src' hs])
    (fun q hq => ?_) m h1 (Nat.zero_le _)
  have hf := filter_add sr T gauss n hsr k q hq
  rw [show ((k : ℤ) : ℝ) = (k : ℝ) by push_cast; rfl] at hf
  rw [hf, dft_delayed _ _ _ _ hs, map_mul, W_conj]
  have : W n (-(q * k)) * W n (-(-(q * k))) = W n (-(q * ((0 : ℕ) : ℤ))) := by
    rw [← W_add]
    congr 1
    push_cast
    ring
  rw [← this]
  push_cast
  ring

/-- The result for the source itself, used by `normalize='src'`. -/
theorem rawRf_self (n N k : ℕ) (src' : List ℝ) (hs : DelayedBy n k src src') :
    rawRf src' sr wl T gauss n N src' = rawRf src sr wl T gauss n N src :=
  rawRf_common src sr wl T gauss n N k src' src src' hs hs

/-- **C211** (water level; partial: the source with the leading zeros fits into the transform, and the results are not normalised by the
deconvolution of the source from itself).  Zeros before and after the source change nothing. -/
theorem C211_water_partial (rsp : List (List ℝ)) (length nfft : Option ℕ) (N : ℕ) (hN : outLen rsp length = some N) (l r : ℕ)
    (hfit : l + src.length ≤ nfft.getD (fastLen N)) (norm : Norm) (hnorm : norm ≠ .src) :
    deconvWaterlevel fastLen rsp (zeroPadded l r src) sr wl gauss (T + l / sr) length norm nfft =
      deconvWaterlevel fastLen rsp src sr wl gauss T length norm nfft := by
  rw [water_eq _ _ _ _ _ _ _ _ _ _ N hN, water_eq _ _ _ _ _ _ _ _ _ _ N hN]
  simp only
  by_cases hn : nfft.getD (fastLen N) = 0
  · rw [if_pos hn, if_pos hn]
  rw [if_neg hn, if_neg hn]
  by_cases hsr : sr = 0
  · rw [if_pos hsr, if_pos hsr]
  rw [if_neg hsr, if_neg hsr]
  have hd := delayed_zeroPadded (nfft.getD (fastLen N)) l r src hfit
  rw [waterPower_delayed src wl _ l _ hd]
  have e : ∀ a, rawRf (zeroPadded l r src) sr wl (T + l / sr) gauss (nfft.getD (fastLen N)) N a
      = rawRf src sr wl T gauss (nfft.getD (fastLen N)) N a := fun a =>
    rawRf_source src sr wl T gauss _ N l hsr _ a hd
  cases norm with
  | none => simp only [funext e]
  | src => exact absurd rfl hnorm
  | idx i => simp only [funext e]

theorem lexLe_antisymm (a b : ℂ) (h : LexLe a b) (h' : LexLe b a) : a = b := by
  rcases h with h | ⟨h, h2⟩
  · rcases h' with h' | ⟨h', -⟩
    · exact absurd h' (lt_asymm h)
    · exact absurd h (by rw [h']; exact lt_irrefl _)
  · rcases h' with h' | ⟨-, h3⟩
    · exact absurd h' (by rw [h]; exact lt_irrefl _)
    · exact Complex.ext h (le_antisymm h2 h3)

/-- The largest value depends on the set of values only. -/
theorem maxC_congr (a b : List ℂ) (h : ∀ z, z ∈ a ↔ z ∈ b) : maxC a = maxC b := by
  have hex : ∀ l : List ℂ, l ≠ [] → ∃ m, maxC l = .ok m := by
    intro l hl
    cases l with
    | nil => exact absurd rfl hl
    | cons x xs => exact ⟨_, rfl⟩
  by_cases ha : a = []
  · have hb : b = [] := List.eq_nil_iff_forall_not_mem.2 fun z hz => by
      have := (h z).2 hz
      rw [ha] at this
      cases this
    rw [ha, hb]
  · have hb : b ≠ [] := by
      obtain ⟨z, hz⟩ := List.exists_mem_of_ne_nil a ha
      exact List.ne_nil_of_mem ((h z).1 hz)
    obtain ⟨m, hm⟩ := hex a ha
    obtain ⟨m', hm'⟩ := hex b hb
    obtain ⟨a1, a2⟩ := maxC_spec a m hm
    obtain ⟨b1, b2⟩ := maxC_spec b m' hm'
    rw [hm, hm', lexLe_antisymm m m' (b2 m ((h m).1 a1)) (a2 m' ((h m').2 b1))]

/-- The receiver function of a delayed response has the same samples in another order if all samples of the transform are returned. -/
theorem rawRf_cyclic (n k : ℕ) (hn : n ≠ 0) (x y : List ℝ) (h : DelayedBy n k x y) (z : ℂ) :
    z ∈ rawRf src sr wl T gauss n n y ↔ z ∈ rawRf src sr wl T gauss n n x := by
  have hkn := h.le
  have hl : ∀ r, (rawRf src sr wl T gauss n n r).length = n := fun r => by rw [rawRf_length, min_self]
  have up : ∀ m < n, k ≤ m → (rawRf src sr wl T gauss n n y).getD m 0 = (rawRf src sr wl T gauss n n x).getD (m - k) 0 := by
    intro m hm hkm
    refine rawRf_shift src sr wl T gauss n n src x y T k (fun _ _ => rfl) (fun q _ => ?_) m (by rw [hl]; exact hm) hkm
    rw [dft_delayed _ _ _ _ h]
    ring
  have down : ∀ m < n, n - k ≤ m → (rawRf src sr wl T gauss n n x).getD m 0 = (rawRf src sr wl T gauss n n y).getD (m - (n - k)) 0 := by
    intro m hm hkm
    refine rawRf_shift src sr wl T gauss n n src y x T (n - k) (fun _ _ => rfl) (fun q _ => ?_) m (by rw [hl]; exact hm) hkm
    rw [dft_delayed _ _ _ _ h]
    have e : W n (-(q * k)) * W n (-(q * ((n - k : ℕ) : ℤ))) = 1 := by
      rw [← W_add, W_mod_eq n hn _ 0 ⟨-q, by rw [Nat.cast_sub hkn]; ring⟩, W_zero]
    calc _ = filterAt n (1 / sr) T gauss q * dft x n q * (starRingEnd ℂ) (dft src n q) * 1 := by ring
      _ = _ := by rw [← e]; ring
  have hmem : ∀ (l : List ℂ), l.length = n → ∀ z, z ∈ l ↔ ∃ m < n, l.getD m 0 = z := by
    intro l hln z
    constructor
    · intro hz
      obtain ⟨m, hm, e⟩ := List.getElem_of_mem hz
      exact ⟨m, by omega, by rw [List.getD_eq_getElem _ _ hm, e]⟩
    · rintro ⟨m, hm, rfl⟩
      rw [List.getD_eq_getElem _ _ (by omega)]
      exact List.getElem_mem _
  rw [hmem _ (hl y), hmem _ (hl x)]
  constructor
  · rintro ⟨m, hm, rfl⟩
    rcases Nat.lt_or_ge m k with hmk | hmk
    · refine ⟨m + (n - k), by omega, ?_⟩
      rw [down (m + (n - k)) (by omega) (by omega), Nat.add_sub_cancel]
    · exact ⟨m - k, by omega, (up m hm hmk).symm⟩
  · rintro ⟨m, hm, rfl⟩
    rcases Nat.lt_or_ge m (n - k) with hmk | hmk
    · refine ⟨m + k, by omega, ?_⟩
      rw [up (m + k) (by omega) (by omega), Nat.add_sub_cancel]
    · exact ⟨m - (n - k), by omega, (down m hm hmk).symm⟩

/-- **C211** (water level, `normalize='src'`; partial: as many samples are returned as the transform has, and the source with the leading zeros
fits into it). -/
theorem C211_src_partial (rsp : List (List ℝ)) (length nfft : Option ℕ) (N : ℕ) (hN : outLen rsp length = some N) (l r : ℕ)
    (hfit : l + src.length ≤ nfft.getD (fastLen N)) (hall : nfft.getD (fastLen N) = N) :
    deconvWaterlevel fastLen rsp (zeroPadded l r src) sr wl gauss (T + l / sr) length .src nfft =
      deconvWaterlevel fastLen rsp src sr wl gauss T length .src nfft := by
  rw [water_eq _ _ _ _ _ _ _ _ _ _ N hN, water_eq _ _ _ _ _ _ _ _ _ _ N hN]
  simp only
  rw [hall] at hfit ⊢
  by_cases hn : N = 0
  · rw [if_pos hn, if_pos hn]
  rw [if_neg hn, if_neg hn]
  by_cases hsr : sr = 0
  · rw [if_pos hsr, if_pos hsr]
  rw [if_neg hsr, if_neg hsr]
  have hd := delayed_zeroPadded N l r src hfit
  rw [waterPower_delayed src wl N l _ hd]
  have e : ∀ a, rawRf (zeroPadded l r src) sr wl (T + l / sr) gauss N N a = rawRf src sr wl T gauss N N a :=
    fun a => rawRf_source src sr wl T gauss N N l hsr _ a hd
  have em : maxC (rawRf src sr wl T gauss N N (zeroPadded l r src)) = maxC (rawRf src sr wl T gauss N N src) :=
    maxC_congr _ _ fun z => rawRf_cyclic src sr wl T gauss N l hn src _ hd z
  have ef : rawRf (zeroPadded l r src) sr wl (T + l / sr) gauss N N = rawRf src sr wl T gauss N N := funext e
  rw [ef, em]

/-- **C211** (water level, zeros after the source).  Zeros after the source change nothing, whatever the number of samples of
the transform and the normalisation. -/
theorem C211_water_after (rsp : List (List ℝ)) (length nfft : Option ℕ) (r : ℕ) (norm : Norm) :
    deconvWaterlevel fastLen rsp (zeroPadded 0 r src) sr wl gauss T length norm nfft =
      deconvWaterlevel fastLen rsp src sr wl gauss T length norm nfft := by
  have e : ∀ n, fft (toC (zeroPadded 0 r src)) n = fft (toC src) n := by
    intro n
    unfold fft
    refine List.map_congr_left fun k _ => sum_congr rfl fun j _ => ?_
    rw [toC_getD, toC_getD, getD_zeroPadded, if_neg (by omega), Nat.sub_zero]
  unfold deconvWaterlevel
  simp only [e]

/-- **C211** (iterative, zeros after the source). -/
theorem C211_iterative (rsp : List (List ℝ)) (g : ℝ) (itmax : ℕ) (minderr : ℝ) (mute : Bool) (r : ℕ) (norm : Option ℤ) :
    deconvIterative fastLen rsp (zeroPadded 0 r src) sr T g itmax minderr mute norm =
      deconvIterative fastLen rsp src sr T g itmax minderr mute norm := by
  have e : ∀ n, fft (toC (zeroPadded 0 r src)) n = fft (toC src) n := by
    intro n
    unfold fft
    refine List.map_congr_left fun k _ => sum_congr rfl fun j _ => ?_
    rw [toC_getD, toC_getD, getD_zeroPadded, if_neg (by omega), Nat.sub_zero]
  unfold deconvIterative iterComp iterEnv
  simp only [e]

end water

/-- **C211, negation.**  Zeros before the source do matter if the source is cut off by that: a source of one sample in a transform of
one sample; with a zero before it nothing is left, and the division by zero gives NaN. -/
theorem C211_counterexample : ∃ (src : List ℝ) (rsp : List (List ℝ)) (rf : List (List ℂ)),
    deconvWaterlevel id rsp src 1 (1 / 20) none 0 none .none none = .ok rf ∧
    deconvWaterlevel id rsp (zeroPadded 1 0 src) 1 (1 / 20) none (0 + 1 / 1) none .none none = .error .other := by
  obtain ⟨rf, h, -⟩ := C15_succeeds id [[1]] [1] 1 (1 / 20) 0 none none none 1 rfl (by decide)
    one_ne_zero (by norm_num) ⟨0, by decide, by simp⟩
  refine ⟨[1], [[1]], rf, h, ?_⟩
  rw [water_eq _ _ _ _ _ _ _ _ _ _ 1 rfl]
  simp only
  rw [if_neg (by decide), if_neg one_ne_zero, if_pos]
  simp [zeroPadded, waterPower, fft, toC, maxR]

theorem W_two (j : ℤ) (h : j % 2 = 1) : W 2 j = -1 := by
  have e : j = 2 * (j / 2) + 1 := by omega
  have h1 : W 2 (2 * (j / 2)) = 1 := by
    unfold W
    have : 2 * (Real.pi : ℂ) * Complex.I * ((2 * (j / 2) : ℤ) : ℂ) / ((2 : ℕ) : ℂ) = ((j / 2 : ℤ) : ℂ) * (2 * Real.pi * Complex.I) := by
      push_cast
      ring
    rw [this]
    exact Complex.exp_int_mul_two_pi_mul_I _
  have h2 : W 2 1 = -1 := by
    unfold W
    have : 2 * (Real.pi : ℂ) * Complex.I * ((1 : ℤ) : ℂ) / ((2 : ℕ) : ℂ) = Real.pi * Complex.I := by
      push_cast
      ring
    rw [this, Complex.exp_pi_mul_I]
  rw [e, W_add, h1, h2, one_mul]

theorem spike_water : waterPower (fft (toC [1]) 2) (1 / 20) = [1, 1] := by
  have h : fft (toC [1]) 2 = [1, 1] := by simp [fft, toC, Finset.sum_range_succ, List.range_succ]
  rw [h]
  simp [waterPower, maxR]
  norm_num

/-- The response of a spike to the source of one sample: the first sample of the response. -/
theorem spike_raw (a b : ℝ) : rawRf [1] 1 (1 / 20) 0 none 2 1 [a, b] = [(a : ℂ)] := by
  have h : fft (toC [1]) 2 = [1, 1] := by simp [fft, toC, Finset.sum_range_succ, List.range_succ]
  have h2 : fft (toC [a, b]) 2 = [(a : ℂ) + b, a - b] := by
    simp [fft, toC, Finset.sum_range_succ, List.range_succ, W_two (-1) (by decide)]
    ring
  unfold rawRf
  rw [h2, spike_water, h]
  simp [waterSpec, waterFilter, phaseShiftFilter, fftfreq, mulL, ifft, List.range_succ, Finset.sum_range_succ]

/-- **C211, negation** (`normalize='src'`).  A source of one sample, a transform of two samples and one sample returned: with a zero before the
source its own receiver function is at the second sample, which is cut off, so that the norm is a division by zero. -/
theorem C211_counterexample_src :
    deconvWaterlevel id [[1, 0]] [1] 1 (1 / 20) none 0 (some 1) .src (some 2) = .ok [[1]] ∧
    deconvWaterlevel id [[1, 0]] (zeroPadded 1 0 [1]) 1 (1 / 20) none (0 + 1 / 1) (some 1) .src (some 2) = .error .other := by
  have hd : DelayedBy 2 1 [1] (zeroPadded 1 0 [(1 : ℝ)]) := delayed_zeroPadded 2 1 0 [1] (by decide)
  have hraw : ∀ r, rawRf (zeroPadded 1 0 [(1 : ℝ)]) 1 (1 / 20) (0 + 1 / 1) none 2 1 r = rawRf [1] 1 (1 / 20) 0 none 2 1 r := by
    intro r
    have := rawRf_source [1] 1 (1 / 20) 0 none 2 1 1 one_ne_zero (zeroPadded 1 0 [1]) r hd
    simpa using this
  constructor
  · rw [water_eq _ _ _ _ _ _ _ _ _ _ 1 rfl]
    simp only [Option.getD_some]
    rw [if_neg (by decide), if_neg one_ne_zero, spike_water, if_neg (by simp)]
    have e : rawRf [1] 1 (1 / 20) 0 none 2 1 [1] = [(1 : ℂ)] := by
      have : fft (toC [1]) 2 = fft (toC [1, 0]) 2 := by simp [fft, toC, Finset.sum_range_succ, List.range_succ]
      have h2 := spike_raw 1 0
      unfold rawRf at h2 ⊢
      rw [← this] at h2
      simpa using h2
    rw [e]
    simp only [List.map_cons, List.map_nil, spike_raw]
    simp [maxC, bind, Except.bind, scaleAll]
  · rw [water_eq _ _ _ _ _ _ _ _ _ _ 1 rfl]
    simp only [Option.getD_some]
    rw [if_neg (by decide), if_neg one_ne_zero, waterPower_delayed [1] (1 / 20) 2 1 _ hd, spike_water, if_neg (by simp)]
    rw [hraw]
    have e : zeroPadded 1 0 [(1 : ℝ)] = [0, 1] := by simp [zeroPadded]
    rw [e, spike_raw]
    simp [maxC, bind, Except.bind]

/-- **C211, negation** (time domain).  A source window of one sample at the onset; with one zero after it the result is one sample
early.  The matrix is twice the identity for both windows. -/
theorem C211_counterexample_time : ∃ (solve : List ℚ → List ℚ → Res (List ℚ)),
    solve = (fun _ b => .ok (b.map (· / 2))) ∧
    stsVec ([1] : List ℚ) 3 1 = .ok [2, 0, 0] ∧ stsVec (zeroPadded 0 1 [1] : List ℚ) 3 1 = .ok [2, 0, 0] ∧
    deconvTime solve [[0, 4, 0]] [1] (pyRound ((0 : ℚ) * 1 - ((([1] : List ℚ).length / 2 : ℕ) : ℚ))) 1 none none
      = .ok [[0, 2, 0]] ∧
    deconvTime solve [[0, 4, 0]] (zeroPadded 0 1 [1])
      (pyRound ((0 + (0 : ℕ) / 1 : ℚ) * 1 - (((zeroPadded 0 1 ([1] : List ℚ)).length / 2 : ℕ) : ℚ))) 1 none none
      = .ok [[2, 0, 0]] := by
  refine ⟨_, rfl, ?_⟩
  decide +kernel

/-- Two zeros before and one after a source of two samples with the onset at the second one. -/
example : zeroPadded 2 1 [(3 : ℚ), 1] = [0, 0, 3, 1, 0] ∧
    (0 < (1 : ℤ) ∧ (1 : ℤ) < ([3, 1] : List ℚ).length) ∧
    xcorrt [0, 3, 1, (0 : ℚ)] [3, 1] 4 (1 - 1) = xcorrt [0, 3, 1, 0] [0, 0, 3, 1, 0] 4 (1 + 2 - 2) := by decide +kernel

end Verif.Props
