import Verif.Props.Superposition

/-!
# Energy of the result of the time domain deconvolution: C202
-/

set_option linter.unusedSimpArgs false
set_option linter.unusedSectionVars false

namespace Verif.Spec

/-- Energy of an array. -/
def energyOf {K : Type} [Field K] (x : List K) : K := (x.map (· ^ 2)).sum

end Verif.Spec

namespace Verif.Props
open Verif.Py Verif.Model Verif.Spec Finset

section timeEnergy
variable {K : Type} [Field K] [LinearOrder K] [IsStrictOrderedRing K]

theorem energyOf_eq (x : List K) : energyOf x = energy x := by
  unfold energyOf energy
  induction x with
  | nil => rfl
  | cons a x ih =>
    rw [List.map_cons, List.sum_cons, List.length_cons, sum_range_succ', ih, add_comm]
    simp

/-- A window of a signal has at most the energy of the signal. -/
theorem window_energy (r : List K) (M : ℕ) (o : ℤ) : ∑ n ∈ range M, sig r ((n : ℤ) + o) ^ 2 ≤ energy r := by
  have h1 : ∀ n ∈ range M, sig r ((n : ℤ) + o) ^ 2
      = ∑ k ∈ range r.length, if (n : ℤ) + o = k then r.getD k 0 ^ 2 else 0 := by
    intro n _
    by_cases h : 0 ≤ (n : ℤ) + o ∧ (n : ℤ) + o < r.length
    · obtain ⟨k, hk⟩ := Int.eq_ofNat_of_zero_le h.1
      rw [hk, sig_nat, sum_eq_single k]
      · simp
      · intro j _ hj
        rw [if_neg (by omega)]
      · intro hn
        exact absurd (mem_range.2 (by omega)) hn
    · have h0 : sig r ((n : ℤ) + o) = 0 := by
        rcases lt_or_ge ((n : ℤ) + o) 0 with h' | h'
        · exact sig_neg r _ h'
        · exact sig_ge r _ (by omega)
      rw [h0, sum_eq_zero]
      · simp
      · intro k hk
        have := mem_range.1 hk
        rw [if_neg (by omega)]
  rw [sum_congr rfl h1, sum_comm]
  unfold energy
  refine sum_le_sum fun k _ => ?_
  by_cases h : ∃ n ∈ range M, (n : ℤ) + o = k
  · obtain ⟨n, hn, h⟩ := h
    rw [sum_eq_single n]
    · rw [if_pos h]
    · intro j _ hj
      rw [if_neg (by omega)]
    · intro h'; exact absurd hn h'
  · push Not at h
    rw [sum_eq_zero fun n hn => by rw [if_neg (h n hn)]]
    exact sq_nonneg _

/-- A solution of the system of the time domain deconvolution. -/
theorem sol_energy (src : List K) (hE : ∃ v ∈ src, v ≠ 0) (lam : K) (N : ℕ) (hN : 1 ≤ N) (shift : ℤ)
    (sts : List K) (hsts : stsVec src N lam = .ok sts) (r x : List K)
    (hx : IsToeplitzSol sts (xcorrt r src N shift) x) :
    4 * lam * energy x ≤ energy src * energy r := by
  have hE0 := energy_pos src hE
  obtain ⟨sts', a1, a2, a3⟩ := stsVec_values src N hN lam hE0.ne'
  rw [hsts] at a1
  injection a1 with a1
  subst a1
  rw [isSol_iff src N lam sts a2 a3] at hx
  set o := xcorrOffset r.length src.length N shift with ho
  set v : ℕ → K := fun i => x.getD i 0 with hv
  set c : ℕ → K := fun n => ∑ i ∈ range N, v i * sig src ((n : ℤ) - i) with hc
  -- the right hand side
  have hrhs : ∑ i ∈ range N, v i * (xcorrt r src N shift).getD i 0
      = ∑ n ∈ range (N + src.length), sig r ((n : ℤ) + o) * c n := by
    rw [sum_congr rfl fun (n : ℕ) _ => show sig r ((n : ℤ) + o) * c n
      = ∑ i ∈ range N, v i * (sig r ((n : ℤ) + o) * sig src ((n : ℤ) - i)) by
        rw [hc]; simp only [mul_sum]; exact sum_congr rfl fun i _ => by ring]
    rw [sum_comm]
    refine sum_congr rfl fun i hi => ?_
    have hi := mem_range.1 hi
    rw [← mul_sum]
    congr 1
    rw [xcorrt_eq _ _ _ _ hN, List.getD_eq_getElem _ _ (by simpa using hi)]
    simp only [List.getElem_map, List.getElem_range]
    rw [sum_window _ i src.length _ (by omega)]
    · unfold corrAt
      refine sum_congr rfl fun m _ => ?_
      push_cast
      congr 2 <;> ring
    · intro n hn
      rw [sig_neg src ((n : ℤ) - i) (by omega), mul_zero]
    · intro n hn
      rw [sig_ge src ((n : ℤ) - i) (by omega), mul_zero]
  -- the left hand side
  have hlhs : ∑ i ∈ range N, v i * ∑ j ∈ range N,
        (corrAt src src ((i : ℤ) - j) / energy src + if i = j then lam else 0) * v j
      = (∑ n ∈ range (N + src.length), c n ^ 2) / energy src + lam * ∑ i ∈ range N, v i ^ 2 := by
    rw [← quad_form src N v, Finset.sum_div, mul_sum, ← sum_add_distrib]
    refine sum_congr rfl fun i hi => ?_
    rw [Finset.sum_div]
    have e2 : ∑ j ∈ range N, (corrAt src src ((i : ℤ) - j) / energy src + if i = j then lam else 0) * v j
        = ∑ j ∈ range N, corrAt src src ((i : ℤ) - j) / energy src * v j + lam * v i := by
      rw [← sum_ite_eq_of_mem (range N) i (fun j => lam * v j) hi, ← sum_add_distrib]
      refine sum_congr rfl fun j _ => ?_
      split
      · ring
      · ring
    rw [e2, mul_add, mul_sum]
    congr 1
    · exact sum_congr rfl fun j _ => by ring
    · ring
  have heq : (∑ n ∈ range (N + src.length), c n ^ 2) / energy src + lam * ∑ i ∈ range N, v i ^ 2
      = ∑ n ∈ range (N + src.length), sig r ((n : ℤ) + o) * c n := by
    rw [← hlhs, ← hrhs]
    exact sum_congr rfl fun i hi => by rw [hx.2 i (mem_range.1 hi)]
  have hxe : ∑ i ∈ range N, v i ^ 2 = energy x := by unfold energy; rw [hx.1]
  rw [hxe] at heq
  have hw := window_energy r (N + src.length) o
  have hsq : 0 ≤ ∑ n ∈ range (N + src.length), (energy src * sig r ((n : ℤ) + o) - 2 * c n) ^ 2 :=
    sum_nonneg fun _ _ => sq_nonneg _
  have hexp : ∑ n ∈ range (N + src.length), (energy src * sig r ((n : ℤ) + o) - 2 * c n) ^ 2
      = energy src ^ 2 * ∑ n ∈ range (N + src.length), sig r ((n : ℤ) + o) ^ 2
        - 4 * energy src * ∑ n ∈ range (N + src.length), sig r ((n : ℤ) + o) * c n
        + 4 * ∑ n ∈ range (N + src.length), c n ^ 2 := by
    rw [mul_sum, mul_sum, mul_sum, ← sum_sub_distrib, ← sum_add_distrib]
    exact sum_congr rfl fun n _ => by ring
  rw [hexp, ← heq] at hsq
  have h1 : energy src * ((∑ n ∈ range (N + src.length), c n ^ 2) / energy src) = ∑ n ∈ range (N + src.length), c n ^ 2 := by
    field_simp
  have h2 : energy src * (4 * lam * energy x) ≤ energy src * (energy src * energy r) := by
    have := mul_le_mul_of_nonneg_left hw (sq_nonneg (energy src))
    nlinarith
  exact le_of_mul_le_mul_left h2 hE0

/-- **C202** (energy).  Without normalisation the energy of a result is at most the energy of the source times the energy
of the response, divided by four times the noise `spiking`. -/
theorem C202_energy (solve : List K → List K → Res (List K)) (hsolve : ExactSolver solve)
    (src : List K) (hE : ∃ v ∈ src, v ≠ 0) (lam : K) (hlam : 0 < lam) (N : ℕ) (hN : 1 ≤ N) (shift : ℤ)
    (rsp rf : List (List K)) (h : deconvTime solve rsp src shift lam (some N) none = .ok rf)
    (i : ℕ) (r : List K) (hr : rsp[i]? = some r) :
    ∃ x, rf[i]? = some x ∧ x.length = N ∧ 4 * lam * energyOf x ≤ energyOf src * energyOf r := by
  obtain ⟨sts, h1, h2, F, hF, hU, hloop⟩ := timeLoop_map solve hsolve src hE lam hlam N hN shift
  have : rf = rsp.map F := by
    unfold deconvTime at h
    simp only [bind, Except.bind, h1, hloop] at h
    injection h with h
    exact h.symm
  subst this
  refine ⟨F r, by rw [List.getElem?_map, hr]; rfl, by rw [(hF r).1, h2], ?_⟩
  rw [energyOf_eq, energyOf_eq, energyOf_eq]
  exact sol_energy src hE lam N hN shift sts h1 r _ (hF r)

/-- **C202** (noise).  Noise `d` in a response changes the result at most by the energy of the source times the energy of
the noise, divided by four times `spiking`. -/
theorem C202_noise (solve : List K → List K → Res (List K)) (hsolve : ExactSolver solve)
    (src : List K) (hE : ∃ v ∈ src, v ≠ 0) (lam : K) (hlam : 0 < lam) (N : ℕ) (hN : 1 ≤ N) (shift : ℤ)
    (rsp1 rsp2 rf1 rf2 : List (List K)) (h1 : deconvTime solve rsp1 src shift lam (some N) none = .ok rf1)
    (h2 : deconvTime solve rsp2 src shift lam (some N) none = .ok rf2)
    (i : ℕ) (r1 r2 d : List K) (hr1 : rsp1[i]? = some r1) (hr2 : rsp2[i]? = some r2) (hd : Superposed 1 (-1) d r1 r2) :
    ∃ x1 x2 e, rf1[i]? = some x1 ∧ rf2[i]? = some x2 ∧ Superposed 1 (-1) e x1 x2 ∧ e.length = N ∧
      4 * lam * energyOf e ≤ energyOf src * energyOf d := by
  obtain ⟨G, hG, -⟩ := C13_linear solve hsolve src hE lam hlam N hN shift
  have h0 := hG (List.replicate (i + 1) d)
  have hr : (List.replicate (i + 1) d)[i]? = some d := by simp
  obtain ⟨x, x1, x2, hx, hx1, hx2, hl, hs⟩ := C172_time_partial solve hsolve src hE lam hlam N hN shift none _ _ _ _ _ _ h0 h1 h2
    (by simp) i _ _ _ hr hr1 hr2 1 (-1) hd
  obtain ⟨y, hy, -, hen⟩ := C202_energy solve hsolve src hE lam hlam N hN shift _ _ h0 i d hr
  rw [hx] at hy
  cases hy
  exact ⟨x1, x2, x, hx1, hx2, hs, hl, hen⟩

/-- **C202** (samples).  Accordingly no sample of the result changes by more than the root of that bound. -/
theorem C202_sample (solve : List K → List K → Res (List K)) (hsolve : ExactSolver solve)
    (src : List K) (hE : ∃ v ∈ src, v ≠ 0) (lam : K) (hlam : 0 < lam) (N : ℕ) (hN : 1 ≤ N) (shift : ℤ)
    (rsp1 rsp2 rf1 rf2 : List (List K)) (h1 : deconvTime solve rsp1 src shift lam (some N) none = .ok rf1)
    (h2 : deconvTime solve rsp2 src shift lam (some N) none = .ok rf2)
    (i : ℕ) (r1 r2 d : List K) (hr1 : rsp1[i]? = some r1) (hr2 : rsp2[i]? = some r2) (hd : Superposed 1 (-1) d r1 r2) :
    ∃ x1 x2, rf1[i]? = some x1 ∧ rf2[i]? = some x2 ∧ x1.length = N ∧ ∀ m < N,
      4 * lam * (x1.getD m 0 - x2.getD m 0) ^ 2 ≤ energyOf src * energyOf d := by
  obtain ⟨x1, x2, e, hx1, hx2, hs, hl, hen⟩ := C202_noise solve hsolve src hE lam hlam N hN shift rsp1 rsp2 rf1 rf2 h1 h2 i r1 r2
    d hr1 hr2 hd
  refine ⟨x1, x2, hx1, hx2, hs.1.symm.trans hl, fun m hm => ?_⟩
  have h3 : x1.getD m 0 - x2.getD m 0 = e.getD m 0 := by
    rw [hs.2.2 m (by omega)]; ring
  rw [h3]
  refine le_trans (mul_le_mul_of_nonneg_left ?_ (by positivity)) hen
  rw [energyOf_eq]
  exact single_le_sum (f := fun m => e.getD m 0 ^ 2) (fun _ _ => sq_nonneg _) (mem_range.2 (by omega))

end timeEnergy

/-- The bound is attained: source `[1]`, response `[2]`, `spiking = 1`: the system is `(1 + 1) x = 2`. -/
example : ∃ sts, stsVec ([1] : List ℚ) 1 1 = .ok sts ∧ IsToeplitzSol sts (xcorrt ([2] : List ℚ) [1] 1 0) [1] ∧
    4 * (1 : ℚ) * energyOf [1] = energyOf [1] * energyOf ([2] : List ℚ) := by
  refine ⟨[2], by decide +kernel, ?_, by decide +kernel⟩
  have : xcorrt ([2] : List ℚ) [1] 1 0 = [2] := by decide +kernel
  rw [this]
  refine ⟨rfl, fun i hi => ?_⟩
  have : i = 0 := by simpa using hi
  subst this
  simp

/-- Responses with a difference. -/
example : Superposed (1 : ℚ) (-1) [0, 1 / 10, 0] [1, 2 + 1 / 10, -1] [1, 2, -1] := by
  refine ⟨rfl, rfl, fun m hm => ?_⟩
  simp only [List.length_cons, List.length_nil] at hm
  interval_cases m <;> norm_num

end Verif.Props
