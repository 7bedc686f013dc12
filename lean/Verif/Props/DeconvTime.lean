import Verif.Props.Toeplitz

/-!
# `deconv_time` with an exact solver: C13, C14
-/

set_option linter.unusedSimpArgs false
set_option linter.unusedSectionVars false

namespace Verif.Props
open Verif.Py Verif.Model Verif.Spec Finset

section sys
variable {K : Type} [Field K] [LinearOrder K] [IsStrictOrderedRing K]

theorem energy_ne_zero (src : List K) (hE : ∃ v ∈ src, v ≠ 0) : energy src ≠ 0 := by
  obtain ⟨v, hv, hne⟩ := hE
  obtain ⟨i, hi, rfl⟩ := List.getElem_of_mem hv
  have : 0 < src.getD i 0 ^ 2 := by
    rw [List.getD_eq_getElem _ _ hi]; positivity
  have h2 : src.getD i 0 ^ 2 ≤ energy src :=
    single_le_sum (f := fun m => src.getD m 0 ^ 2) (fun _ _ => sq_nonneg _) (mem_range.2 hi)
  exact (lt_of_lt_of_le this h2).ne'

theorem energy_pos (src : List K) (hE : ∃ v ∈ src, v ≠ 0) : 0 < energy src :=
  lt_of_le_of_ne (sum_nonneg fun _ _ => sq_nonneg _) (energy_ne_zero src hE).symm

/-- With an exact solver the deconvolution of one response is a function of that response alone. -/
theorem timeLoop_map (solve : List K → List K → Res (List K)) (hsolve : ExactSolver solve)
    (src : List K) (hE : ∃ v ∈ src, v ≠ 0) (lam : K) (hlam : 0 < lam) (N : Nat) (hN : 1 ≤ N)
    (shift : Int) : ∃ sts, stsVec src N lam = .ok sts ∧ sts.length = N ∧ ∃ F : List K → List K,
      (∀ r, IsToeplitzSol sts (xcorrt r src N shift) (F r)) ∧
      (∀ r x, IsToeplitzSol sts (xcorrt r src N shift) x → x = F r) ∧
      ∀ rsp, timeLoop solve sts src N shift rsp = .ok (rsp.map F) := by
  obtain ⟨sts, h1, h2, h3⟩ := C12_unique_solution src hE lam hlam N hN
  refine ⟨sts, h1, h2, fun r => Classical.choose (h3 (xcorrt r src N shift)), ?_, ?_, ?_⟩
  · intro r; exact (Classical.choose_spec (h3 (xcorrt r src N shift))).1
  · intro r x hx; exact (Classical.choose_spec (h3 (xcorrt r src N shift))).2 x hx
  · intro rsp
    induction rsp with
    | nil => rfl
    | cons r rest ih =>
      have hl := C10_length r src N shift hN
      have hs := hsolve sts (xcorrt r src N shift) _ (by omega)
        (Classical.choose_spec (h3 (xcorrt r src N shift))).1
        (Classical.choose_spec (h3 (xcorrt r src N shift))).2
      unfold timeLoop
      simp only [hl, h2, ne_eq, not_true_eq_false, if_false, hs, ih, bind, Except.bind, List.map_cons]

theorem sol_unique (sts : List K)
    (hu : ∀ y : List K, ∃ x, IsToeplitzSol sts y x ∧ ∀ x', IsToeplitzSol sts y x' → x' = x)
    (y x x' : List K) (h : IsToeplitzSol sts y x) (h' : IsToeplitzSol sts y x') : x = x' := by
  obtain ⟨z, _, hz⟩ := hu y
  rw [hz x h, hz x' h']

theorem getD_map_mul (c : K) (l : List K) (i : Nat) : (l.map (c * ·)).getD i 0 = c * l.getD i 0 := by
  rw [List.getD_eq_getElem?_getD, List.getD_eq_getElem?_getD, List.getElem?_map]
  cases l[i]? <;> simp

theorem getD_zipWith_add (l l' : List K) (h : l.length = l'.length) (i : Nat) :
    (List.zipWith (· + ·) l l').getD i 0 = l.getD i 0 + l'.getD i 0 := by
  by_cases hi : i < l.length
  · rw [List.getD_eq_getElem _ _ (by simp; omega), List.getD_eq_getElem _ _ hi,
      List.getD_eq_getElem _ _ (by omega), List.getElem_zipWith]
  · rw [List.getD_eq_default _ _ (by simp; omega), List.getD_eq_default _ _ (by omega),
      List.getD_eq_default _ _ (by omega), add_zero]

theorem sig_map_mul (c : K) (l : List K) (i : ℤ) : sig (l.map (c * ·)) i = c * sig l i := by
  unfold sig
  split
  · exact getD_map_mul c l _
  · simp

theorem sig_zipWith_add (l l' : List K) (h : l.length = l'.length) (i : ℤ) :
    sig (List.zipWith (· + ·) l l') i = sig l i + sig l' i := by
  unfold sig
  split
  · exact getD_zipWith_add l l' h _
  · simp

theorem sol_smul (sts y x : List K) (c : K) (h : IsToeplitzSol sts y x) :
    IsToeplitzSol sts (y.map (c * ·)) (x.map (c * ·)) := by
  refine ⟨by simpa using h.1, fun i hi => ?_⟩
  rw [getD_map_mul, ← h.2 i hi, mul_sum]
  refine sum_congr rfl fun j _ => ?_
  rw [getD_map_mul]; ring

theorem sol_add (sts y y' x x' : List K) (hy : y.length = y'.length) (h : IsToeplitzSol sts y x)
    (h' : IsToeplitzSol sts y' x') :
    IsToeplitzSol sts (List.zipWith (· + ·) y y') (List.zipWith (· + ·) x x') := by
  refine ⟨by simp [h.1, h'.1], fun i hi => ?_⟩
  rw [getD_zipWith_add _ _ hy, ← h.2 i hi, ← h'.2 i hi, ← sum_add_distrib]
  refine sum_congr rfl fun j _ => ?_
  rw [getD_zipWith_add _ _ (by rw [h.1, h'.1])]; ring

theorem xcorrt_smul (c : K) (r src : List K) (N : Nat) (z : Int) (hN : 1 ≤ N) :
    xcorrt (r.map (c * ·)) src N z = (xcorrt r src N z).map (c * ·) := by
  rw [xcorrt_eq _ _ _ _ hN, xcorrt_eq _ _ _ _ hN, List.length_map, List.map_map]
  refine List.map_congr_left fun k _ => ?_
  simp only [Function.comp, corrAt, mul_sum]
  refine sum_congr rfl fun m _ => ?_
  rw [sig_map_mul]; ring

theorem xcorrt_smul_src (c : K) (r src : List K) (N : Nat) (z : Int) (hN : 1 ≤ N) :
    xcorrt r (src.map (c * ·)) N z = (xcorrt r src N z).map (c * ·) := by
  rw [xcorrt_eq _ _ _ _ hN, xcorrt_eq _ _ _ _ hN, List.length_map, List.map_map]
  refine List.map_congr_left fun k _ => ?_
  simp only [Function.comp, corrAt, mul_sum, List.length_map]
  refine sum_congr rfl fun m _ => ?_
  rw [sig_map_mul]; ring

theorem xcorrt_add (r r' src : List K) (N : Nat) (z : Int) (hN : 1 ≤ N) (h : r.length = r'.length) :
    xcorrt (List.zipWith (· + ·) r r') src N z
      = List.zipWith (· + ·) (xcorrt r src N z) (xcorrt r' src N z) := by
  rw [xcorrt_eq _ _ _ _ hN, xcorrt_eq _ _ _ _ hN, xcorrt_eq _ _ _ _ hN, List.zipWith_map]
  rw [List.length_zipWith, ← h, min_self, List.zipWith_self]
  refine List.map_congr_left fun k _ => ?_
  simp only [corrAt]
  rw [← sum_add_distrib]
  refine sum_congr rfl fun m _ => ?_
  rw [sig_zipWith_add _ _ h]; ring

/-- **C13** (linearity).  Without normalisation the results are, response by response, the values of one
linear function. -/
theorem C13_linear (solve : List K → List K → Res (List K)) (hsolve : ExactSolver solve)
    (src : List K) (hE : ∃ v ∈ src, v ≠ 0) (lam : K) (hlam : 0 < lam) (N : Nat) (hN : 1 ≤ N)
    (shift : Int) : ∃ F : List K → List K,
      (∀ rsp, deconvTime solve rsp src shift lam (some N) none = .ok (rsp.map F)) ∧
      (∀ r, (F r).length = N) ∧
      (∀ c r, F (r.map (c * ·)) = (F r).map (c * ·)) ∧
      ∀ r r', r.length = r'.length →
        F (List.zipWith (· + ·) r r') = List.zipWith (· + ·) (F r) (F r') := by
  obtain ⟨sts, h1, h2, F, hF, hU, hloop⟩ := timeLoop_map solve hsolve src hE lam hlam N hN shift
  refine ⟨F, ?_, ?_, ?_, ?_⟩
  · intro rsp
    unfold deconvTime
    simp only [bind, Except.bind, h1, hloop]
  · intro r; rw [(hF r).1, h2]
  · intro c r
    refine (hU _ _ ?_).symm
    rw [xcorrt_smul _ _ _ _ _ hN]
    exact sol_smul _ _ _ _ (hF r)
  · intro r r' h
    refine (hU _ _ ?_).symm
    rw [xcorrt_add _ _ _ _ _ hN h]
    exact sol_add _ _ _ _ _ (by rw [C10_length _ _ _ _ hN, C10_length _ _ _ _ hN]) (hF r) (hF r')

theorem foldl_max_ge (xs : List K) (m : K) : m ≤ xs.foldl (fun m y => max m |y|) m ∧
    ∀ v ∈ xs, |v| ≤ xs.foldl (fun m y => max m |y|) m := by
  induction xs generalizing m with
  | nil => simp
  | cons x xs ih =>
    have := ih (max m |x|)
    simp only [List.foldl_cons, List.mem_cons, forall_eq_or_imp]
    exact ⟨(le_max_left _ _).trans this.1, (le_max_right _ _).trans this.1, this.2⟩

theorem foldl_max_mem (xs : List K) (m : K) : xs.foldl (fun m y => max m |y|) m = m ∨
    ∃ v ∈ xs, xs.foldl (fun m y => max m |y|) m = |v| := by
  induction xs generalizing m with
  | nil => simp
  | cons x xs ih =>
    simp only [List.foldl_cons, List.mem_cons, exists_eq_or_imp]
    rcases ih (max m |x|) with h | ⟨v, hv, h⟩
    · rw [h]
      rcases max_choice m |x| with h' | h'
      · exact Or.inl h'
      · exact Or.inr (Or.inl h')
    · exact Or.inr (Or.inr ⟨v, hv, h⟩)

theorem maxAbs_spec (x : List K) (m : K) (h : maxAbs x = .ok m) :
    (∀ v ∈ x, |v| ≤ m) ∧ ∃ v ∈ x, |v| = m := by
  cases x with
  | nil => cases h
  | cons a xs =>
    simp only [maxAbs, Except.ok.injEq] at h
    subst h
    refine ⟨?_, ?_⟩
    · intro v hv
      rcases List.mem_cons.1 hv with rfl | hv
      · exact (foldl_max_ge xs _).1
      · exact (foldl_max_ge xs _).2 v hv
    · rcases foldl_max_mem xs |a| with h | ⟨v, hv, h⟩
      · exact ⟨a, by simp, h.symm⟩
      · exact ⟨v, by simp [hv], h.symm⟩

theorem foldl_max_smul (c : K) (hc : 0 < c) (xs : List K) (m : K) :
    (xs.map (c * ·)).foldl (fun m y => max m |y|) (c * m) = c * xs.foldl (fun m y => max m |y|) m := by
  induction xs generalizing m with
  | nil => rfl
  | cons x xs ih =>
    simp only [List.map_cons, List.foldl_cons]
    rw [abs_mul, abs_of_pos hc, ← mul_max_of_nonneg _ _ hc.le, ih]

theorem maxAbs_smul (c : K) (hc : 0 < c) (x : List K) (m : K) (h : maxAbs x = .ok m) :
    maxAbs (x.map (c * ·)) = .ok (c * m) := by
  cases x with
  | nil => cases h
  | cons a xs =>
    simp only [maxAbs, Except.ok.injEq] at h
    subst h
    simp only [List.map_cons, maxAbs]
    rw [abs_mul, abs_of_pos hc, foldl_max_smul c hc]

theorem getItem_map {α β : Type} (f : α → β) (l : List α) (i : Int) :
    getItem (l.map f) i = (getItem l i).map f := by
  unfold getItem
  simp only [List.length_map, List.getElem?_map]
  generalize (if i < 0 then i + (l.length : Int) else i) = j
  by_cases hj : 0 ≤ j
  · rw [if_pos hj, if_pos hj]
    cases l[j.toNat]? <;> rfl
  · rw [if_neg hj, if_neg hj]; rfl

/-- Normalisation does not see a positive factor. -/
theorem normalizeAll_smul (c : K) (hc : 0 < c) (rf : List (List K)) (i : Int) :
    normalizeAll (rf.map (·.map (c * ·))) i = normalizeAll rf i := by
  unfold normalizeAll
  rw [getItem_map]
  cases getItem rf i with
  | error e => rfl
  | ok x =>
    simp only [Except.map, bind, Except.bind]
    cases h : maxAbs x with
    | error e =>
      cases x with
      | nil => simp only [maxAbs, Except.error.injEq] at h; subst h; rfl
      | cons a xs => cases h
    | ok m =>
      rw [maxAbs_smul c hc x m h]
      simp only [mul_eq_zero, hc.ne', false_or]
      split
      · rfl
      · rename_i hm
        congr 1
        rw [List.map_map]
        refine List.map_congr_left fun y _ => ?_
        simp only [Function.comp, List.map_map]
        refine List.map_congr_left fun v _ => ?_
        simp only [Function.comp]
        field_simp

/-- **C13** (normalisation).  With `normalize=i` the largest absolute sample of result `i` is 1. -/
theorem C13_normalised (solve : List K → List K → Res (List K)) (rsp : List (List K)) (src : List K)
    (shift : Int) (spiking : K) (length : Option Nat) (i : Int) (rf : List (List K))
    (h : deconvTime solve rsp src shift spiking length (some i) = .ok rf) :
    ∃ x, getItem rf i = .ok x ∧ (∀ v ∈ x, |v| ≤ 1) ∧ ∃ v ∈ x, |v| = 1 := by
  have key : ∀ rf0, normalizeAll rf0 i = .ok rf →
      ∃ x, getItem rf i = .ok x ∧ (∀ v ∈ x, |v| ≤ 1) ∧ ∃ v ∈ x, |v| = 1 := by
    intro rf0 h
    unfold normalizeAll at h
    cases h1 : getItem rf0 i with
    | error e => rw [h1] at h; cases h
    | ok x =>
      rw [h1] at h
      simp only [bind, Except.bind] at h
      cases h2 : maxAbs x with
      | error e => rw [h2] at h; cases h
      | ok m =>
        rw [h2] at h
        simp only at h
        split at h
        · cases h
        · rename_i hm
          simp only [Except.ok.injEq] at h
          subst h
          rw [getItem_map, h1]
          obtain ⟨b1, w, hw, b2⟩ := maxAbs_spec x m h2
          have hm0 : 0 < m := lt_of_le_of_ne (b2 ▸ abs_nonneg w) (Ne.symm hm)
          refine ⟨_, rfl, ?_, ?_⟩
          · intro v hv
            obtain ⟨u, hu, rfl⟩ := List.mem_map.1 hv
            rw [abs_mul, abs_of_pos (by positivity : (0 : K) < 1 / m), mul_one_div, div_le_one hm0]
            exact b1 u hu
          · refine ⟨w * (1 / m), List.mem_map_of_mem hw, ?_⟩
            rw [abs_mul, abs_of_pos (by positivity : (0 : K) < 1 / m), b2]
            field_simp
  unfold deconvTime at h
  simp only [bind, Except.bind] at h
  repeat' split at h
  all_goals first | cases h | skip
  all_goals exact key _ h

theorem scaled_first_length (c : K) (rsp : List (List K)) :
    (match rsp.map (·.map (c * ·)) with
      | [] => (.error .indexError : Res Nat)
      | r :: _ => .ok r.length) = match rsp with
      | [] => (.error .indexError : Res Nat)
      | r :: _ => .ok r.length := by
  cases rsp <;> simp

theorem stsVec_smul (c : K) (hc : c ≠ 0) (src : List K) (hE : ∃ v ∈ src, v ≠ 0) (lam : K) (N : Nat) :
    stsVec (src.map (c * ·)) N lam = stsVec src N lam := by
  by_cases hN : N = 0
  · subst hN; rfl
  have hE1 := energy_ne_zero src hE
  have hcorr : ∀ d, corrAt (src.map (c * ·)) (src.map (c * ·)) d = c ^ 2 * corrAt src src d := by
    intro d
    unfold corrAt
    rw [List.length_map, mul_sum]
    refine sum_congr rfl fun m _ => ?_
    rw [sig_map_mul, sig_map_mul]; ring
  have hen : energy (src.map (c * ·)) = c ^ 2 * energy src := by
    rw [energy_eq, energy_eq, hcorr]
  obtain ⟨s1, a1, a2, a3⟩ := stsVec_values src N (by omega) lam hE1
  obtain ⟨s2, b1, b2, b3⟩ := stsVec_values (src.map (c * ·)) N (by omega) lam
    (by rw [hen]; exact mul_ne_zero (pow_ne_zero _ hc) hE1)
  rw [a1, b1]
  congr 1
  refine list_ext_getD _ _ N b2 a2 fun d hd => ?_
  rw [a3 d hd, b3 d hd, hcorr, hen, mul_div_mul_left _ _ (pow_ne_zero 2 hc)]

/-- **C13** (scale invariance).  Multiplying all responses, or the source, by a positive factor does not
change the normalised results. -/
theorem C13_scale_invariant (solve : List K → List K → Res (List K)) (hsolve : ExactSolver solve)
    (rsp : List (List K)) (src : List K) (hE : ∃ v ∈ src, v ≠ 0) (lam : K) (hlam : 0 < lam)
    (shift : Int) (length : Option Nat) (i : Int) (c : K) (hc : 0 < c) :
    deconvTime solve (rsp.map (·.map (c * ·))) src shift lam length (some i)
      = deconvTime solve rsp src shift lam length (some i) ∧
    deconvTime solve rsp (src.map (c * ·)) shift lam length (some i)
      = deconvTime solve rsp src shift lam length (some i) := by
  have hEc : ∃ v ∈ src.map (c * ·), v ≠ 0 := by
    obtain ⟨v, hv, hne⟩ := hE
    exact ⟨c * v, List.mem_map_of_mem hv, mul_ne_zero hc.ne' hne⟩
  have main : ∀ N, (do
      let sts ← stsVec src N lam
      let rf ← timeLoop solve sts src N shift (rsp.map (·.map (c * ·)))
      normalizeAll rf i : Res (List (List K))) = (do
      let sts ← stsVec src N lam
      let rf ← timeLoop solve sts src N shift rsp
      normalizeAll rf i) ∧ (do
      let sts ← stsVec (src.map (c * ·)) N lam
      let rf ← timeLoop solve sts (src.map (c * ·)) N shift rsp
      normalizeAll rf i : Res (List (List K))) = (do
      let sts ← stsVec src N lam
      let rf ← timeLoop solve sts src N shift rsp
      normalizeAll rf i) := by
    intro N
    by_cases hN : N = 0
    · subst hN; exact ⟨rfl, rfl⟩
    have hN : 1 ≤ N := by omega
    obtain ⟨sts, h1, h2, F, hF, hU, hloop⟩ := timeLoop_map solve hsolve src hE lam hlam N hN shift
    obtain ⟨sts', h1', h2', F', hF', hU', hloop'⟩ :=
      timeLoop_map solve hsolve (src.map (c * ·)) hEc lam hlam N hN shift
    have hss : sts' = sts := by
      rw [stsVec_smul c hc.ne' src hE, h1] at h1'
      exact (Except.ok.inj h1').symm
    subst hss
    have e1 : ∀ r, F (r.map (c * ·)) = (F r).map (c * ·) := by
      intro r
      refine (hU _ _ ?_).symm
      rw [xcorrt_smul _ _ _ _ _ hN]
      exact sol_smul _ _ _ _ (hF r)
    have e2 : ∀ r, F' r = (F r).map (c * ·) := by
      intro r
      refine (hU' _ _ ?_).symm
      rw [xcorrt_smul_src _ _ _ _ _ hN]
      exact sol_smul _ _ _ _ (hF r)
    refine ⟨?_, ?_⟩
    · simp only [h1, bind, Except.bind, hloop]
      rw [← normalizeAll_smul c hc (rsp.map F) i, List.map_map, List.map_map]
      congr 1
      exact List.map_congr_left fun r _ => e1 r
    · simp only [h1, h1', bind, Except.bind, hloop, hloop']
      rw [← normalizeAll_smul c hc (rsp.map F) i, List.map_map]
      congr 1
      exact List.map_congr_left fun r _ => e2 r
  unfold deconvTime
  cases length with
  | some N => exact main N
  | none =>
    cases rsp with
    | nil => exact ⟨rfl, rfl⟩
    | cons r rest =>
      have := main r.length
      simp only [List.map_cons, List.length_map, bind, Except.bind] at this ⊢
      exact this

/-- **C14**.  The response is the prepared source (`M` samples) at its own window position `p`, the window
starts `s` samples before the onset (so the onset is sample `p + s`) and contains it or has an odd number of
samples.  Then the cross-correlation is maximal, in absolute value, at the onset sample, and the receiver
function `x` satisfies `∑ x² ≤ E x(onset)` with the energy `E` of the source; in particular its value at the
onset is non-negative. -/
theorem C14_self_deconvolution (src rsp : List K) (hE : ∃ v ∈ src, v ≠ 0) (lam : K) (hlam : 0 < lam)
    (p k0 : Nat) (s : Int) (hk0 : (k0 : Int) = p + s) (hk : k0 < rsp.length)
    (hw : src.length % 2 = 1 ∨ (0 < s ∧ s < src.length))
    (hplace : ∀ n : ℤ, sig rsp n = sig src (n - p))
    (sts x : List K) (hsts : stsVec src rsp.length lam = .ok sts)
    (hx : IsToeplitzSol sts (xcorrt rsp src rsp.length (s - (src.length / 2 : Nat))) x) :
    (∀ k < rsp.length, |(xcorrt rsp src rsp.length (s - (src.length / 2 : Nat))).getD k 0|
      ≤ (xcorrt rsp src rsp.length (s - (src.length / 2 : Nat))).getD k0 0) ∧
    ∑ k ∈ range rsp.length, x.getD k 0 ^ 2 ≤ energy src * x.getD k0 0 ∧ 0 ≤ x.getD k0 0 := by
  have hE0 := energy_pos src hE
  have hN : 1 ≤ rsp.length := by omega
  have hy : ∀ k < rsp.length, (xcorrt rsp src rsp.length (s - (src.length / 2 : Nat))).getD k 0
      = corrAt src src ((k : ℤ) - k0) := by
    intro k hk'
    rw [xcorrt_eq _ _ _ _ hN, xcorrOffset_value, if_neg (by omega),
      List.getD_eq_getElem _ _ (by simpa using hk')]
    simp only [List.getElem_map, List.getElem_range]
    unfold corrAt
    refine sum_congr rfl fun m _ => ?_
    rw [hplace]
    congr 2
    omega
  have hy0 : (xcorrt rsp src rsp.length (s - (src.length / 2 : Nat))).getD k0 0 = energy src := by
    rw [hy k0 hk, energy_eq, sub_self]
  refine ⟨?_, ?_⟩
  · intro k hk'
    rw [hy0, hy k hk', energy_eq]
    exact abs_corr_le src _
  obtain ⟨sts', a1, a2, a3⟩ := stsVec_values src rsp.length hN lam hE0.ne'
  rw [hsts] at a1
  simp only [Except.ok.injEq] at a1
  subst a1
  obtain ⟨hxl, hxs⟩ := (isSol_iff src rsp.length lam sts a2 a3 _ x).1 hx
  set N := rsp.length with hNdef
  -- w = E e_{k0} - x
  have hsolve : ∀ i < N, ∑ j ∈ range N, corrAt src src ((i : ℤ) - j) / energy src *
      ((if j = k0 then energy src else 0) - x.getD j 0) = lam * x.getD i 0 := by
    intro i hi
    have h1 := hxs i hi
    rw [hy i hi] at h1
    have e2 : ∑ j ∈ range N, (corrAt src src ((i : ℤ) - j) / energy src + if i = j then lam else 0) *
        x.getD j 0 = ∑ j ∈ range N, corrAt src src ((i : ℤ) - j) / energy src * x.getD j 0
          + lam * x.getD i 0 := by
      rw [← sum_ite_eq_of_mem (range N) i (fun j => lam * x.getD j 0) (mem_range.2 hi),
        ← sum_add_distrib]
      refine sum_congr rfl fun j _ => ?_
      split
      · ring
      · ring
    rw [e2] at h1
    have e3 : ∑ j ∈ range N, corrAt src src ((i : ℤ) - j) / energy src *
        ((if j = k0 then energy src else 0) - x.getD j 0)
        = ∑ j ∈ range N, (if k0 = j then corrAt src src ((i : ℤ) - j) else 0)
          - ∑ j ∈ range N, corrAt src src ((i : ℤ) - j) / energy src * x.getD j 0 := by
      rw [← sum_sub_distrib]
      refine sum_congr rfl fun j _ => ?_
      by_cases hj : j = k0
      · rw [if_pos hj, if_pos hj.symm]
        field_simp
      · rw [if_neg hj, if_neg (Ne.symm hj)]; ring
    rw [e3, sum_ite_eq_of_mem (range N) k0 (fun j : Nat => corrAt src src ((i : ℤ) - j)) (mem_range.2 hk)]
    linarith
  have hq := quad_pos src N 0 hE0.ne' (fun j => (if j = k0 then energy src else 0) - x.getD j 0)
  simp only [zero_mul, ite_self, add_zero] at hq
  have e4 : ∑ i ∈ range N, ((if i = k0 then energy src else 0) - x.getD i 0) *
      ∑ j ∈ range N, corrAt src src ((i : ℤ) - j) / energy src *
        ((if j = k0 then energy src else 0) - x.getD j 0)
      = lam * (energy src * x.getD k0 0 - ∑ i ∈ range N, x.getD i 0 ^ 2) := by
    have : ∑ i ∈ range N, ((if i = k0 then energy src else 0) - x.getD i 0) *
      ∑ j ∈ range N, corrAt src src ((i : ℤ) - j) / energy src *
        ((if j = k0 then energy src else 0) - x.getD j 0)
      = ∑ i ∈ range N, ((if k0 = i then lam * (energy src * x.getD i 0) else 0)
        - lam * x.getD i 0 ^ 2) := by
      refine sum_congr rfl fun i hi => ?_
      rw [hsolve i (mem_range.1 hi)]
      by_cases hj : i = k0
      · rw [if_pos hj, if_pos hj.symm]; ring
      · rw [if_neg hj, if_neg (Ne.symm hj)]; ring
    rw [this, sum_sub_distrib,
      sum_ite_eq_of_mem (range N) k0 (fun i => lam * (energy src * x.getD i 0)) (mem_range.2 hk),
      ← mul_sum]
    ring
  rw [e4] at hq
  have hfin : ∑ k ∈ range N, x.getD k 0 ^ 2 ≤ energy src * x.getD k0 0 := by
    by_contra hc
    push Not at hc
    have : lam * (energy src * x.getD k0 0 - ∑ i ∈ range N, x.getD i 0 ^ 2) < 0 :=
      mul_neg_of_pos_of_neg hlam (by linarith)
    linarith
  refine ⟨hfin, ?_⟩
  have h0 : 0 ≤ ∑ k ∈ range N, x.getD k 0 ^ 2 := sum_nonneg fun _ _ => sq_nonneg _
  by_contra hc
  push Not at hc
  have := mul_neg_of_pos_of_neg hE0 hc
  linarith

end sys

/-! ### Concrete cases -/

/-- The hypotheses of C12 and C14 are met: source and response `[1, 2, 1]`, onset at the
second sample. -/
example : stsVec ([1, 2, 1] : List ℚ) 2 1 = .ok [2, 2/3] ∧
    xcorrt ([1, 2, 1] : List ℚ) [1, 2, 1] 3 (1 - 1) = [4, 6, 4] ∧
    (∀ n < 3, sig ([1, 2, 1] : List ℚ) (n : Nat) = sig ([1, 2, 1] : List ℚ) ((n : ℤ) - (0 : Nat))) := by
  decide +kernel

/-- A solver for one sample systems, to see `deconvTime` run. -/
example : deconvTime (fun a y => match a, y with
      | [a], [y] => .ok [y / a]
      | _, _ => .error .other) [[3, 1], [1, 3]] [1, (2 : ℚ)] 0 1 (some 1) (some 0)
    = .ok [[1], [7/5]] := by
  decide +kernel

end Verif.Props
