import Verif.Props.HarmonicsEven

/-!
# Harmonics for balanced directions neither create energy nor amplify deviations: C203
-/

set_option linter.unusedSimpArgs false
set_option linter.unusedSectionVars false

namespace Verif.Props
open Verif.Py Verif.Model Verif.Model.Harmonics Verif.Spec Finset

/-- Bessel's inequality for the five terms. -/
theorem bessel_five (n : ℕ) (θ d : ℕ → ℝ) (ts : TrigSums n θ) (hn : n ≠ 0) :
    (∑ i ∈ range n, d i) ^ 2 + 2 * ((∑ i ∈ range n, Real.cos (θ i) * d i) ^ 2 + (∑ i ∈ range n, Real.sin (θ i) * d i) ^ 2 +
      (∑ i ∈ range n, Real.cos (2 * θ i) * d i) ^ 2 + (∑ i ∈ range n, Real.sin (2 * θ i) * d i) ^ 2)
      ≤ n * ∑ i ∈ range n, d i ^ 2 := by
  set S0 := ∑ i ∈ range n, d i with h0
  set S1 := ∑ i ∈ range n, Real.cos (θ i) * d i with h1
  set S2 := ∑ i ∈ range n, Real.sin (θ i) * d i with h2
  set S3 := ∑ i ∈ range n, Real.cos (2 * θ i) * d i with h3
  set S4 := ∑ i ∈ range n, Real.sin (2 * θ i) * d i with h4
  have hsq : 0 ≤ ∑ i ∈ range n, (n * d i - (S0 + 2 * (S1 * Real.cos (θ i) + S2 * Real.sin (θ i) +
      S3 * Real.cos (2 * θ i) + S4 * Real.sin (2 * θ i)))) ^ 2 := sum_nonneg fun _ _ => sq_nonneg _
  have hpt : ∀ i ∈ range n, (n * d i - (S0 + 2 * (S1 * Real.cos (θ i) + S2 * Real.sin (θ i) +
      S3 * Real.cos (2 * θ i) + S4 * Real.sin (2 * θ i)))) ^ 2 =
      (n : ℝ) ^ 2 * d i ^ 2 - 2 * n * S0 * d i - 4 * n * S1 * (Real.cos (θ i) * d i) - 4 * n * S2 * (Real.sin (θ i) * d i)
      - 4 * n * S3 * (Real.cos (2 * θ i) * d i) - 4 * n * S4 * (Real.sin (2 * θ i) * d i)
      + (S0 ^ 2 + 2 * (S1 ^ 2 + S2 ^ 2 + S3 ^ 2 + S4 ^ 2))
      + (4 * S0 * S1 + 4 * S1 * S3 + 4 * S2 * S4) * Real.cos (θ i)
      + (4 * S0 * S2 + 4 * S1 * S4 - 4 * S2 * S3) * Real.sin (θ i)
      + (4 * S0 * S3 + 2 * S1 ^ 2 - 2 * S2 ^ 2) * Real.cos (2 * θ i)
      + (4 * S0 * S4 + 4 * S1 * S2) * Real.sin (2 * θ i)
      + (4 * S1 * S3 - 4 * S2 * S4) * Real.cos (3 * θ i)
      + (4 * S1 * S4 + 4 * S2 * S3) * Real.sin (3 * θ i)
      + (2 * S3 ^ 2 - 2 * S4 ^ 2) * Real.cos (4 * θ i)
      + 4 * S3 * S4 * Real.sin (4 * θ i) := by
    intro i _
    obtain ⟨p1, p2, p3, p4, p5, p6, p7, p8, p9, p10⟩ := trig_products (θ i)
    linear_combination 4 * S1 ^ 2 * p1 + 4 * S2 ^ 2 * p2 + 8 * S1 * S2 * p3 + 8 * S1 * S3 * p4 + 8 * S1 * S4 * p5 +
      8 * S2 * S3 * p6 + 8 * S2 * S4 * p7 + 4 * S3 ^ 2 * p8 + 4 * S4 ^ 2 * p9 + 8 * S3 * S4 * p10
  rw [sum_congr rfl hpt] at hsq
  simp only [sum_add_distrib, sum_sub_distrib, ← mul_sum, sum_const, card_range, nsmul_eq_mul, ts.c1, ts.c2, ts.c3, ts.c4,
    ts.s1, ts.s2, ts.s3, ts.s4, ← h0, ← h1, ← h2, ← h3, ← h4] at hsq
  have hn0 : (0 : ℝ) < n := by positivity
  refine le_of_mul_le_mul_left ?_ hn0
  nlinarith

/-- The terms of the decomposition for balanced directions. -/
noncomputable def evenTerm (l : List ℕ) (B : ℕ → ℝ) (azim : ℝ) (d : ℕ → ℝ) (k : ℕ) : ℝ :=
  (if k = 0 then 1 else 2) * (l.map fun r => angular k (B r - azim) * d r).sum / l.length

theorem evenTerm_energy (l : List ℕ) (B : ℕ → ℝ) (azim : ℝ) (d : ℕ → ℝ) (hl : l ≠ []) (hb : Balanced l B) :
    evenTerm l B azim d 0 ^ 2 + (evenTerm l B azim d 1 ^ 2 + evenTerm l B azim d 2 ^ 2 + evenTerm l B azim d 3 ^ 2 +
      evenTerm l B azim d 4 ^ 2) / 2 ≤ (l.map fun r => d r ^ 2).sum / l.length := by
  have hn : l.length ≠ 0 := fun h => hl (List.length_eq_zero_iff.1 h)
  have key := bessel_five l.length (fun i => radians (B (l.getD i 0) - azim)) (fun i => d (l.getD i 0))
    (balanced_trigSums hb azim) hn
  unfold evenTerm
  simp only [radians_eq] at key
  simp only [← sum_map_range_getD, angular, if_true, one_ne_zero, OfNat.ofNat_ne_zero, if_false, one_mul]
  have hn0 : (0 : ℝ) < l.length := by positivity
  have e : ∀ a b c e f : ℝ, (a / l.length) ^ 2 + ((2 * b / l.length) ^ 2 + (2 * c / l.length) ^ 2 + (2 * e / l.length) ^ 2 +
      (2 * f / l.length) ^ 2) / 2 = (a ^ 2 + 2 * (b ^ 2 + c ^ 2 + e ^ 2 + f ^ 2)) / (l.length : ℝ) ^ 2 := by
    intro a b c e f
    field_simp
  rw [e, div_le_div_iff₀ (by positivity) hn0]
  nlinarith

/-- **C203** (energy).  For balanced directions the constant term and half of the other terms together do not contain more
energy than the traces on average, at each sample. -/
theorem C203_energy (E : LstsqEnv) (hE : LstsqOk E) (info : Str) (a : HArgs) (h : Heap ℝ) (s : List ℕ) (c : Char)
    (B : ℕ → ℝ) (N : ℕ)
    (hcomp : a.components = [c]) (hc : c = 'R' ∨ c = 'Q' ∨ c = 'T') (hsc : a.scalars = none)
    (hm : a.method = "time".toList ∨ a.method = "freq".toList ∧ 0 < N)
    (hu : Usable h s (ofComponent h s c) B N) (hbal : Balanced (ofComponent h s c) B) :
    ∃ out, harmonics E info a h s = .ok out ∧ ∀ i < N,
      sampleOf out 0 i ^ 2 + (sampleOf out 1 i ^ 2 + sampleOf out 2 i ^ 2 + sampleOf out 3 i ^ 2 + sampleOf out 4 i ^ 2) / 2
        ≤ ((ofComponent h s c).map fun r => (h r).data.getD i 0 ^ 2).sum / (ofComponent h s c).length := by
  obtain ⟨out, ho, hd⟩ := C168_one_component E hE info a h s c B N hcomp hc hsc hm hu hbal
  refine ⟨out, ho, fun i hi => ?_⟩
  have hk : ∀ k < 5, sampleOf out k i = evenTerm (ofComponent h s c) B a.azim (fun r => (h r).data.getD i 0) k :=
    fun k hk => sampleOf_table out 5 N _ hd k i hk hi
  rw [hk 0 (by omega), hk 1 (by omega), hk 2 (by omega), hk 3 (by omega), hk 4 (by omega)]
  exact evenTerm_energy _ B a.azim _ hu.nonempty hbal

/-- **C203** (deviations).  If the samples of the traces are changed, the squares of the changes of the terms satisfy the same
inequality. -/
theorem C203_noise (E : LstsqEnv) (hE : LstsqOk E) (info : Str) (a : HArgs) (h h' : Heap ℝ) (s : List ℕ) (c : Char)
    (B : ℕ → ℝ) (N : ℕ)
    (hcomp : a.components = [c]) (hc : c = 'R' ∨ c = 'Q' ∨ c = 'T') (hsc : a.scalars = none)
    (hm : a.method = "time".toList ∨ a.method = "freq".toList ∧ 0 < N)
    (hu : Usable h s (ofComponent h s c) B N) (hbal : Balanced (ofComponent h s c) B)
    (hs : SameHeads h h' s) (hl : ∀ r ∈ s, (h' r).data.length = (h r).data.length) :
    ∃ out out', harmonics E info a h s = .ok out ∧ harmonics E info a h' s = .ok out' ∧ ∀ i < N,
      (sampleOf out 0 i - sampleOf out' 0 i) ^ 2 + ((sampleOf out 1 i - sampleOf out' 1 i) ^ 2 +
        (sampleOf out 2 i - sampleOf out' 2 i) ^ 2 + (sampleOf out 3 i - sampleOf out' 3 i) ^ 2 +
        (sampleOf out 4 i - sampleOf out' 4 i) ^ 2) / 2
        ≤ ((ofComponent h s c).map fun r => ((h r).data.getD i 0 - (h' r).data.getD i 0) ^ 2).sum /
          (ofComponent h s c).length := by
  have hcc := ofComponent_congr h h' s c fun r hr => (hs r hr).1
  obtain ⟨out, ho, hd⟩ := C168_one_component E hE info a h s c B N hcomp hc hsc hm hu hbal
  obtain ⟨out', ho', hd'⟩ := C168_one_component E hE info a h' s c B N hcomp hc hsc hm (hs.usable hu hl)
    (by rw [hcc]; exact hbal)
  rw [hcc] at hd'
  refine ⟨out, out', ho, ho', fun i hi => ?_⟩
  have hk : ∀ k < 5, sampleOf out k i - sampleOf out' k i
      = evenTerm (ofComponent h s c) B a.azim (fun r => (h r).data.getD i 0 - (h' r).data.getD i 0) k := fun k hk => by
    rw [sampleOf_table out 5 N _ hd k i hk hi, sampleOf_table out' 5 N _ hd' k i hk hi]
    unfold evenTerm
    rw [← sub_div, ← mul_sub, ← sum_map_range_getD, ← sum_map_range_getD, ← sum_map_range_getD, ← sum_sub_distrib]
    congr 2
    exact sum_congr rfl fun j _ => by ring
  rw [hk 0 (by omega), hk 1 (by omega), hk 2 (by omega), hk 3 (by omega), hk 4 (by omega)]
  exact evenTerm_energy _ B a.azim _ hu.nonempty hbal

theorem mean_sq_le (l : List ℕ) (hl : l ≠ []) (f : ℕ → ℝ) (ε : ℝ) (h : ∀ r ∈ l, |f r| ≤ ε) :
    (l.map fun r => f r ^ 2).sum / l.length ≤ ε ^ 2 := by
  have hn : l.length ≠ 0 := fun h => hl (List.length_eq_zero_iff.1 h)
  rw [div_le_iff₀ (by positivity)]
  have : ∀ m : List ℕ, (∀ r ∈ m, |f r| ≤ ε) → (m.map fun r => f r ^ 2).sum ≤ ε ^ 2 * m.length := by
    intro m
    induction m with
    | nil => simp
    | cons r m ih =>
      intro hm
      have h1 := ih fun q hq => hm q (List.mem_cons_of_mem _ hq)
      have h2 : f r ^ 2 ≤ ε ^ 2 := by
        rw [← sq_abs]
        exact pow_le_pow_left₀ (abs_nonneg _) (hm r List.mem_cons_self) 2
      rw [List.map_cons, List.sum_cons, List.length_cons]
      push_cast
      linarith
  exact this l h

/-- **C203** (deviations of samples).  Deviations of at most `ε` in the traces change the constant term by at most `ε` and
the other terms by at most `sqrt 2 * ε`. -/
theorem C203_sample (E : LstsqEnv) (hE : LstsqOk E) (info : Str) (a : HArgs) (h h' : Heap ℝ) (s : List ℕ) (c : Char)
    (B : ℕ → ℝ) (N : ℕ)
    (hcomp : a.components = [c]) (hc : c = 'R' ∨ c = 'Q' ∨ c = 'T') (hsc : a.scalars = none)
    (hm : a.method = "time".toList ∨ a.method = "freq".toList ∧ 0 < N)
    (hu : Usable h s (ofComponent h s c) B N) (hbal : Balanced (ofComponent h s c) B)
    (hs : SameHeads h h' s) (hl : ∀ r ∈ s, (h' r).data.length = (h r).data.length) (ε : ℝ) (hε : 0 ≤ ε)
    (hdev : ∀ r ∈ ofComponent h s c, ∀ i, |(h r).data.getD i 0 - (h' r).data.getD i 0| ≤ ε) :
    ∃ out out', harmonics E info a h s = .ok out ∧ harmonics E info a h' s = .ok out' ∧ ∀ i < N,
      |sampleOf out 0 i - sampleOf out' 0 i| ≤ ε ∧
      ∀ k, 1 ≤ k → k < 5 → |sampleOf out k i - sampleOf out' k i| ≤ Real.sqrt 2 * ε := by
  obtain ⟨out, out', ho, ho', hb⟩ := C203_noise E hE info a h h' s c B N hcomp hc hsc hm hu hbal hs hl
  refine ⟨out, out', ho, ho', fun i hi => ?_⟩
  have hb := hb i hi
  have hme := mean_sq_le _ hu.nonempty (fun r => (h r).data.getD i 0 - (h' r).data.getD i 0) ε fun r hr => hdev r hr i
  have h2 : (Real.sqrt 2 * ε) ^ 2 = 2 * ε ^ 2 := by rw [mul_pow, Real.sq_sqrt (by norm_num)]
  have q0 := sq_nonneg (sampleOf out 0 i - sampleOf out' 0 i)
  have q1 := sq_nonneg (sampleOf out 1 i - sampleOf out' 1 i)
  have q2 := sq_nonneg (sampleOf out 2 i - sampleOf out' 2 i)
  have q3 := sq_nonneg (sampleOf out 3 i - sampleOf out' 3 i)
  have q4 := sq_nonneg (sampleOf out 4 i - sampleOf out' 4 i)
  refine ⟨abs_le_of_sq_le_sq (by linarith) hε, fun k h1 h5 => abs_le_of_sq_le_sq ?_ (by positivity)⟩
  rw [h2]
  interval_cases k <;> linarith

/-- The stream with even directions meets the hypotheses; all samples are changed by 1/10. -/
example : ∃ out out', harmonics someLstsq [] { components := ['R'], azim := 30, method := "freq".toList, scalars := none }
      ringHeap ringStream = .ok out ∧
    harmonics someLstsq [] { components := ['R'], azim := 30, method := "freq".toList, scalars := none }
      (fun r => { ringHeap r with data := (ringHeap r).data.map (· + 1 / 10) }) ringStream = .ok out' ∧
    |sampleOf out 0 0 - sampleOf out' 0 0| ≤ 1 / 10 := by
  obtain ⟨out, out', h1, h2, h3⟩ := C203_sample someLstsq someLstsq_ok [] { components := ['R'], azim := 30, method := "freq".toList, scalars := none } ringHeap
    (fun r => { ringHeap r with data := (ringHeap r).data.map (· + 1 / 10) })
    ringStream 'R' _ 1 rfl (Or.inl rfl) rfl
    (Or.inr ⟨rfl, by norm_num⟩) (ringUsable _ (by rw [ringR]; simp))
    (balanced_of_evenly _ _ (by rw [ringR]; simp) (ringEven 'R' (Or.inl rfl))) (fun _ _ => ⟨rfl, rfl⟩) (by simp) (1 / 10) (by norm_num)
    (by
      intro r _ i
      simp only [List.getD_eq_getElem?_getD, List.getElem?_map]
      cases (ringHeap r).data[i]? <;> simp [abs_le])
  exact ⟨out, out', h1, h2, (h3 0 (by norm_num)).1⟩

end Verif.Props
