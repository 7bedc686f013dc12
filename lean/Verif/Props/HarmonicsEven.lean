import Verif.Props.HarmonicsLinear
import Verif.Props.StreamOps
import Verif.Spec.Coverage
import Mathlib.Analysis.SpecialFunctions.Complex.Log
import Mathlib.Algebra.Ring.GeomSum

/-!
# Harmonics for evenly distributed back azimuths (C168)
-/

set_option linter.unusedSimpArgs false
set_option linter.unusedSectionVars false

namespace Verif.Props
open Verif.Py Verif.Model Verif.Model.Harmonics Verif.Spec Finset

/-! ### Even coverage is balanced -/

theorem unit_sum (N k : ℕ) (hk : 0 < k) (hkN : k < N) (b0 : ℝ) :
    ∑ i ∈ range N, Complex.exp (((k : ℝ) * ((b0 + 360 * ((i : ℝ) / (N : ℝ))) * Real.pi / 180) : ℝ) * Complex.I) = 0 := by
  have hN : (N : ℂ) ≠ 0 := by
    have : N ≠ 0 := by omega
    exact_mod_cast this
  have hfac : ∀ i ∈ range N,
      Complex.exp (((k : ℝ) * ((b0 + 360 * ((i : ℝ) / (N : ℝ))) * Real.pi / 180) : ℝ) * Complex.I) =
        Complex.exp (((k : ℝ) * (b0 * Real.pi / 180) : ℝ) * Complex.I) *
          Complex.exp (2 * Real.pi * Complex.I * (k / N)) ^ i := by
    intro i _
    rw [← Complex.exp_nat_mul, ← Complex.exp_add]
    congr 1
    push_cast
    field_simp
    ring
  rw [sum_congr rfl hfac, ← mul_sum]
  have hz : Complex.exp (2 * Real.pi * Complex.I * (k / N)) ^ N = 1 := by
    rw [← Complex.exp_nat_mul, Complex.exp_eq_one_iff]
    exact ⟨k, by push_cast; field_simp⟩
  have hz1 : Complex.exp (2 * Real.pi * Complex.I * (k / N)) ≠ 1 := by
    intro he
    obtain ⟨n, hn⟩ := Complex.exp_eq_one_iff.1 he
    have h2 : (2 * Real.pi * Complex.I : ℂ) ≠ 0 := Complex.two_pi_I_ne_zero
    have h3 : ((k : ℂ) / N) = n := by
      rw [mul_comm (n : ℂ)] at hn
      exact mul_left_cancel₀ h2 hn
    rw [div_eq_iff hN] at h3
    have h4 : (k : ℤ) = n * N := by exact_mod_cast h3
    have hn0 : 0 < n := by
      by_contra hc
      have : n * (N : ℤ) ≤ 0 := mul_nonpos_of_nonpos_of_nonneg (by omega) (by positivity)
      omega
    have : (N : ℤ) ≤ n * N := le_mul_of_one_le_left (by positivity) (by omega)
    omega
  have hg : (∑ i ∈ range N, Complex.exp (2 * Real.pi * Complex.I * (k / N)) ^ i) *
      (Complex.exp (2 * Real.pi * Complex.I * (k / N)) - 1) = 0 := by
    rw [geom_sum_mul, hz, sub_self]
  rw [(mul_eq_zero.1 hg).resolve_right (sub_ne_zero.2 hz1), mul_zero]

/-- Five or more evenly distributed directions are balanced. -/
theorem balanced_of_evenly (l : List ℕ) (B : ℕ → ℝ) (hl : 5 ≤ l.length) (he : Evenly l B) : Balanced l B := by
  obtain ⟨l', b0, hp, hB⟩ := he
  intro k hk1 hk4
  have hlen := hp.length_eq
  have hs := unit_sum l'.length k hk1 (by omega) b0
  have harg : ∀ i, ∀ hi : i < l'.length, ∃ n : ℤ, (k : ℝ) * (B l'[i] * Real.pi / 180) =
      (k : ℝ) * ((b0 + 360 * ((i : ℝ) / (l'.length : ℝ))) * Real.pi / 180) + n * (2 * Real.pi) := by
    intro i hi
    obtain ⟨n, hn⟩ := hB i hi
    refine ⟨k * n, ?_⟩
    rw [hn]
    push_cast
    ring
  have hcos : ∀ i ∈ range l'.length, Real.cos (k * (B (l'.getD i 0) * Real.pi / 180)) =
      (Complex.exp (((k : ℝ) * ((b0 + 360 * ((i : ℝ) / (l'.length : ℝ))) * Real.pi / 180) : ℝ) * Complex.I)).re := by
    intro i hi
    obtain ⟨n, hn⟩ := harg i (mem_range.1 hi)
    rw [List.getD_eq_getElem _ _ (mem_range.1 hi), hn, Real.cos_add_int_mul_two_pi, Complex.exp_ofReal_mul_I_re]
  have hsin : ∀ i ∈ range l'.length, Real.sin (k * (B (l'.getD i 0) * Real.pi / 180)) =
      (Complex.exp (((k : ℝ) * ((b0 + 360 * ((i : ℝ) / (l'.length : ℝ))) * Real.pi / 180) : ℝ) * Complex.I)).im := by
    intro i hi
    obtain ⟨n, hn⟩ := harg i (mem_range.1 hi)
    rw [List.getD_eq_getElem _ _ (mem_range.1 hi), hn, Real.sin_add_int_mul_two_pi, Complex.exp_ofReal_mul_I_im]
  constructor
  · rw [← (hp.map _).sum_eq, ← sum_map_range_getD l', sum_congr rfl hcos, ← Complex.re_sum, hs]
    rfl
  · rw [← (hp.map _).sum_eq, ← sum_map_range_getD l', sum_congr rfl hsin, ← Complex.im_sum, hs]
    rfl

/-- The sums also vanish for directions relative to another azimuth. -/
theorem balanced_shift {l : List ℕ} {B : ℕ → ℝ} (h : Balanced l B) (azim : ℝ) (k : ℕ) (h1 : 1 ≤ k) (h4 : k ≤ 4) :
    ∑ i ∈ range l.length, Real.cos (k * radians (B (l.getD i 0) - azim)) = 0 ∧
    ∑ i ∈ range l.length, Real.sin (k * radians (B (l.getD i 0) - azim)) = 0 := by
  obtain ⟨hc, hs⟩ := h k h1 h4
  rw [← sum_map_range_getD l] at hc hs
  have ha : ∀ b : ℝ, (k : ℝ) * radians (b - azim) = k * (b * Real.pi / 180) - k * (azim * Real.pi / 180) := by
    intro b
    rw [radians_eq]
    ring
  constructor
  · simp only [ha, Real.cos_sub, sum_add_distrib, ← sum_mul]
    rw [hc, hs]
    ring
  · simp only [ha, Real.sin_sub, sum_sub_distrib, ← sum_mul]
    rw [hc, hs]
    ring

/-! ### Normal equations as sums over the traces -/

theorem normal_list (L : List ℕ) (row : ℕ → List ℝ) (val : ℕ → ℝ) (n : ℕ) (x : ℕ → ℝ)
    (h : Normal (L.map row).length n (entry (L.map row)) ((L.map val).getD · 0) x) (y : ℕ → ℝ) :
    ∑ i ∈ range L.length, (∑ j ∈ range n, (row (L.getD i 0)).getD j 0 * y j) *
      ((∑ j ∈ range n, (row (L.getD i 0)).getD j 0 * x j) - val (L.getD i 0)) = 0 := by
  have := h.residual y
  unfold dotP at this
  rw [List.length_map] at this
  refine Eq.trans (sum_congr rfl fun i hi => ?_) this
  have hi := mem_range.1 hi
  beta_reduce
  rw [mulVec_of_row n (entry (L.map row)) (row (L.getD i 0)) i (fun j => entry_map _ _ i j 0 hi) y,
    mulVec_of_row n (entry (L.map row)) (row (L.getD i 0)) i (fun j => entry_map _ _ i j 0 hi) x,
    List.getD_eq_getElem (L.map val) _ (by simpa using hi), List.getElem_map, List.getD_eq_getElem L _ hi]
  rfl

/-- Sums over balanced directions. -/
structure TrigSums (n : ℕ) (θ : ℕ → ℝ) : Prop where
  c1 : ∑ i ∈ range n, Real.cos (θ i) = 0
  s1 : ∑ i ∈ range n, Real.sin (θ i) = 0
  c2 : ∑ i ∈ range n, Real.cos (2 * θ i) = 0
  s2 : ∑ i ∈ range n, Real.sin (2 * θ i) = 0
  c3 : ∑ i ∈ range n, Real.cos (3 * θ i) = 0
  s3 : ∑ i ∈ range n, Real.sin (3 * θ i) = 0
  c4 : ∑ i ∈ range n, Real.cos (4 * θ i) = 0
  s4 : ∑ i ∈ range n, Real.sin (4 * θ i) = 0

theorem balanced_trigSums {l : List ℕ} {B : ℕ → ℝ} (h : Balanced l B) (azim : ℝ) :
    TrigSums l.length fun i => radians (B (l.getD i 0) - azim) where
  c1 := by simpa using (balanced_shift h azim 1 (by omega) (by omega)).1
  s1 := by simpa using (balanced_shift h azim 1 (by omega) (by omega)).2
  c2 := by simpa using (balanced_shift h azim 2 (by omega) (by omega)).1
  s2 := by simpa using (balanced_shift h azim 2 (by omega) (by omega)).2
  c3 := by simpa using (balanced_shift h azim 3 (by omega) (by omega)).1
  s3 := by simpa using (balanced_shift h azim 3 (by omega) (by omega)).2
  c4 := by simpa using (balanced_shift h azim 4 (by omega) (by omega)).1
  s4 := by simpa using (balanced_shift h azim 4 (by omega) (by omega)).2

theorem balanced_perm {l l' : List ℕ} {B : ℕ → ℝ} (h : Balanced l B) (hp : l'.Perm l) : Balanced l' B := by
  intro k h1 h4
  rw [(hp.map _).sum_eq, (hp.map _).sum_eq]
  exact h k h1 h4

/-- Products of the first and second harmonics. -/
theorem trig_products (t : ℝ) :
    Real.cos t * Real.cos t = 1 / 2 + 1 / 2 * Real.cos (2 * t) ∧
    Real.sin t * Real.sin t = 1 / 2 - 1 / 2 * Real.cos (2 * t) ∧
    Real.cos t * Real.sin t = 1 / 2 * Real.sin (2 * t) ∧
    Real.cos t * Real.cos (2 * t) = 1 / 2 * Real.cos t + 1 / 2 * Real.cos (3 * t) ∧
    Real.cos t * Real.sin (2 * t) = 1 / 2 * Real.sin t + 1 / 2 * Real.sin (3 * t) ∧
    Real.sin t * Real.cos (2 * t) = 1 / 2 * Real.sin (3 * t) - 1 / 2 * Real.sin t ∧
    Real.sin t * Real.sin (2 * t) = 1 / 2 * Real.cos t - 1 / 2 * Real.cos (3 * t) ∧
    Real.cos (2 * t) * Real.cos (2 * t) = 1 / 2 + 1 / 2 * Real.cos (4 * t) ∧
    Real.sin (2 * t) * Real.sin (2 * t) = 1 / 2 - 1 / 2 * Real.cos (4 * t) ∧
    Real.cos (2 * t) * Real.sin (2 * t) = 1 / 2 * Real.sin (4 * t) := by
  have h3 : (3 : ℝ) * t = 2 * t + t := by ring
  have h4 : (4 : ℝ) * t = 2 * t + 2 * t := by ring
  have p := Real.sin_sq_add_cos_sq t
  have q := Real.sin_sq_add_cos_sq (2 * t)
  rw [h3, h4, Real.cos_add, Real.sin_add, Real.cos_add, Real.sin_add]
  have d1 := Real.cos_two_mul t
  have d2 := Real.sin_two_mul t
  refine ⟨?_, ?_, ?_, ?_, ?_, ?_, ?_, ?_, ?_, ?_⟩
  · rw [d1]; ring
  · rw [d1]; nlinarith
  · rw [d2]; ring
  · rw [d1, d2]; linear_combination Real.cos t * p
  · rw [d1, d2]; nlinarith
  · rw [d1, d2]; nlinarith
  · rw [d1, d2]; linear_combination Real.cos t * p
  · nlinarith
  · nlinarith
  · ring

/-! ### One component -/

/-- Solution of the normal equations for balanced directions. -/
theorem even_one (n : ℕ) (θ x d : ℕ → ℝ) (ts : TrigSums n θ)
    (hn : ∀ y : ℕ → ℝ, ∑ i ∈ range n, (y 0 + y 1 * Real.cos (θ i) + y 2 * Real.sin (θ i) + y 3 * Real.cos (2 * θ i) +
      y 4 * Real.sin (2 * θ i)) * (x 0 + x 1 * Real.cos (θ i) + x 2 * Real.sin (θ i) + x 3 * Real.cos (2 * θ i) +
      x 4 * Real.sin (2 * θ i) - d i) = 0) :
    n * x 0 = ∑ i ∈ range n, d i ∧ n * x 1 = 2 * ∑ i ∈ range n, Real.cos (θ i) * d i ∧
    n * x 2 = 2 * ∑ i ∈ range n, Real.sin (θ i) * d i ∧ n * x 3 = 2 * ∑ i ∈ range n, Real.cos (2 * θ i) * d i ∧
    n * x 4 = 2 * ∑ i ∈ range n, Real.sin (2 * θ i) * d i := by
  have h0 := hn fun j => if j = 0 then 1 else 0
  have h1 := hn fun j => if j = 1 then 1 else 0
  have h2 := hn fun j => if j = 2 then 1 else 0
  have h3 := hn fun j => if j = 3 then 1 else 0
  have h4 := hn fun j => if j = 4 then 1 else 0
  have g0 : ∑ i ∈ range n, (x 0 + x 1 * Real.cos (θ i) + x 2 * Real.sin (θ i) + x 3 * Real.cos (2 * θ i) +
      x 4 * Real.sin (2 * θ i) - d i) = 0 := by
    rw [← h0]
    refine sum_congr rfl fun i _ => ?_
    norm_num
  have g1 : ∑ i ∈ range n, (x 0 * Real.cos (θ i) + (x 1 / 2 + x 1 / 2 * Real.cos (2 * θ i)) +
      x 2 / 2 * Real.sin (2 * θ i) + (x 3 / 2 * Real.cos (θ i) + x 3 / 2 * Real.cos (3 * θ i)) +
      (x 4 / 2 * Real.sin (θ i) + x 4 / 2 * Real.sin (3 * θ i)) - Real.cos (θ i) * d i) = 0 := by
    rw [← h1]
    refine sum_congr rfl fun i _ => ?_
    obtain ⟨p1, p2, p3, p4, p5, p6, p7, p8, p9, p10⟩ := trig_products (θ i)
    norm_num
    linear_combination -(x 1) * p1 - x 2 * p3 - x 3 * p4 - x 4 * p5
  have g2 : ∑ i ∈ range n, (x 0 * Real.sin (θ i) + x 1 / 2 * Real.sin (2 * θ i) +
      (x 2 / 2 - x 2 / 2 * Real.cos (2 * θ i)) + (x 3 / 2 * Real.sin (3 * θ i) - x 3 / 2 * Real.sin (θ i)) +
      (x 4 / 2 * Real.cos (θ i) - x 4 / 2 * Real.cos (3 * θ i)) - Real.sin (θ i) * d i) = 0 := by
    rw [← h2]
    refine sum_congr rfl fun i _ => ?_
    obtain ⟨p1, p2, p3, p4, p5, p6, p7, p8, p9, p10⟩ := trig_products (θ i)
    norm_num
    linear_combination -(x 1) * p3 - x 2 * p2 - x 3 * p6 - x 4 * p7
  have g3 : ∑ i ∈ range n, (x 0 * Real.cos (2 * θ i) + (x 1 / 2 * Real.cos (θ i) + x 1 / 2 * Real.cos (3 * θ i)) +
      (x 2 / 2 * Real.sin (3 * θ i) - x 2 / 2 * Real.sin (θ i)) + (x 3 / 2 + x 3 / 2 * Real.cos (4 * θ i)) +
      x 4 / 2 * Real.sin (4 * θ i) - Real.cos (2 * θ i) * d i) = 0 := by
    rw [← h3]
    refine sum_congr rfl fun i _ => ?_
    obtain ⟨p1, p2, p3, p4, p5, p6, p7, p8, p9, p10⟩ := trig_products (θ i)
    norm_num
    linear_combination -(x 1) * p4 - x 2 * p6 - x 3 * p8 - x 4 * p10
  have g4 : ∑ i ∈ range n, (x 0 * Real.sin (2 * θ i) + (x 1 / 2 * Real.sin (θ i) + x 1 / 2 * Real.sin (3 * θ i)) +
      (x 2 / 2 * Real.cos (θ i) - x 2 / 2 * Real.cos (3 * θ i)) + x 3 / 2 * Real.sin (4 * θ i) +
      (x 4 / 2 - x 4 / 2 * Real.cos (4 * θ i)) - Real.sin (2 * θ i) * d i) = 0 := by
    rw [← h4]
    refine sum_congr rfl fun i _ => ?_
    obtain ⟨p1, p2, p3, p4, p5, p6, p7, p8, p9, p10⟩ := trig_products (θ i)
    norm_num
    linear_combination -(x 1) * p5 - x 2 * p7 - x 3 * p10 - x 4 * p9
  simp only [sum_add_distrib, sum_sub_distrib, ← mul_sum, sum_const, card_range, nsmul_eq_mul, ts.c1, ts.c2, ts.c3, ts.c4,
    ts.s1, ts.s2, ts.s3, ts.s4] at g0 g1 g2 g3 g4
  refine ⟨?_, ?_, ?_, ?_, ?_⟩ <;> linarith

/-- **C168**, one component: for balanced directions, for example five or more evenly distributed ones, the constant term is
the mean of the traces and the other terms are twice the mean of the traces multiplied by the term. -/
theorem C168_one_component (E : LstsqEnv) (hE : LstsqOk E) (info : Str) (a : HArgs) (h : Heap ℝ) (s : List ℕ) (c : Char)
    (B : ℕ → ℝ) (N : ℕ)
    (hcomp : a.components = [c]) (hc : c = 'R' ∨ c = 'Q' ∨ c = 'T') (hsc : a.scalars = none)
    (hm : a.method = "time".toList ∨ a.method = "freq".toList ∧ 0 < N)
    (hu : Usable h s (ofComponent h s c) B N) (hbal : Balanced (ofComponent h s c) B) :
    ∃ out, harmonics E info a h s = .ok out ∧
      out.map (fun t => t.data) = (List.range 5).map fun k => (List.range N).map fun i =>
        (if k = 0 then 1 else 2) * ((ofComponent h s c).map fun r => angular k (B r - a.azim) * (h r).data.getD i 0).sum /
          (ofComponent h s c).length := by
  obtain ⟨f, -, hb⟩ := body_one E hE a h s c B N hcomp hc hsc hm hu
  obtain ⟨out, ho, hd⟩ := harmonics_data E info a h s _ _ _ _ hb
  refine ⟨out, ho, hd.trans ?_⟩
  apply List.map_congr_left
  intro k hk
  apply List.map_congr_left
  intro i hi
  rw [List.mem_range] at hk hi
  set l := ofComponent h s c with hl
  set L := byTime h l with hL
  have hp : L.Perm l := byTime_perm h l
  have hLl : L.length = l.length := hp.length_eq
  have hL0 : L ≠ [] := by
    intro he
    rw [he, List.length_nil] at hLl
    exact hu.nonempty (List.length_eq_zero_iff.1 hLl.symm)
  have hpos : (l.length : ℝ) ≠ 0 := by
    have : l.length ≠ 0 := fun h0 => hu.nonempty (List.length_eq_zero_iff.1 h0)
    exact_mod_cast this
  have hmin := (hE.real 5 (L.map fun r => rowOne a.azim (B r)) (L.map fun r => (h r).data.getD i 0) (by simpa using hL0)
    (by intro r hr; obtain ⟨q, -, rfl⟩ := List.mem_map.1 hr; rfl) (by simp)).2
  set x : ℕ → ℝ := fun j => (E.real (L.map fun r => rowOne a.azim (B r)) (L.map fun r => (h r).data.getD i 0)).getD j 0
    with hx
  have hnorm := normal_list L (fun r => rowOne a.azim (B r)) (fun r => (h r).data.getD i 0) 5 x (minNorm_normal hmin)
  simp only [rowOne_dot] at hnorm
  have key := even_one L.length (fun i => radians (B (L.getD i 0) - a.azim)) x (fun j => (h (L.getD j 0)).data.getD i 0)
    (balanced_trigSums (balanced_perm hbal hp) a.azim) hnorm
  have hsum : ∀ g : ℕ → ℝ, (l.map g).sum = ∑ j ∈ range L.length, g (L.getD j 0) := fun g => by
    rw [sum_map_range_getD L, (hp.map _).sum_eq]
  rw [hsum, eq_div_iff hpos]
  obtain ⟨k0, k1, k2, k3, k4⟩ := key
  rw [hLl] at *
  simp only [radians_eq] at *
  change x k * _ = _
  interval_cases k
  · simp only [angular, if_true, one_mul]
    linarith
  · simp only [angular, one_ne_zero, if_false]
    linarith
  · simp only [angular, OfNat.ofNat_ne_zero, if_false]
    linarith
  · simp only [angular, OfNat.ofNat_ne_zero, if_false]
    linarith
  · simp only [angular, OfNat.ofNat_ne_zero, if_false]
    linarith

/-- The mean of the traces of a component is the stack, if these are the traces with the id of the stack. -/
theorem stack_mean (order : List Str → List Str) (h : Heap ℝ) (s : List ℕ) (st : List (Trace ℝ))
    (hst : stack order h s = .ok st) (t : Trace ℝ) (ht : t ∈ st) (c : Char) (N : ℕ)
    (hid : ∀ r ∈ s, (h r).id = t.id ↔ r ∈ ofComponent h s c) (hN : ∀ r ∈ ofComponent h s c, (h r).data.length = N) :
    t.data = (List.range N).map fun i => ((ofComponent h s c).map fun r => (h r).data.getD i 0).sum /
      (ofComponent h s c).length := by
  obtain ⟨⟨r0, hr0, hid0⟩, hlen, hmean, -⟩ := C47_mean order h s st hst t ht
  have hlt : t.data.length = N := by
    rw [← hlen r0 hr0 hid0]
    exact hN r0 ((hid r0 hr0).1 hid0)
  have hfil : (s.filter fun r => (h r).id = t.id) = ofComponent h s c := by
    apply List.filter_congr
    intro r hr
    have := hid r hr
    rw [show r ∈ ofComponent h s c ↔ r ∈ s ∧ _ from List.mem_filter] at this
    rw [Bool.eq_iff_iff, decide_eq_true_iff, this]
    exact ⟨fun q => q.2, fun q => ⟨hr, q⟩⟩
  apply List.ext_getElem
  · simp [hlt]
  · intro i hi hi'
    have := hmean i hi
    rw [List.getD_eq_getElem _ _ hi] at this
    rw [this, hfil]
    simp [meanAt, List.map_map, Function.comp_def]

/-- **C168**, one component and stack: for five or more evenly distributed back azimuths the constant term is the stack of
the component. -/
theorem C168_stack (E : LstsqEnv) (hE : LstsqOk E) (info : Str) (a : HArgs) (h : Heap ℝ) (s : List ℕ) (c : Char)
    (B : ℕ → ℝ) (N : ℕ)
    (hcomp : a.components = [c]) (hc : c = 'R' ∨ c = 'Q' ∨ c = 'T') (hsc : a.scalars = none)
    (hm : a.method = "time".toList ∨ a.method = "freq".toList ∧ 0 < N)
    (hu : Usable h s (ofComponent h s c) B N) (hfive : 5 ≤ (ofComponent h s c).length)
    (heven : Evenly (ofComponent h s c) B) (order : List Str → List Str) (st : List (Trace ℝ))
    (hst : stack order h s = .ok st) (t : Trace ℝ) (ht : t ∈ st)
    (hid : ∀ r ∈ s, (h r).id = t.id ↔ r ∈ ofComponent h s c) :
    ∃ const rest, harmonics E info a h s = .ok (const :: rest) ∧ const.data = t.data := by
  obtain ⟨out, ho, hd⟩ := C168_one_component E hE info a h s c B N hcomp hc hsc hm hu (balanced_of_evenly _ _ hfive heven)
  cases out with
  | nil => simp at hd
  | cons const rest =>
    refine ⟨const, rest, ho, ?_⟩
    rw [List.map_cons, List.range_succ_eq_map, List.map_cons, List.cons.injEq] at hd
    rw [hd.1, stack_mean order h s st hst t ht c N hid hu.npts]
    simp [angular]

/-! ### Two components -/

/-- The coefficients of the first component in the ten terms. -/
def alphaOf (s0 : ℝ) (x : ℕ → ℝ) : ℕ → ℝ
  | 0 => s0 * x 0
  | 1 => x 1 + x 6
  | 2 => x 2 + x 7
  | 3 => x 3 + x 8
  | _ => x 4 + x 9

/-- The coefficients of the transverse component in the ten terms. -/
def betaOf (s1 : ℝ) (x : ℕ → ℝ) : ℕ → ℝ
  | 0 => s1 * x 5
  | 1 => x 2 - x 7
  | 2 => x 6 - x 1
  | 3 => x 4 - x 9
  | _ => x 8 - x 3

theorem rowR_alpha (s0 azim b : ℝ) (y : ℕ → ℝ) : ∑ j ∈ range 10, (rowR s0 azim b).getD j 0 * y j =
    ∑ j ∈ range 5, (rowOne azim b).getD j 0 * alphaOf s0 y j := by
  rw [rowR_dot, rowOne_dot]
  rfl

theorem rowT_beta (s1 azim b : ℝ) (y : ℕ → ℝ) : ∑ j ∈ range 10, (rowT s1 azim b).getD j 0 * y j =
    ∑ j ∈ range 5, (rowOne azim b).getD j 0 * betaOf s1 y j := by
  rw [rowT_dot, rowOne_dot]
  simp only [betaOf]

theorem alpha_combined (s0 s1 : ℝ) (hs0 : s0 ≠ 0) (u v : ℕ → ℝ) : ∀ j < 5, alphaOf s0 (combined s0 s1 u v) j = u j := by
  intro j hj
  interval_cases j <;> simp only [alphaOf, combined]
  · field_simp
  all_goals ring

theorem beta_combined (s0 s1 : ℝ) (hs1 : s1 ≠ 0) (u v : ℕ → ℝ) : ∀ j < 5, betaOf s1 (combined s0 s1 u v) j = v j := by
  intro j hj
  interval_cases j <;> simp only [betaOf, combined]
  · field_simp
  all_goals ring

theorem rowOne_congr (azim b : ℝ) (y z : ℕ → ℝ) (h : ∀ j < 5, y j = z j) :
    ∑ j ∈ range 5, (rowOne azim b).getD j 0 * y j = ∑ j ∈ range 5, (rowOne azim b).getD j 0 * z j :=
  sum_congr rfl fun j hj => by rw [h j (mem_range.1 hj)]

/-- The fit of two components consists of the fits of the components. -/
theorem two_of_one (E : LstsqEnv) (hE : LstsqOk E) (L : List ℕ) (hL : L ≠ []) (B : ℕ → ℝ) (azim s0 s1 : ℝ) (hs0 : s0 ≠ 0)
    (hs1 : s1 ≠ 0) (p : Fin 5 → ℕ) (hp : ∀ i, p i ∈ L) (hpd : ∀ i j, i ≠ j → ∀ k : ℤ, B (p i) - B (p j) ≠ 360 * k)
    (b b' : List ℝ) (hb : b.length = L.length) (hb' : b'.length = L.length) (k : ℕ) (hk : k < 10) :
    (E.real (L.map (fun r => rowR s0 azim (B r)) ++ L.map fun r => rowT s1 azim (B r)) (b ++ b')).getD k 0 =
      combined s0 s1 ((E.real (L.map fun r => rowOne azim (B r)) b).getD · 0)
        ((E.real (L.map fun r => rowOne azim (B r)) b').getD · 0) k := by
  set A := L.map fun r => rowR s0 azim (B r) with hA
  set A' := L.map fun r => rowT s1 azim (B r) with hA'
  set A1 := L.map fun r => rowOne azim (B r) with hA1
  have hAl : A.length = L.length := by simp [hA]
  have hAl' : A'.length = L.length := by simp [hA']
  have hAl1 : A1.length = L.length := by simp [hA1]
  have hA10 : A1 ≠ [] := by simpa [hA1] using hL
  have hr1 : ∀ r ∈ A1, r.length = 5 := by
    intro r hr
    obtain ⟨q, -, rfl⟩ := List.mem_map.1 hr
    rfl
  have n1 := minNorm_normal (hE.real 5 A1 b hA10 hr1 (by omega)).2
  have n2 := minNorm_normal (hE.real 5 A1 b' hA10 hr1 (by omega)).2
  set u : ℕ → ℝ := ((E.real A1 b).getD · 0) with hu
  set v : ℕ → ℝ := ((E.real A1 b').getD · 0) with hv
  have n3 := minNorm_normal (hE.real 10 (A ++ A') (b ++ b') (by simpa [hA, hA'] using hL) (by
    intro r hr
    rcases List.mem_append.1 hr with hr | hr <;> (obtain ⟨q, -, rfl⟩ := List.mem_map.1 hr; rfl))
    (by rw [List.length_append, List.length_append]; omega)).2
  have hrow : ∀ q < L.length, ∀ y : ℕ → ℝ, mulVec 10 (entry (A ++ A')) y q =
      mulVec 5 (entry A1) (alphaOf s0 y) q := by
    intro q hq y
    rw [mulVec_of_row 10 _ _ q (fun j => (entry_left A A' q j (by omega)).trans (entry_map _ _ q j 0 hq)) y, rowR_alpha,
      mulVec_of_row 5 (entry A1) _ q (fun j => entry_map _ _ q j 0 hq)]
  have hrow' : ∀ q < L.length, ∀ y : ℕ → ℝ, mulVec 10 (entry (A ++ A')) y (L.length + q) =
      mulVec 5 (entry A1) (betaOf s1 y) q := by
    intro q hq y
    rw [← hAl, mulVec_of_row 10 _ _ _ (fun j => (entry_right A A' q j).trans (entry_map _ _ q j 0 hq)) y, rowT_beta,
      mulVec_of_row 5 (entry A1) _ q (fun j => entry_map _ _ q j 0 hq)]
  refine n3.unique (y := combined s0 s1 u v) ⟨fun y => ?_, fun y hy => ?_⟩ k hk
  · unfold dotP
    rw [List.length_append, hAl, hAl', sum_range_add]
    have e1 := n1.residual (alphaOf s0 y)
    have e2 := n2.residual (betaOf s1 y)
    unfold dotP at e1 e2
    rw [hAl1] at e1 e2
    have g1 : ∀ q ∈ range L.length, (starRingEnd ℝ) (mulVec 10 (entry (A ++ A')) y q) *
        (mulVec 10 (entry (A ++ A')) (combined s0 s1 u v) q - (b ++ b').getD q 0) =
        (starRingEnd ℝ) (mulVec 5 (entry A1) (alphaOf s0 y) q) * (mulVec 5 (entry A1) u q - b.getD q 0) := by
      intro q hq
      have hq := mem_range.1 hq
      rw [hrow q hq, hrow q hq, List.getD_append _ _ _ _ (by omega),
        mulVec_congr 5 (entry A1) _ _ (alpha_combined s0 s1 hs0 u v)]
    have g2 : ∀ q ∈ range L.length, (starRingEnd ℝ) (mulVec 10 (entry (A ++ A')) y (L.length + q)) *
        (mulVec 10 (entry (A ++ A')) (combined s0 s1 u v) (L.length + q) - (b ++ b').getD (L.length + q) 0) =
        (starRingEnd ℝ) (mulVec 5 (entry A1) (betaOf s1 y) q) * (mulVec 5 (entry A1) v q - b'.getD q 0) := by
      intro q hq
      have hq := mem_range.1 hq
      rw [hrow' q hq, hrow' q hq, List.getD_append_right _ _ _ _ (by omega), hb, Nat.add_sub_cancel_left,
        mulVec_congr 5 (entry A1) _ _ (beta_combined s0 s1 hs1 u v)]
    rw [sum_congr rfl g1, sum_congr rfl g2, e1, e2, add_zero]
  · have hz : ∀ j < 10, y j = 0 := by
      have hidx : ∀ i, ∃ q, q < L.length ∧ L.getD q 0 = p i := by
        intro i
        obtain ⟨q, hq, he⟩ := List.mem_iff_getElem.1 (hp i)
        exact ⟨q, hq, by rw [List.getD_eq_getElem _ _ hq, he]⟩
      refine harm_unique_two (fun i => B (p i)) azim hpd s0 s1 hs0 hs1 y (fun j => ?_) (fun j => ?_)
      · obtain ⟨q, hq, he⟩ := hidx j
        have := hy q (by rw [List.length_append]; omega)
        rw [mulVec_of_row 10 _ _ q (fun j => (entry_left A A' q j (by omega)).trans (entry_map _ _ q j 0 hq)) y, he] at this
        exact this
      · obtain ⟨q, hq, he⟩ := hidx j
        have := hy (A.length + q) (by rw [List.length_append]; omega)
        rw [mulVec_of_row 10 _ _ _ (fun j => (entry_right A A' q j).trans (entry_map _ _ q j 0 hq)) y, he] at this
        exact this
    unfold dotP
    refine sum_eq_zero fun j hj => ?_
    rw [hz j (mem_range.1 hj), map_zero, zero_mul]

/-- Sample `i` of trace `k`. -/
def sampleOf (out : List (Trace ℝ)) (k i : ℕ) : ℝ := ((out.map fun t => t.data).getD k []).getD i 0

theorem sampleOf_table (out : List (Trace ℝ)) (M N : ℕ) (f : ℕ → ℕ → ℝ)
    (h : out.map (fun t => t.data) = (List.range M).map fun k => (List.range N).map fun i => f k i) (k i : ℕ) (hk : k < M)
    (hi : i < N) : sampleOf out k i = f k i := by
  unfold sampleOf
  rw [h]
  simp [hk, hi]

/-- **C169**: for five directions the terms of a decomposition of two components are combinations of the terms of the
decompositions of the components.  The scalars divide the constant terms and have no other effect. -/
theorem C169_components (E : LstsqEnv) (hE : LstsqOk E) (info infoR infoT : Str) (a : HArgs) (h : Heap ℝ) (s : List ℕ)
    (c : Char) (B BT : ℕ → ℝ) (N : ℕ) (s0 s1 : ℝ)
    (hcomp : a.components = [c, 'T']) (hc : c = 'R' ∨ c = 'Q') (hsc : a.scalars.getD (3, 3 / 10) = (s0, s1))
    (hs0 : s0 ≠ 0) (hs1 : s1 ≠ 0)
    (hm : a.method = "time".toList ∨ a.method = "freq".toList ∧ 0 < N)
    (hu : Usable h s (ofComponent h s c) B N) (hut : Usable h s (ofComponent h s 'T') BT N)
    (hpair : Paired h (ofComponent h s c) (ofComponent h s 'T'))
    (hbaz : ∀ r ∈ ofComponent h s c, ∀ q ∈ ofComponent h s 'T',
      (h r).getTime "event_time" = (h q).getTime "event_time" → BT q = B r)
    (hfive : FiveDirections (ofComponent h s c) B) :
    ∃ out outR outT, harmonics E info a h s = .ok out ∧
      harmonics E infoR { a with components := [c], scalars := none } h s = .ok outR ∧
      harmonics E infoT { a with components := ['T'], scalars := none } h s = .ok outT ∧
      out.map (fun t => t.data) = (List.range 10).map fun k => (List.range N).map fun i =>
        combined s0 s1 (fun j => sampleOf outR j i) (fun j => sampleOf outT j i) k := by
  obtain ⟨f, -, hb⟩ := body_two E hE a h s c B N hcomp hc hm hu ⟨BT, hut⟩ hpair.count
  obtain ⟨out, ho, hd⟩ := harmonics_data E info a h s _ _ _ _ hb
  obtain ⟨fR, -, hbR⟩ := body_one E hE { a with components := [c], scalars := none } h s c B N rfl
    (by rcases hc with rfl | rfl <;> simp) rfl hm hu
  obtain ⟨outR, hoR, hdR⟩ := harmonics_data E infoR _ h s _ _ _ _ hbR
  obtain ⟨fT, -, hbT⟩ := body_one E hE { a with components := ['T'], scalars := none } h s 'T' BT N rfl (by simp) rfl hm hut
  obtain ⟨outT, hoT, hdT⟩ := harmonics_data E infoT _ h s _ _ _ _ hbT
  refine ⟨out, outR, outT, ho, hoR, hoT, hd.trans ?_⟩
  simp only at hdR hdT
  set l := ofComponent h s c with hl
  set lt := ofComponent h s 'T' with hlt
  have hll : (byTime h lt).length = (byTime h l).length := by
    rw [(byTime_perm h l).length_eq, (byTime_perm h lt).length_eq, hpair.count]
  have hrows : ((byTime h lt).map fun r => rowOne a.azim (BT r)) = (byTime h l).map fun r => rowOne a.azim (B r) := by
    apply List.ext_getElem (by simp [hll])
    intro i h1 h2
    rw [List.getElem_map, List.getElem_map]
    have hi : i < (byTime h l).length := by simpa using h2
    obtain ⟨hi', hev⟩ := paired_position h l lt hu.time hut.time hpair i hi
    rw [hbaz _ ((byTime_mem h l _).1 (List.getElem_mem hi)) _ ((byTime_mem h lt _).1 (List.getElem_mem hi')) hev]
  rw [hrows] at hdT
  rw [hsc]
  apply List.map_congr_left
  intro k hk
  apply List.map_congr_left
  intro i hi
  rw [List.mem_range] at hk hi
  obtain ⟨p, hp, hpd⟩ := hfive
  have hne : byTime h l ≠ [] := fun he => by
    have := (byTime_perm h l).length_eq
    rw [he] at this
    exact hu.nonempty (List.length_eq_zero_iff.1 this.symm)
  have hkey := two_of_one E hE (byTime h l) hne B a.azim s0 s1 hs0 hs1 p (fun i => (byTime_mem h l _).2 (hp i)) hpd
    ((byTime h l).map fun r => (h r).data.getD i 0) ((byTime h lt).map fun r => (h r).data.getD i 0) (by simp)
    (by simp [hll]) k hk
  simp only []
  rw [hkey]
  have hR := fun j (hj : j < 5) => sampleOf_table outR 5 N _ hdR j i hj hi
  have hT := fun j (hj : j < 5) => sampleOf_table outT 5 N _ hdT j i hj hi
  interval_cases k <;> simp only [combined] <;>
    simp only [hR 0 (by omega), hR 1 (by omega), hR 2 (by omega), hR 3 (by omega), hR 4 (by omega), hT 0 (by omega),
      hT 1 (by omega), hT 2 (by omega), hT 3 (by omega), hT 4 (by omega)]

/-- C169, consequence: other scalars give the same terms except for the constant ones, which change by the quotient of the
scalars.  The scalars do not weight the components in the regression. -/
theorem C169_scalars (E : LstsqEnv) (hE : LstsqOk E) (info : Str) (a : HArgs) (h : Heap ℝ) (s : List ℕ)
    (c : Char) (B BT : ℕ → ℝ) (N : ℕ) (s0 s1 s0' s1' : ℝ)
    (hcomp : a.components = [c, 'T']) (hc : c = 'R' ∨ c = 'Q')
    (hs : s0 ≠ 0 ∧ s1 ≠ 0 ∧ s0' ≠ 0 ∧ s1' ≠ 0)
    (hm : a.method = "time".toList ∨ a.method = "freq".toList ∧ 0 < N)
    (hu : Usable h s (ofComponent h s c) B N) (hut : Usable h s (ofComponent h s 'T') BT N)
    (hpair : Paired h (ofComponent h s c) (ofComponent h s 'T'))
    (hbaz : ∀ r ∈ ofComponent h s c, ∀ q ∈ ofComponent h s 'T',
      (h r).getTime "event_time" = (h q).getTime "event_time" → BT q = B r)
    (hfive : FiveDirections (ofComponent h s c) B) :
    ∃ out out', harmonics E info { a with scalars := some (s0, s1) } h s = .ok out ∧
      harmonics E info { a with scalars := some (s0', s1') } h s = .ok out' ∧ out.length = 10 ∧ out'.length = 10 ∧
      ∀ i < N, s0 * sampleOf out 0 i = s0' * sampleOf out' 0 i ∧ s1 * sampleOf out 5 i = s1' * sampleOf out' 5 i ∧
        ∀ k < 10, k ≠ 0 → k ≠ 5 → sampleOf out k i = sampleOf out' k i := by
  obtain ⟨h1, h2, h3, h4⟩ := hs
  obtain ⟨out, outR, outT, e1, e2, e3, e4⟩ := C169_components E hE info [] [] { a with scalars := some (s0, s1) } h s c B BT N
    s0 s1 hcomp hc rfl h1 h2 hm hu hut hpair hbaz hfive
  obtain ⟨out', outR', outT', f1, f2, f3, f4⟩ := C169_components E hE info [] [] { a with scalars := some (s0', s1') } h s c B
    BT N s0' s1' hcomp hc rfl h3 h4 hm hu hut hpair hbaz hfive
  have hRR : outR' = outR := by
    have := f2.symm.trans e2
    simpa using this
  have hTT : outT' = outT := by
    have := f3.symm.trans e3
    simpa using this
  subst hRR hTT
  refine ⟨out, out', e1, f1, ?_, ?_, fun i hi => ?_⟩
  · simpa using congrArg List.length e4
  · simpa using congrArg List.length f4
  · have he := fun k (hk : k < 10) => sampleOf_table out 10 N _ e4 k i hk hi
    have hf := fun k (hk : k < 10) => sampleOf_table out' 10 N _ f4 k i hk hi
    refine ⟨?_, ?_, fun k hk h0 h5 => ?_⟩
    · rw [he 0 (by omega), hf 0 (by omega)]
      simp only [combined]
      field_simp
    · rw [he 5 (by omega), hf 5 (by omega)]
      simp only [combined]
      field_simp
    · rw [he k hk, hf k hk]
      interval_cases k <;> first | rfl | contradiction

/-- Five or more evenly distributed directions contain five different ones. -/
theorem five_of_evenly (l : List ℕ) (B : ℕ → ℝ) (hl : 5 ≤ l.length) (he : Evenly l B) : FiveDirections l B := by
  obtain ⟨l', b0, hp, hB⟩ := he
  have hlen := hp.length_eq
  refine ⟨fun i => l'[(i : ℕ)]'(by omega), fun i => hp.mem_iff.1 (List.getElem_mem _), fun i j hij k hk => ?_⟩
  obtain ⟨m, hm⟩ := hB i (by omega)
  obtain ⟨n, hn⟩ := hB j (by omega)
  simp only at hk
  rw [hm, hn] at hk
  have hN : (l'.length : ℝ) ≠ 0 := by
    have : l'.length ≠ 0 := by omega
    exact_mod_cast this
  have h1 : ((i : ℕ) : ℝ) - ((j : ℕ) : ℝ) = (k - m + n) * l'.length := by
    field_simp at hk
    linarith
  have h2 : ((i : ℕ) : ℤ) - ((j : ℕ) : ℤ) = (k - m + n) * l'.length := by exact_mod_cast h1
  have h3 : ((i : ℕ) : ℤ) ≠ ((j : ℕ) : ℤ) := fun h => hij (Fin.ext (by exact_mod_cast h))
  have hi := i.2
  have hj := j.2
  rcases lt_trichotomy (k - m + n) 0 with hz | hz | hz
  · have : (k - m + n) * (l'.length : ℤ) ≤ (-1) * l'.length := mul_le_mul_of_nonneg_right (by omega) (by positivity)
    omega
  · rw [hz, zero_mul] at h2
    omega
  · have : 1 * (l'.length : ℤ) ≤ (k - m + n) * l'.length := mul_le_mul_of_nonneg_right (by omega) (by positivity)
    omega

/-- **C168**, partial, two components: for five or more evenly distributed back azimuths the constant terms multiplied by the
scalars are the stacks of the components. -/
theorem C168_two_components_partial (E : LstsqEnv) (hE : LstsqOk E) (info : Str) (a : HArgs) (h : Heap ℝ) (s : List ℕ)
    (c : Char) (B BT : ℕ → ℝ) (N : ℕ) (s0 s1 : ℝ)
    (hcomp : a.components = [c, 'T']) (hc : c = 'R' ∨ c = 'Q') (hsc : a.scalars.getD (3, 3 / 10) = (s0, s1))
    (hs0 : s0 ≠ 0) (hs1 : s1 ≠ 0)
    (hm : a.method = "time".toList ∨ a.method = "freq".toList ∧ 0 < N)
    (hu : Usable h s (ofComponent h s c) B N) (hut : Usable h s (ofComponent h s 'T') BT N)
    (hpair : Paired h (ofComponent h s c) (ofComponent h s 'T'))
    (hbaz : ∀ r ∈ ofComponent h s c, ∀ q ∈ ofComponent h s 'T',
      (h r).getTime "event_time" = (h q).getTime "event_time" → BT q = B r)
    (hlen : 5 ≤ (ofComponent h s c).length)
    (heven : Evenly (ofComponent h s c) B) (hevenT : Evenly (ofComponent h s 'T') BT)
    (order : List Str → List Str) (st : List (Trace ℝ))
    (hst : stack order h s = .ok st) (t t' : Trace ℝ) (ht : t ∈ st) (ht' : t' ∈ st)
    (hid : ∀ r ∈ s, (h r).id = t.id ↔ r ∈ ofComponent h s c) (hid' : ∀ r ∈ s, (h r).id = t'.id ↔ r ∈ ofComponent h s 'T') :
    ∃ out, harmonics E info a h s = .ok out ∧ out.length = 10 ∧ t.data.length = N ∧ t'.data.length = N ∧
      ∀ i < N, s0 * sampleOf out 0 i = t.data.getD i 0 ∧ s1 * sampleOf out 5 i = t'.data.getD i 0 := by
  obtain ⟨out, outR, outT, e1, e2, e3, e4⟩ := C169_components E hE info [] [] a h s c B BT N s0 s1 hcomp hc hsc hs0 hs1 hm
    hu hut hpair hbaz (five_of_evenly _ _ hlen heven)
  obtain ⟨outR', g1, g2⟩ := C168_one_component E hE [] { a with components := [c], scalars := none } h s c B N rfl
    (by rcases hc with rfl | rfl <;> simp) rfl hm hu (balanced_of_evenly _ _ hlen heven)
  obtain ⟨outT', g3, g4⟩ := C168_one_component E hE [] { a with components := ['T'], scalars := none } h s 'T' BT N rfl
    (by simp) rfl hm hut (balanced_of_evenly _ _ (by rw [← hpair.count]; exact hlen) hevenT)
  have hRR : outR' = outR := by
    have := g1.symm.trans e2
    simpa using this
  have hTT : outT' = outT := by
    have := g3.symm.trans e3
    simpa using this
  subst hRR hTT
  have q1 := stack_mean order h s st hst t ht c N hid hu.npts
  have q2 := stack_mean order h s st hst t' ht' 'T' N hid' hut.npts
  refine ⟨out, e1, by simpa using congrArg List.length e4, by rw [q1]; simp, by rw [q2]; simp, fun i hi => ?_⟩
  rw [sampleOf_table out 10 N _ e4 0 i (by omega) hi, sampleOf_table out 10 N _ e4 5 i (by omega) hi]
  simp only [combined]
  rw [sampleOf_table _ 5 N _ g2 0 i (by omega) hi, sampleOf_table _ 5 N _ g4 0 i (by omega) hi, q1, q2]
  simp only [angular, if_true, one_mul]
  constructor
  · rw [mul_div_cancel₀ _ hs0]
    simp [hi]
  · rw [mul_div_cancel₀ _ hs1]
    simp [hi]

/-! ### Five events around the station -/

/-- Traces 0 - 4 are the R traces, traces 5 - 9 the T traces of events 0 - 4 in steps of 72 degrees, R is one and T is
zero. -/
noncomputable def ringHeap : Heap ℝ := fun r =>
  { net := ['X'], sta := ['A'], loc := [], cha := if r < 5 then ['R'] else ['T'], start := 0, sr := 1,
    data := [if r < 5 then 1 else 0],
    ext := [("event_time", .time ((r % 5 : ℕ) : ℝ)), ("back_azimuth", .num (72 * ((r % 5 : ℕ) : ℝ)))] }

def ringStream : List ℕ := [0, 1, 2, 3, 4, 5, 6, 7, 8, 9]

theorem ringR : ofComponent ringHeap ringStream 'R' = [0, 1, 2, 3, 4] := rfl
theorem ringT : ofComponent ringHeap ringStream 'T' = [5, 6, 7, 8, 9] := rfl

theorem ringUsable (l : List ℕ) (hl : l ≠ []) : Usable ringHeap ringStream l (fun r => 72 * ((r % 5 : ℕ) : ℝ)) 1 where
  nonempty := hl
  time _ _ := ⟨_, rfl⟩
  baz _ _ := rfl
  npts _ _ := rfl
  first := ⟨0, rfl, rfl⟩

theorem ringEven (c : Char) (hc : c = 'R' ∨ c = 'T') :
    Evenly (ofComponent ringHeap ringStream c) (fun r => 72 * ((r % 5 : ℕ) : ℝ)) := by
  refine ⟨_, 0, List.Perm.refl _, fun i hi => ⟨0, ?_⟩⟩
  rcases hc with rfl | rfl
  · simp only [ringR] at hi ⊢
    simp only [List.length_cons, List.length_nil] at hi ⊢
    interval_cases i <;> norm_num
  · simp only [ringT] at hi ⊢
    simp only [List.length_cons, List.length_nil] at hi ⊢
    interval_cases i <;> norm_num

theorem ringPaired : Paired ringHeap (ofComponent ringHeap ringStream 'R') (ofComponent ringHeap ringStream 'T') := by
  have ht : ∀ r, (ringHeap r).getTime "event_time" = some ((r % 5 : ℕ) : ℝ) := fun _ => rfl
  rw [ringR, ringT]
  constructor
  · simp [ht]
  · simp [ht]
  · rfl
  · simp [ht]

/-- The stack of the R traces. -/
theorem ringStack : ∃ st t t', stack dedupOrder ringHeap ringStream = .ok st ∧ t ∈ st ∧ t' ∈ st ∧ t.data = [1] ∧
    (∀ r ∈ ringStream, (ringHeap r).id = t.id ↔ r ∈ ofComponent ringHeap ringStream 'R') ∧
    (∀ r ∈ ringStream, (ringHeap r).id = t'.id ↔ r ∈ ofComponent ringHeap ringStream 'T') := by
  have hid : ∀ r, (ringHeap r).id = if r < 5 then "X.A..R".toList else "X.A..T".toList := by
    intro r
    by_cases h : r < 5 <;> simp [ringHeap, Trace.id, h]
  obtain ⟨st, hst⟩ := C47_succeeds dedupOrder dedup_setOrder ringHeap ringStream (by simp [ringStream])
    (fun r _ => ⟨by simp [ringHeap], by simp [ringHeap], by simp [ringHeap], by
      by_cases h : r < 5 <;> simp [ringHeap, h]⟩)
    (fun _ _ _ _ _ => rfl) (fun _ _ => Or.inl rfl)
  have hmem := (C47_one_per_id dedupOrder dedup_setOrder ringHeap ringStream st hst).2
  obtain ⟨t, ht, hti⟩ := List.mem_map.1 ((hmem "X.A..R".toList).2 ⟨0, by simp [ringStream], by rw [hid]; rfl⟩)
  obtain ⟨t', ht', hti'⟩ := List.mem_map.1 ((hmem "X.A..T".toList).2 ⟨5, by simp [ringStream], by rw [hid]; rfl⟩)
  have hR : ∀ r ∈ ringStream, (ringHeap r).id = t.id ↔ r ∈ ofComponent ringHeap ringStream 'R' := by
    intro r hr
    rw [hid, hti, ringR]
    simp only [ringStream, List.mem_cons, List.not_mem_nil, or_false] at hr
    rcases hr with rfl | rfl | rfl | rfl | rfl | rfl | rfl | rfl | rfl | rfl <;> decide
  have hT : ∀ r ∈ ringStream, (ringHeap r).id = t'.id ↔ r ∈ ofComponent ringHeap ringStream 'T' := by
    intro r hr
    rw [hid, hti', ringT]
    simp only [ringStream, List.mem_cons, List.not_mem_nil, or_false] at hr
    rcases hr with rfl | rfl | rfl | rfl | rfl | rfl | rfl | rfl | rfl | rfl <;> decide
  refine ⟨st, t, t', hst, ht, ht', ?_, hR, hT⟩
  rw [stack_mean dedupOrder ringHeap ringStream st hst t ht 'R' 1 hR (fun _ _ => rfl), ringR]
  simp [ringHeap]
  norm_num

/-- **C168**, counterexample for two components: five events in steps of 72 degrees, all samples of R are one.  The stack of
R is one, the constant term with the default scalars is a third. -/
theorem C168_counterexample (E : LstsqEnv) (hE : LstsqOk E) (info : Str) :
    Evenly (ofComponent ringHeap ringStream 'R') (fun r => 72 * ((r % 5 : ℕ) : ℝ)) ∧
    ∃ st t out, stack dedupOrder ringHeap ringStream = .ok st ∧ t ∈ st ∧
      (∀ r ∈ ringStream, (ringHeap r).id = t.id ↔ r ∈ ofComponent ringHeap ringStream 'R') ∧
      harmonics E info hpArgs ringHeap ringStream = .ok out ∧ t.data = [1] ∧ sampleOf out 0 0 = 1 / 3 := by
  obtain ⟨st, t, t', hst, ht, ht', htd, hR, hT⟩ := ringStack
  obtain ⟨out, ho, -, -, -, hs⟩ := C168_two_components_partial E hE info hpArgs ringHeap ringStream 'R' _ _ 1 3 (3 / 10) rfl
    (Or.inl rfl) rfl (by norm_num) (by norm_num) (Or.inl rfl) (ringUsable _ (by rw [ringR]; simp))
    (ringUsable _ (by rw [ringT]; simp)) ringPaired (by
      intro r _ q _ he
      have h1 : (ringHeap r).getTime "event_time" = some ((r % 5 : ℕ) : ℝ) := rfl
      have h2 : (ringHeap q).getTime "event_time" = some ((q % 5 : ℕ) : ℝ) := rfl
      rw [h1, h2, Option.some.injEq] at he
      rw [he]) (by rw [ringR]; simp) (ringEven 'R' (Or.inl rfl)) (ringEven 'T' (Or.inr rfl)) dedupOrder st hst t t' ht ht' hR
    hT
  refine ⟨ringEven 'R' (Or.inl rfl), st, t, out, hst, ht, hR, ho, htd, ?_⟩
  have := (hs 0 (by omega)).1
  rw [htd] at this
  simp only [List.getD_cons_zero] at this
  linarith

/-- C168 for one component. -/
example : ∃ st t, stack dedupOrder ringHeap ringStream = .ok st ∧ t ∈ st ∧ ∃ const rest,
    harmonics someLstsq [] { components := ['R'], azim := 30, method := "freq".toList, scalars := none } ringHeap ringStream
      = .ok (const :: rest) ∧ const.data = t.data := by
  obtain ⟨st, t, t', hst, ht, ht', htd, hR, hT⟩ := ringStack
  exact ⟨st, t, hst, ht, C168_stack someLstsq someLstsq_ok [] _ ringHeap ringStream 'R' _ 1 rfl (Or.inl rfl) rfl
    (Or.inr ⟨rfl, by norm_num⟩) (ringUsable _ (by rw [ringR]; simp)) (by rw [ringR]; simp) (ringEven 'R' (Or.inl rfl))
    dedupOrder st hst t ht hR⟩

/-- C169: the stream with a pure cosine term and uneven directions. -/
example : ∃ out out', harmonics someLstsq [] { hpArgs with scalars := some (3, 3 / 10) } hqHeap hqStream = .ok out ∧
    harmonics someLstsq [] { hpArgs with scalars := some (1, 1) } hqHeap hqStream = .ok out' ∧
    sampleOf out 1 1 = sampleOf out' 1 1 ∧ 3 * sampleOf out 0 1 = sampleOf out' 0 1 := by
  obtain ⟨out, out', h1, h2, -, -, h3⟩ := C169_scalars someLstsq someLstsq_ok [] hpArgs hqHeap hqStream 'R' _ _ 2 3 (3 / 10) 1
    1 rfl (Or.inl rfl) ⟨by norm_num, by norm_num, by norm_num, by norm_num⟩ (Or.inl rfl) (hqUsable _ (by rw [hqR]; simp))
    (hqUsable _ (by rw [hqT]; simp)) hqPaired (by
      intro r hr q hq he
      have e1 : (hqHeap r).getTime "event_time" = some (hqEvent r : ℝ) := rfl
      have e2 : (hqHeap q).getTime "event_time" = some (hqEvent q : ℝ) := rfl
      rw [e1, e2, Option.some.injEq, Nat.cast_inj] at he
      rw [he]) hqFive
  obtain ⟨q1, -, q2⟩ := h3 1 (by omega)
  exact ⟨out, out', h1, h2, q2 1 (by omega) (by omega) (by omega), by linarith⟩

end Verif.Props
