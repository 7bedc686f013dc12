import Verif.Model.DoubleMean
import Verif.Props.Profile
import Verif.Props.StreamOps
import Verif.Spec.Linear

/-!
# Stack and profile in double precision: C204
-/

set_option linter.unusedSimpArgs false
set_option linter.unusedSectionVars false

namespace Verif.Spec

/-- Error bound after `n` roundings, relative to the sum of the absolute values. -/
def roundings (n : ℕ) : ℚ := (1 + 1 / 2 ^ 53) ^ n - 1

end Verif.Spec

namespace Verif.Props
open Verif.Py Verif.Model Verif.Model.Profile Verif.Model.DoubleMean Verif.Spec

section rounding

theorem roundings_zero : roundings 0 = 0 := by simp [roundings]

theorem roundings_succ (n : ℕ) : roundings (n + 1) = (1 + 1 / 2 ^ 53) * (1 + roundings n) - 1 := by
  unfold roundings
  rw [pow_succ]
  ring

theorem roundings_nonneg (n : ℕ) : 0 ≤ roundings n := by
  have : (1 : ℚ) ≤ (1 + 1 / 2 ^ 53) ^ n := one_le_pow₀ (by norm_num)
  unfold roundings
  linarith

theorem roundings_mono {m n : ℕ} (h : m ≤ n) : roundings m ≤ roundings n := by
  unfold roundings
  have : (1 + 1 / 2 ^ 53 : ℚ) ^ m ≤ (1 + 1 / 2 ^ 53) ^ n := pow_le_pow_right₀ (by norm_num) h
  linarith

/-- The bound in plain numbers: `n` roundings cost at most `n * 2^-52`, for up to `2^53` roundings. -/
theorem roundings_le (n : ℕ) (hn : n ≤ 2 ^ 53) : roundings n ≤ n / 2 ^ 52 := by
  have key : ∀ m : ℕ, m ≤ n → roundings m ≤ (m : ℚ) / 2 ^ 53 + (m : ℚ) ^ 2 / 2 ^ 106 := by
    intro m
    induction m with
    | zero => intro _; simp [roundings_zero]
    | succ m ih =>
      intro hm
      have h1 := ih (by omega)
      have h2 : (m : ℚ) ≤ 2 ^ 53 := by exact_mod_cast (by omega : m ≤ 2 ^ 53)
      have h0 : (0 : ℚ) ≤ m := by positivity
      rw [roundings_succ]
      push_cast
      have e : (1 + 1 / 2 ^ 53) * (1 + roundings m) - 1 = 1 / 2 ^ 53 + roundings m + roundings m / 2 ^ 53 := by ring
      rw [e]
      have h3 : roundings m / 2 ^ 53 ≤ (2 * (m : ℚ) + 1) / 2 ^ 106 := by
        have h4 : (m : ℚ) ^ 2 / 2 ^ 106 ≤ (m : ℚ) / 2 ^ 53 := by
          rw [div_le_div_iff₀ (by norm_num) (by norm_num)]
          nlinarith
        have h5 : roundings m ≤ 2 * ((m : ℚ) / 2 ^ 53) := by linarith
        calc roundings m / 2 ^ 53 ≤ 2 * ((m : ℚ) / 2 ^ 53) / 2 ^ 53 := by
              exact div_le_div_of_nonneg_right h5 (by norm_num)
          _ = 2 * (m : ℚ) / 2 ^ 106 := by ring
          _ ≤ _ := by
            apply div_le_div_of_nonneg_right _ (by norm_num)
            linarith
      have e2 : ((m : ℚ) + 1) / 2 ^ 53 + ((m : ℚ) + 1) ^ 2 / 2 ^ 106
          = 1 / 2 ^ 53 + ((m : ℚ) / 2 ^ 53 + (m : ℚ) ^ 2 / 2 ^ 106) + (2 * (m : ℚ) + 1) / 2 ^ 106 := by ring
      rw [e2]
      linarith
  have h1 := key n le_rfl
  have h2 : (n : ℚ) ≤ 2 ^ 53 := by exact_mod_cast hn
  have h0 : (0 : ℚ) ≤ n := by positivity
  have h4 : (n : ℚ) ^ 2 / 2 ^ 106 ≤ (n : ℚ) / 2 ^ 53 := by
    rw [div_le_div_iff₀ (by norm_num) (by norm_num)]
    nlinarith
  have e : (n : ℚ) / 2 ^ 52 = n / 2 ^ 53 + n / 2 ^ 53 := by ring
  rw [e]
  linarith

/-- One rounded operation on a value with known error. -/
theorem round_err (c z z64 Z : ℚ) (_hc : 0 ≤ c) (h : |z64 - z| ≤ c * Z) (hz : |z| ≤ Z) :
    |fl64 z64 - z| ≤ ((1 + 1 / 2 ^ 53) * (1 + c) - 1) * Z := by
  have h1 := fl64_rel z64
  have h2 : |z64| ≤ c * Z + Z := by
    have : |z64| ≤ |z64 - z| + |z| := by
      have := abs_add_le (z64 - z) z
      simpa using this
    linarith
  have h3 : |fl64 z64 - z| ≤ |fl64 z64 - z64| + |z64 - z| := by
    have := abs_add_le (fl64 z64 - z64) (z64 - z)
    simpa using this
  have h4 : |z64| / 2 ^ 53 ≤ (c * Z + Z) / 2 ^ 53 := div_le_div_of_nonneg_right h2 (by norm_num)
  calc |fl64 z64 - z| ≤ (c * Z + Z) / 2 ^ 53 + c * Z := by linarith
    _ = _ := by ring

theorem round_add (c x x64 X y y64 Y : ℚ) (hc : 0 ≤ c) (hx : |x64 - x| ≤ c * X) (hx' : |x| ≤ X) (hy : |y64 - y| ≤ c * Y)
    (hy' : |y| ≤ Y) :
    |fl64 (x64 + y64) - (x + y)| ≤ ((1 + 1 / 2 ^ 53) * (1 + c) - 1) * (X + Y) ∧ |x + y| ≤ X + Y := by
  have h2 : |x + y| ≤ X + Y := (abs_add_le _ _).trans (add_le_add hx' hy')
  refine ⟨round_err c _ _ _ hc ?_ h2, h2⟩
  have : x64 + y64 - (x + y) = (x64 - x) + (y64 - y) := by ring
  rw [this]
  calc _ ≤ |x64 - x| + |y64 - y| := abs_add_le _ _
    _ ≤ c * X + c * Y := add_le_add hx hy
    _ = _ := by ring

theorem round_div (c x x64 X n : ℚ) (hn : 0 < n) (hc : 0 ≤ c) (hx : |x64 - x| ≤ c * X) (hx' : |x| ≤ X) :
    |fl64 (x64 / n) - x / n| ≤ ((1 + 1 / 2 ^ 53) * (1 + c) - 1) * (X / n) ∧ |x / n| ≤ X / n := by
  have h2 : |x / n| ≤ X / n := by
    rw [abs_div, abs_of_pos hn]
    exact div_le_div_of_nonneg_right hx' hn.le
  refine ⟨round_err c _ _ _ hc ?_ h2, h2⟩
  rw [← sub_div, abs_div, abs_of_pos hn, ← mul_div_assoc]
  exact div_le_div_of_nonneg_right hx hn.le

/-- A sum in any order. -/
theorem sum64_err (x : ℕ → ℚ) (o : SumOrder) :
    |o.sum64 x - (o.rows.map x).sum| ≤ roundings o.depth * (o.rows.map fun i => |x i|).sum ∧
      |(o.rows.map x).sum| ≤ (o.rows.map fun i => |x i|).sum := by
  induction o with
  | row i => simp [SumOrder.sum64, SumOrder.rows, SumOrder.depth, roundings_zero]
  | add l r ihl ihr =>
    obtain ⟨l1, l2⟩ := ihl
    obtain ⟨r1, r2⟩ := ihr
    have hl : |l.sum64 x - (l.rows.map x).sum| ≤ roundings (max l.depth r.depth) * (l.rows.map fun i => |x i|).sum :=
      l1.trans (mul_le_mul_of_nonneg_right (roundings_mono (le_max_left _ _)) ((abs_nonneg _).trans l2))
    have hr : |r.sum64 x - (r.rows.map x).sum| ≤ roundings (max l.depth r.depth) * (r.rows.map fun i => |x i|).sum :=
      r1.trans (mul_le_mul_of_nonneg_right (roundings_mono (le_max_right _ _)) ((abs_nonneg _).trans r2))
    simp only [SumOrder.sum64, SumOrder.rows, SumOrder.depth, List.map_append, List.sum_append]
    rw [roundings_succ]
    exact round_add _ _ _ _ _ _ _ (roundings_nonneg _) hl l2 hr r2

end rounding

section stackPart

/-- An order which adds each of `n` rows once. -/
def Complete (o : ℕ → SumOrder) : Prop := ∀ n, 1 ≤ n → (o n).rows.Perm (List.range n)

theorem map_range_getD_rows (rows : List (List ℚ)) (f : List ℚ → ℚ) :
    ((List.range rows.length).map fun j => f (rows.getD j [])) = rows.map f := by
  refine List.ext_getElem (by simp) fun j h1 h2 => ?_
  simp only [List.getElem_map, List.getElem_range]
  rw [List.getD_eq_getElem _ _ (by simpa using h2)]

/-- The mean of NumPy: same exception, or same length and known error. -/
theorem npMean64_err (o : ℕ → SumOrder) (ho : Complete o) (rows : List (List ℚ)) :
    (∃ e, npMean rows = .error e ∧ npMean64 o rows = .error e) ∨
    ∃ d d64, npMean rows = .ok d ∧ npMean64 o rows = .ok d64 ∧ d64.length = d.length ∧ ∀ i < d.length,
      |d64.getD i 0 - d.getD i 0| ≤ roundings ((o rows.length).depth + 1) * meanAt (rows.map fun q => q.map abs) i := by
  cases hm : npMean rows with
  | error e =>
    left
    refine ⟨e, rfl, ?_⟩
    cases rows with
    | nil => simpa [npMean, npMean64] using hm
    | cons r rs =>
      unfold npMean at hm
      unfold npMean64
      simp only at hm ⊢
      split at hm
      · cases hm
      · rename_i hh
        rw [if_neg hh]
        exact hm
  | ok d =>
    right
    obtain ⟨m1, m2, m3⟩ := npMean_ok rows d hm
    cases rows with
    | nil => exact absurd rfl m1
    | cons r rs =>
      have hall : rs.all (fun q => q.length == r.length) = true := by
        by_contra hh
        unfold npMean at hm
        simp only at hm
        rw [if_neg hh] at hm
        cases hm
      have hlen : r.length = d.length := m2 r List.mem_cons_self
      refine ⟨d, _, rfl, by unfold npMean64; simp only; rw [if_pos hall], by simp [hlen], fun i hi => ?_⟩
      rw [List.getD_eq_getElem _ _ (by simp [hlen, hi])]
      simp only [List.getElem_map, List.getElem_range]
      rw [m3 i hi]
      unfold meanAt
      simp only [List.length_map, List.length_cons]
      set rows := r :: rs with hrows
      have hp := ho (rs.length + 1) (by omega)
      have hrl : rows.length = rs.length + 1 := rfl
      obtain ⟨h1, h2⟩ := sum64_err (fun j => (rows.getD j []).getD i 0) (o (rs.length + 1))
      have e1 : ((o (rs.length + 1)).rows.map fun j => (rows.getD j []).getD i 0).sum = (rows.map fun q => q.getD i 0).sum := by
        rw [(hp.map _).sum_eq, ← hrl]
        exact congrArg _ (map_range_getD_rows rows fun q => q.getD i 0)
      have e2 : ((o (rs.length + 1)).rows.map fun j => |(rows.getD j []).getD i 0|).sum
          = ((rows.map fun q => q.map abs).map fun q => q.getD i 0).sum := by
        rw [(hp.map _).sum_eq, ← hrl]
        rw [map_range_getD_rows rows fun q => |q.getD i 0|, List.map_map]
        congr 1
        refine List.map_congr_left fun q _ => ?_
        simp only [Function.comp, List.getD_eq_getElem?_getD, List.getElem?_map]
        cases q[i]? <;> simp
      rw [e1, e2] at h1
      rw [e1, e2] at h2
      rw [roundings_succ]
      exact (round_div _ _ _ _ ((rs.length + 1 : ℕ) : ℚ) (by positivity) (roundings_nonneg _) h1 h2).1

theorem stackOneWith_npMean (h : Heap ℚ) (s : List Nat) (tr : Trace ℚ) (ident : Str) :
    stackOneWith npMean h s tr ident = stackOne h s tr ident := by
  unfold stackOneWith stackOne
  generalize splitOn '.' ident = l
  rcases l with _ | ⟨a, _ | ⟨b, _ | ⟨c, _ | ⟨d, _ | ⟨e, l⟩⟩⟩⟩⟩ <;> try rfl
  simp only
  cases npMean ((s.filter (fun r => (h r).id = ident)).map (fun r => (h r).data)) with
  | error e => rfl
  | ok data =>
    cases tr.ext.get "onset" with
    | none => rfl
    | some v => cases v <;> rfl

theorem forall2_imp_mem {α β : Type} {R S : α → β → Prop} {a : List α} {b : List β} (h : List.Forall₂ R a b)
    (hi : ∀ x ∈ a, ∀ y, R x y → S x y) : List.Forall₂ S a b := by
  induction h with
  | nil => exact .nil
  | cons h1 _ ih => exact .cons (hi _ List.mem_cons_self _ h1) (ih fun x hx => hi x (List.mem_cons_of_mem _ hx))

/-- The traces of a stack and of the same stack in double precision. -/
def StackErr (o : ℕ → SumOrder) (h : Heap ℚ) (s : List Nat) (t t64 : Trace ℚ) : Prop :=
  SameHead t t64 ∧ ∀ i < t.data.length, |t64.data.getD i 0 - t.data.getD i 0|
    ≤ roundings ((o (s.filter fun r => (h r).id = t.id).length).depth + 1)
      * meanAt ((s.filter fun r => (h r).id = t.id).map fun r => (h r).data.map abs) i

theorem stackOne64_err (o : ℕ → SumOrder) (ho : Complete o) (h : Heap ℚ) (s : List Nat) (tr : Trace ℚ) (ident : Str) :
    (∃ e, stackOne h s tr ident = .error e ∧ stackOneWith (npMean64 o) h s tr ident = .error e) ∨
    ∃ t t64, stackOne h s tr ident = .ok t ∧ stackOneWith (npMean64 o) h s tr ident = .ok t64 ∧ StackErr o h s t t64 := by
  have hid : ∀ t, stackOne h s tr ident = .ok t → ident = t.id := fun t ht => (stackOne_ok h s tr t ident ht).1.symm
  rw [← stackOneWith_npMean] at hid ⊢
  unfold StackErr
  unfold stackOneWith at hid ⊢
  generalize splitOn '.' ident = l at hid ⊢
  rcases l with _ | ⟨net, _ | ⟨sta, _ | ⟨loc, _ | ⟨cha, _ | ⟨e, l⟩⟩⟩⟩⟩ <;> try exact .inl ⟨_, rfl, rfl⟩
  rcases npMean64_err o ho ((s.filter (fun r => (h r).id = ident)).map (fun r => (h r).data)) with
    ⟨e, h1, h2⟩ | ⟨d, d64, h1, h2, h3, h4⟩
  · exact .inl ⟨e, by simp only [h1], by simp only [h2]⟩
  · simp only [h1, h2] at hid ⊢
    cases hon : tr.ext.get "onset" with
    | none =>
      rw [hon] at hid
      have := hid _ rfl
      right
      refine ⟨_, _, rfl, rfl, ⟨rfl, h3⟩, ?_⟩
      rw [← this]
      simpa [List.map_map, Function.comp_def] using h4
    | some v =>
      cases v with
      | time t =>
        rw [hon] at hid
        have := hid _ rfl
        right
        refine ⟨_, _, rfl, rfl, ⟨rfl, h3⟩, ?_⟩
        rw [← this]
        simpa [List.map_map, Function.comp_def, Trace.put] using h4
      | num x => exact .inl ⟨_, rfl, rfl⟩
      | str x => exact .inl ⟨_, rfl, rfl⟩
      | list x => exact .inl ⟨_, rfl, rfl⟩

theorem mapM_err (f g : Str → Res (Trace ℚ)) (R : Trace ℚ → Trace ℚ → Prop)
    (h : ∀ i, (∃ e, f i = .error e ∧ g i = .error e) ∨ ∃ t t', f i = .ok t ∧ g i = .ok t' ∧ R t t') (l : List Str) :
    (∃ e, l.mapM f = .error e ∧ l.mapM g = .error e) ∨
    ∃ a b, l.mapM f = .ok a ∧ l.mapM g = .ok b ∧ List.Forall₂ R a b := by
  induction l with
  | nil => exact .inr ⟨[], [], rfl, rfl, .nil⟩
  | cons i l ih =>
    rw [List.mapM_cons, List.mapM_cons]
    rcases h i with ⟨e, h1, h2⟩ | ⟨t, t', h1, h2, hr⟩
    · exact .inl ⟨e, by rw [h1]; rfl, by rw [h2]; rfl⟩
    · rcases ih with ⟨e, h3, h4⟩ | ⟨a, b, h3, h4, hab⟩
      · exact .inl ⟨e, by rw [h1, h3]; rfl, by rw [h2, h4]; rfl⟩
      · exact .inr ⟨t :: a, t' :: b, by rw [h1, h3]; rfl, by rw [h2, h4]; rfl, .cons hr hab⟩

/-- **C204** (stack).  In double precision `stack` raises the same exception, or returns traces with the same headers, and the
samples deviate from the exact means by at most `(1 + 2^-53)^(d + 1) - 1` of the mean of the absolute values, where `d` is the
largest number of additions a row takes part in, whatever the order of the additions. -/
theorem C204_stack (o : ℕ → SumOrder) (ho : Complete o) (order : List Str → List Str) (h : Heap ℚ) (s : List Nat) :
    (∃ e, stack order h s = .error e ∧ stack64 o order h s = .error e) ∨
    ∃ out out64, stack order h s = .ok out ∧ stack64 o order h s = .ok out64 ∧ List.Forall₂ (StackErr o h s) out out64 := by
  cases s with
  | nil => exact .inl ⟨_, rfl, rfl⟩
  | cons r0 s => exact mapM_err _ _ _ (fun i => stackOne64_err o ho h (r0 :: s) (h r0) i) _

theorem depth_lt (o : SumOrder) : o.depth < o.rows.length := by
  induction o with
  | row i => simp [SumOrder.depth, SumOrder.rows]
  | add l r ihl ihr =>
    simp only [SumOrder.depth, SumOrder.rows, List.length_append]
    omega

/-- **C204** (stack, in plain numbers).  The samples of the stack of `n` traces deviate by at most `n * 2^-52` of the largest
amplitude from the exact mean. -/
theorem C204_amplitude (o : ℕ → SumOrder) (ho : Complete o) (order : List Str → List Str) (h : Heap ℚ) (s : List Nat)
    (out : List (Trace ℚ)) (hok : stack order h s = .ok out) (A : ℚ) (hA : ∀ r ∈ s, ∀ x ∈ (h r).data, |x| ≤ A)
    (hA0 : 0 ≤ A) (hs : s.length ≤ 2 ^ 53) :
    ∃ out64, stack64 o order h s = .ok out64 ∧ List.Forall₂ (fun t t64 => SameHead t t64 ∧ ∀ i < t.data.length,
      |t64.data.getD i 0 - t.data.getD i 0| ≤ (s.filter fun r => (h r).id = t.id).length / 2 ^ 52 * A) out out64 := by
  rcases C204_stack o ho order h s with ⟨e, h1, -⟩ | ⟨out', out64, h1, h2, h3⟩
  · rw [hok] at h1; cases h1
  · rw [hok] at h1
    injection h1 with h1
    subst h1
    refine ⟨out64, h2, ?_⟩
    have hmem : ∀ t ∈ out, ∃ r ∈ s, (h r).id = t.id := fun t ht => (C47_mean order h s out hok t ht).1
    refine forall2_imp_mem h3 ?_
    rintro t ht t64 ⟨g1, g2⟩
    refine ⟨g1, fun i hi => (g2 i hi).trans ?_⟩
    obtain ⟨r, hr, hrt⟩ := hmem t ht
    set l := s.filter fun r => (h r).id = t.id with hl
    have hlpos : 1 ≤ l.length := List.length_pos_of_mem (List.mem_filter.2 ⟨hr, by simpa using hrt⟩)
    have hd := depth_lt (o l.length)
    rw [(ho _ hlpos).length_eq, List.length_range] at hd
    have hls : l.length ≤ s.length := List.length_filter_le _ _
    have hr1 : roundings ((o l.length).depth + 1) ≤ (l.length : ℚ) / 2 ^ 52 :=
      (roundings_mono (by omega)).trans (roundings_le _ (by omega))
    have hmean : meanAt (l.map fun r => (h r).data.map abs) i ≤ A ∧ 0 ≤ meanAt (l.map fun r => (h r).data.map abs) i := by
      unfold meanAt
      rw [List.length_map, List.map_map]
      have hpos : (0 : ℚ) < l.length := by exact_mod_cast hlpos
      have hval : ∀ r ∈ l, 0 ≤ ((h r).data.map abs).getD i 0 ∧ ((h r).data.map abs).getD i 0 ≤ A := by
        intro r hr
        rw [List.getD_eq_getElem?_getD, List.getElem?_map]
        cases hx : (h r).data[i]? with
        | none => simpa using hA0
        | some x => exact ⟨abs_nonneg _, hA r (List.mem_filter.1 hr).1 x (List.mem_of_getElem? hx)⟩
      constructor
      · rw [div_le_iff₀ hpos]
        clear_value l
        clear hd hls hr1 hpos hlpos g2 hl
        induction l with
        | nil => simp
        | cons q l ih =>
          have h1 := ih fun r hr => hval r (List.mem_cons_of_mem _ hr)
          have h2 := (hval q List.mem_cons_self).2
          simp only [List.map_cons, List.sum_cons, List.length_cons, Function.comp] at h1 ⊢
          push_cast
          linarith
      · refine div_nonneg (List.sum_nonneg ?_) hpos.le
        intro x hx
        obtain ⟨r, hr, rfl⟩ := List.mem_map.1 hx
        exact (hval r hr).1
    exact mul_le_mul hr1 hmean.1 hmean.2 (by positivity)

end stackPart

section profilePart
variable (within : ℚ × ℚ → List (ℚ × ℚ) → Bool) (boxes : List (Box ℚ)) (crs : Bool)

/-- The trace with the absolute values of the samples. -/
def absTrace (t : Trace ℚ) : Trace ℚ :=
  { net := t.net, sta := t.sta, loc := t.loc, cha := t.cha, start := t.start, sr := t.sr, data := t.data.map abs, ext := t.ext }

/-- Rounded values, exact values and bounds of these. -/
def Tri (c : ℚ) (a64 a aA : List ℚ) : Prop :=
  ∃ l : List (ℚ × ℚ × ℚ), a64 = l.map (fun t => t.1) ∧ a = l.map (fun t => t.2.1) ∧ aA = l.map (fun t => t.2.2) ∧
    ∀ t ∈ l, |t.1 - t.2.1| ≤ c * t.2.2 ∧ |t.2.1| ≤ t.2.2

theorem tri_self (b : List ℚ) : Tri 0 b b (b.map abs) :=
  ⟨b.map fun x => (x, x, |x|), by simp [Function.comp_def], by simp [Function.comp_def], by simp [Function.comp_def], by simp⟩

/-- Relation of three results. -/
def Same3 {α : Type} (R : α → α → α → Prop) (x y z : Res α) : Prop :=
  (∃ e, x = .error e ∧ y = .error e ∧ z = .error e) ∨ ∃ a b c, x = .ok a ∧ y = .ok b ∧ z = .ok c ∧ R a b c

theorem npAdd64_err (c : ℚ) (hc : 0 ≤ c) (a64 a aA b : List ℚ) (h : Tri c a64 a aA) :
    Same3 (Tri ((1 + 1 / 2 ^ 53) * (1 + c) - 1)) (npAdd64 a64 b) (npAdd a b) (npAdd aA (b.map abs)) := by
  obtain ⟨l, rfl, rfl, rfl, hl⟩ := h
  have hb : ∀ x y : ℚ × ℚ × ℚ, (|x.1 - x.2.1| ≤ c * x.2.2 ∧ |x.2.1| ≤ x.2.2) → ∀ y : ℚ,
      |fl64 (x.1 + y) - (x.2.1 + y)| ≤ ((1 + 1 / 2 ^ 53) * (1 + c) - 1) * (x.2.2 + |y|) ∧ |x.2.1 + y| ≤ x.2.2 + |y| :=
    fun x _ hx y => round_add c _ _ _ _ _ _ hc hx.1 hx.2 (by simpa using mul_nonneg hc (abs_nonneg y)) le_rfl
  unfold npAdd64 npAdd
  simp only [List.length_map]
  by_cases hlen : l.length = b.length
  · simp only [hlen, if_true]
    right
    refine ⟨_, _, _, rfl, rfl, rfl, List.zipWith (fun t y => (fl64 (t.1 + y), t.2.1 + y, t.2.2 + |y|)) l b, ?_, ?_, ?_, ?_⟩
    · rw [List.map_zipWith, List.zipWith_map_left]
    · rw [List.map_zipWith, List.zipWith_map_left]
    · rw [List.map_zipWith, List.zipWith_map]
    · intro t ht
      rw [← List.map_uncurry_zip_eq_zipWith, List.mem_map] at ht
      obtain ⟨p, hp, rfl⟩ := ht
      exact hb p.1 p.1 (hl _ (List.of_mem_zip hp).1) p.2
  · simp only [hlen, if_false]
    rcases l with _ | ⟨t, _ | ⟨t', l⟩⟩
    · rcases b with _ | ⟨y, _ | ⟨y', b⟩⟩
      · exact absurd rfl hlen
      · right
        exact ⟨_, _, _, rfl, rfl, rfl, [], rfl, rfl, rfl, by simp⟩
      · exact .inl ⟨_, rfl, rfl, rfl⟩
    · right
      refine ⟨_, _, _, rfl, rfl, rfl, b.map fun y => (fl64 (t.1 + y), t.2.1 + y, t.2.2 + |y|), ?_, ?_, ?_, ?_⟩
      · simp [Function.comp_def]
      · simp [Function.comp_def]
      · simp [Function.comp_def]
      · intro u hu
        obtain ⟨y, -, rfl⟩ := List.mem_map.1 hu
        exact hb t t (hl t (by simp)) y
    · rcases b with _ | ⟨y, _ | ⟨y', b⟩⟩
      · exact .inl ⟨_, rfl, rfl, rfl⟩
      · right
        refine ⟨_, _, _, rfl, rfl, rfl, (t :: t' :: l).map fun u => (fl64 (u.1 + y), u.2.1 + y, u.2.2 + |y|), ?_, ?_, ?_, ?_⟩
        · simp [Function.comp_def]
        · simp [Function.comp_def]
        · simp [Function.comp_def]
        · intro u hu
          obtain ⟨v, hv, rfl⟩ := List.mem_map.1 hu
          exact hb v v (hl v hv) y
      · exact .inl ⟨_, rfl, rfl, rfl⟩

/-- A profile trace of `n + 1` traces. -/
structure TraceErr (n : ℕ) (t64 t tA : Trace ℚ) : Prop where
  head64 : t64 = { t with data := t64.data }
  headA : tA = { t with data := tA.data }
  num : t.ext.get "num" = some (.num ((n + 1 : ℕ) : ℚ))
  data : Tri (roundings n) t64.data t.data tA.data

theorem getNum_of_get (t : Trace ℚ) (k : String) (x : ℚ) (h : t.ext.get k = some (.num x)) : t.getNum k = some x := by
  unfold Trace.getNum
  rw [h]

theorem addTrace64_err (n : ℕ) (t64 t tA u : Trace ℚ) (h : TraceErr n t64 t tA) :
    Same3 (TraceErr (n + 1)) (addTrace64 t64 u) (addTrace t u) (addTrace tA (absTrace u)) := by
  obtain ⟨h64, hA, hn, hd⟩ := h
  have g : t.getNum "num" = some ((n + 1 : ℕ) : ℚ) := getNum_of_get _ _ _ hn
  have g64 : t64.getNum "num" = some ((n + 1 : ℕ) : ℚ) := by rw [h64]; exact g
  have gA : tA.getNum "num" = some ((n + 1 : ℕ) : ℚ) := by rw [hA]; exact g
  unfold addTrace64 addTrace
  rcases npAdd64_err _ (roundings_nonneg n) t64.data t.data tA.data u.data hd with ⟨e, a1, a2, a3⟩ | ⟨d64, d, dA, a1, a2, a3, a4⟩
  · left
    have a3' : npAdd tA.data (absTrace u).data = .error e := a3
    exact ⟨e, by rw [a1], by rw [a2], by rw [a3']⟩
  · right
    have a3' : npAdd tA.data (absTrace u).data = .ok dA := a3
    refine ⟨_, _, _, by rw [a1, g64], by rw [a2, g], by rw [a3', gA], ?_, ?_, ?_, ?_⟩
    · rw [h64]; rfl
    · rw [hA]; rfl
    · show (t.ext.set "num" _).get "num" = _
      rw [Dict.get_set_self]
      push_cast
      rfl
    · show Tri _ d64 d dA
      rw [roundings_succ]
      exact a4

/-- The three runs of the loop. -/
structure LoopErr (n0 : ℕ) (s64 s sA : PState ℚ) : Prop where
  stack64 : s64.stack = s.stack
  stackA : sA.stack = s.stack
  next64 : s64.next = s.next
  nextA : sA.next = s.next
  ge : n0 ≤ s.next
  in64 : ∀ r < n0, s64.heap r = s.heap r
  inA : ∀ r < n0, sA.heap r = absTrace (s.heap r)
  range : ∀ e ∈ s.stack, n0 ≤ e.2 ∧ e.2 < s.next
  nodup : (s.stack.map Prod.snd).Nodup
  err : ∀ e ∈ s.stack, ∃ n, TraceErr n (s64.heap e.2) (s.heap e.2) (sA.heap e.2)

theorem newTrace_abs (box : Box ℚ) (comp : Char) (t : Trace ℚ) :
    (∃ e, newTrace boxes box comp t = .error e ∧ newTrace boxes box comp (absTrace t) = .error e) ∨
    ∃ t2, newTrace boxes box comp t = .ok t2 ∧
      newTrace boxes box comp (absTrace t) = .ok { t2 with data := t.data.map abs } ∧ t2.data = t.data ∧
      t2.ext.get "num" = some (.num ((0 + 1 : ℕ) : ℚ)) := by
  unfold newTrace
  cases boxes with
  | nil => exact .inl ⟨_, rfl, rfl⟩
  | cons b0 bs =>
    simp only
    cases b0.profile with
    | none => exact .inl ⟨_, rfl, rfl⟩
    | some pr =>
      simp only
      have he : (absTrace t).ext.get "onset" = t.ext.get "onset" := rfl
      rw [he]
      cases t.ext.get "onset" with
      | none =>
        refine .inr ⟨_, rfl, rfl, rfl, ?_⟩
        simp [Dict.get]
      | some v =>
        cases v with
        | time o =>
          refine .inr ⟨_, rfl, rfl, rfl, ?_⟩
          simp only [Trace.put]
          rw [show ∀ (d : Dict (Val ℚ)) (v : Val ℚ), (d.set "onset" v).get "num" = d.get "num" from
            fun d v => Dict.get_set_ne d v (by decide)]
          simp [Dict.get]
        | num x => exact .inl ⟨_, rfl, rfl⟩
        | str x => exact .inl ⟨_, rfl, rfl⟩
        | list x => exact .inl ⟨_, rfl, rfl⟩

theorem step_err (n0 : ℕ) (s64 s sA : PState ℚ) (h : LoopErr n0 s64 s sA) (r : ℕ) (hr : r < n0) :
    Same3 (LoopErr n0) (stepWith addTrace64 within boxes crs s64 r) (step within boxes crs s r)
      (step within boxes crs sA r) := by
  have e64 := h.in64 r hr
  have eA := h.inA r hr
  unfold stepWith step
  simp only
  rw [e64, eA, h.stack64, h.stackA, h.next64, h.nextA]
  have p1 : piercingPoint (absTrace (s.heap r)) = piercingPoint (s.heap r) := rfl
  have p2 : (absTrace (s.heap r)).comp = (s.heap r).comp := rfl
  rw [p1, p2]
  cases piercingPoint (s.heap r) with
  | error e => exact .inl ⟨_, rfl, rfl, rfl⟩
  | ok p =>
    simp only
    cases findBox within boxes crs p with
    | error e => exact .inl ⟨_, rfl, rfl, rfl⟩
    | ok b =>
      cases b with
      | none => exact .inr ⟨_, _, _, rfl, rfl, rfl, h⟩
      | some box =>
        simp only
        cases (s.heap r).comp with
        | none => exact .inl ⟨_, rfl, rfl, rfl⟩
        | some comp =>
          simp only
          cases hlk : lookup s.stack (box.pos, comp) with
          | none =>
            simp only
            rcases newTrace_abs boxes box comp (s.heap r) with ⟨e, a1, a2⟩ | ⟨t2, a1, a2, a3, a4⟩
            · rw [a1, a2]
              exact .inl ⟨_, rfl, rfl, rfl⟩
            · rw [a1, a2]
              right
              refine ⟨_, _, _, rfl, rfl, rfl, ?_⟩
              constructor
              · rfl
              · rfl
              · rfl
              · rfl
              · have := h.ge; simp only; omega
              · intro q hq
                have := h.ge
                simp only
                rw [Heap.set_ne _ _ (by omega), Heap.set_ne _ _ (by omega)]
                exact h.in64 q hq
              · intro q hq
                have := h.ge
                simp only
                rw [Heap.set_ne _ _ (by omega), Heap.set_ne _ _ (by omega)]
                exact h.inA q hq
              · intro e he
                simp only at he ⊢
                rcases List.mem_append.1 he with he | he
                · have := h.range e he; omega
                · rw [List.mem_singleton] at he; subst he
                  have := h.ge
                  simp only
                  omega
              · simp only [List.map_append, List.map_cons, List.map_nil]
                rw [List.nodup_append]
                refine ⟨h.nodup, List.nodup_singleton _, ?_⟩
                intro a ha b hb
                rw [List.mem_singleton] at hb
                obtain ⟨e, he, rfl⟩ := List.mem_map.1 ha
                have := h.range e he
                omega
              · intro e he
                simp only at he ⊢
                rcases List.mem_append.1 he with he | he
                · have := h.range e he
                  rw [Heap.set_ne _ _ (by omega), Heap.set_ne _ _ (by omega), Heap.set_ne _ _ (by omega)]
                  exact h.err e he
                · rw [List.mem_singleton] at he; subst he
                  simp only [Heap.set_self]
                  refine ⟨0, rfl, rfl, a4, ?_⟩
                  rw [roundings_zero, a3]
                  exact tri_self _
          | some q =>
            simp only
            have hmem := lookup_some _ _ _ hlk
            obtain ⟨n, hn⟩ := h.err _ hmem
            simp only at hn
            rcases addTrace64_err n _ _ _ (s.heap r) hn with ⟨e, a1, a2, a3⟩ | ⟨x64, x, xA, a1, a2, a3, a4⟩
            · rw [a1, a2, a3]
              exact .inl ⟨_, rfl, rfl, rfl⟩
            · rw [a1, a2, a3]
              right
              refine ⟨_, _, _, rfl, rfl, rfl, ?_⟩
              have hq := (h.range _ hmem).1
              simp only at hq
              constructor
              · rfl
              · rfl
              · rfl
              · rfl
              · exact h.ge
              · intro p hp
                simp only
                rw [Heap.set_ne _ _ (by omega), Heap.set_ne _ _ (by omega)]
                exact h.in64 p hp
              · intro p hp
                simp only
                rw [Heap.set_ne _ _ (by omega), Heap.set_ne _ _ (by omega)]
                exact h.inA p hp
              · exact h.range
              · exact h.nodup
              · intro e he
                simp only
                by_cases hek : e.2 = q
                · rw [hek]
                  simp only [Heap.set_self]
                  exact ⟨n + 1, a4⟩
                · rw [Heap.set_ne _ _ hek, Heap.set_ne _ _ hek, Heap.set_ne _ _ hek]
                  exact h.err e he

theorem loop_err (n0 : ℕ) (l : List ℕ) : ∀ (s64 s sA : PState ℚ), LoopErr n0 s64 s sA → (∀ r ∈ l, r < n0) →
    Same3 (LoopErr n0) (loop64 within boxes crs s64 l) (loop within boxes crs s l) (loop within boxes crs sA l) := by
  induction l with
  | nil => intro s64 s sA h _; exact .inr ⟨_, _, _, rfl, rfl, rfl, h⟩
  | cons r l ih =>
    intro s64 s sA h hl
    unfold loop64 loop
    rcases step_err within boxes crs n0 s64 s sA h r (hl r List.mem_cons_self) with ⟨e, a1, a2, a3⟩ | ⟨x64, x, xA, a1, a2, a3, a4⟩
    · rw [a1, a2, a3]
      exact .inl ⟨_, rfl, rfl, rfl⟩
    · rw [a1, a2, a3]
      exact ih _ _ _ a4 fun q hq => hl q (List.mem_cons_of_mem _ hq)

theorem sortProfile_congr (h h' : Heap ℚ) (l : List ℕ)
    (hh : ∀ r ∈ l, (h' r).getNum "box_pos" = (h r).getNum "box_pos" ∧ (h' r).cha = (h r).cha) :
    sortProfile h' l = sortProfile h l := by
  unfold sortProfile
  have h1 := List.map_insertionSort (fun a b => ((h' a).getNum "box_pos").getD 0 ≤ ((h' b).getNum "box_pos").getD 0)
    (fun a b => ((h a).getNum "box_pos").getD 0 ≤ ((h b).getNum "box_pos").getD 0)
    (fun r : ℕ => r) l (fun a ha b hb => by rw [(hh a ha).1, (hh b hb).1])
  simp only [List.map_id'] at h1
  rw [h1]
  have h2 := List.map_insertionSort (fun a b => (h' a).cha ≤ (h' b).cha) (fun a b => (h a).cha ≤ (h b).cha)
    (fun r : ℕ => r) (l.insertionSort fun a b => ((h a).getNum "box_pos").getD 0 ≤ ((h b).getNum "box_pos").getD 0)
    (fun a ha b hb => by rw [(hh a ((List.mem_insertionSort _).1 ha)).2, (hh b ((List.mem_insertionSort _).1 hb)).2])
  simpa using h2

theorem divide_err (n : ℕ) (t64 t tA : Trace ℚ) (h : TraceErr n t64 t tA) :
    divide64 t64 = { divide t with data := (divide64 t64).data } ∧
    Tri (roundings (n + 1)) (divide64 t64).data (divide t).data (divide tA).data := by
  obtain ⟨h64, hA, hn, hd⟩ := h
  have g : t.getNum "num" = some ((n + 1 : ℕ) : ℚ) := getNum_of_get _ _ _ hn
  have g64 : t64.getNum "num" = some ((n + 1 : ℕ) : ℚ) := by rw [h64]; exact g
  have gA : tA.getNum "num" = some ((n + 1 : ℕ) : ℚ) := by rw [hA]; exact g
  constructor
  · unfold divide64 divide
    rw [h64]
  · obtain ⟨l, e1, e2, e3, hl⟩ := hd
    unfold divide64 divide
    simp only [g, g64, gA, Option.getD_some, e1, e2, e3, List.map_map]
    refine ⟨l.map fun u => (fl64 (u.1 / ((n + 1 : ℕ) : ℚ)), u.2.1 / ((n + 1 : ℕ) : ℚ), u.2.2 / ((n + 1 : ℕ) : ℚ)), ?_, ?_, ?_, ?_⟩
    · simp [Function.comp_def]
    · simp [Function.comp_def]
    · simp [Function.comp_def]
    · intro u hu
      obtain ⟨v, hv, rfl⟩ := List.mem_map.1 hu
      rw [roundings_succ]
      exact round_div _ _ _ _ _ (by positivity) (roundings_nonneg n) (hl v hv).1 (hl v hv).2

theorem tri_getD {c : ℚ} {a64 a aA : List ℚ} (h : Tri c a64 a aA) :
    a64.length = a.length ∧ ∀ i < a.length, |a64.getD i 0 - a.getD i 0| ≤ c * aA.getD i 0 := by
  obtain ⟨l, rfl, rfl, rfl, hl⟩ := h
  refine ⟨by simp, fun i hi => ?_⟩
  rw [List.length_map] at hi
  rw [List.getD_eq_getElem _ _ (by simpa using hi), List.getD_eq_getElem _ _ (by simpa using hi),
    List.getD_eq_getElem _ _ (by simpa using hi), List.getElem_map, List.getElem_map, List.getElem_map]
  exact (hl _ (List.getElem_mem hi)).1

/-- The three runs of `profile`. -/
theorem profile_err (h : Heap ℚ) (s : List ℕ) (next : ℕ) (hs : ∀ r ∈ s, r < next) :
    Same3 (fun a b c => a.2 = b.2 ∧ c.2 = b.2 ∧ ∀ q ∈ b.2, a.1 q = { b.1 q with data := (a.1 q).data } ∧
        c.1 q = { b.1 q with data := (c.1 q).data } ∧
        ∃ n : ℕ, (b.1 q).ext.get "num" = some (.num ((n + 1 : ℕ) : ℚ)) ∧
          Tri (roundings (n + 1)) (a.1 q).data (b.1 q).data (c.1 q).data)
      (profile64 within boxes crs h s next) (profile within boxes crs h s next)
      (profile within boxes crs (fun r => absTrace (h r)) s next) := by
  have h0 : LoopErr next ⟨h, [], next⟩ ⟨h, [], next⟩ ⟨fun r => absTrace (h r), [], next⟩ :=
    ⟨rfl, rfl, rfl, rfl, le_rfl, fun _ _ => rfl, fun _ _ => rfl, by simp, by simp, by simp⟩
  unfold profile64 profile
  rcases loop_err within boxes crs next s _ _ _ h0 hs with ⟨e, a1, a2, a3⟩ | ⟨x64, x, xA, a1, a2, a3, a4⟩
  · rw [a1, a2, a3]
    exact .inl ⟨_, rfl, rfl, rfl⟩
  · rw [a1, a2, a3]
    right
    simp only
    rw [a4.stack64, a4.stackA]
    set refs := x.stack.map Prod.snd with hrefs
    have hnd : refs.Nodup := a4.nodup
    have hin : ∀ q ∈ refs, ∃ n, TraceErr n (x64.heap q) (x.heap q) (xA.heap q) := by
      intro q hq
      obtain ⟨e, he, rfl⟩ := List.mem_map.1 hq
      exact a4.err e he
    have e64 : ∀ q ∈ refs, Heap.forEach divide64 x64.heap refs q = divide64 (x64.heap q) := fun q hq =>
      Heap.forEach_mem _ _ _ _ hnd hq
    have eE : ∀ q ∈ refs, Heap.forEach divide x.heap refs q = divide (x.heap q) := fun q hq =>
      Heap.forEach_mem _ _ _ _ hnd hq
    have eA : ∀ q ∈ refs, Heap.forEach divide xA.heap refs q = divide (xA.heap q) := fun q hq =>
      Heap.forEach_mem _ _ _ _ hnd hq
    have s64 : sortProfile (Heap.forEach divide64 x64.heap refs) refs = sortProfile (Heap.forEach divide x.heap refs) refs :=
      sortProfile_congr _ _ _ fun q hq => by
        obtain ⟨n, hn⟩ := hin q hq
        rw [e64 q hq, eE q hq, (divide_err n _ _ _ hn).1]
        exact ⟨rfl, rfl⟩
    have sA : sortProfile (Heap.forEach divide xA.heap refs) refs = sortProfile (Heap.forEach divide x.heap refs) refs :=
      sortProfile_congr _ _ _ fun q hq => by
        obtain ⟨n, hn⟩ := hin q hq
        rw [eA q hq, eE q hq, hn.headA]
        exact ⟨rfl, rfl⟩
    refine ⟨_, _, _, rfl, rfl, rfl, s64, sA, ?_⟩
    intro q hq
    have hq' := hq
    simp only at hq hq' ⊢
    have hperm : (sortProfile (Heap.forEach divide x.heap refs) refs).Perm refs :=
      (List.perm_insertionSort _ _).trans (List.perm_insertionSort _ _)
    have hqr : q ∈ refs := hperm.mem_iff.1 hq
    have hnd' := hperm.nodup_iff.2 hnd
    obtain ⟨n, hn⟩ := hin q hqr
    obtain ⟨d1, d2⟩ := divide_err n _ _ _ hn
    have dA : divide (xA.heap q) = { divide (x.heap q) with data := (divide (xA.heap q)).data } := by
      rw [hn.headA]; rfl
    rw [s64, sA, Heap.forEach_mem _ _ _ _ hnd' hq, Heap.forEach_mem _ _ _ _ hnd' hq, Heap.forEach_mem _ _ _ _ hnd' hq,
      e64 q hqr, eE q hqr, eA q hqr]
    refine ⟨?_, ?_, n, ?_, d2⟩
    · conv_lhs => rw [d1]
      rfl
    · conv_lhs => rw [dA]
      rfl
    · show ((x.heap q).ext.set "type" _).get "num" = _
      rw [Dict.get_set_ne _ _ (by decide)]
      exact hn.num

/-- **C204** (profile).  In double precision `profile` raises the same exception, or returns traces with the same headers in
the same order, and the samples deviate from the exact means by at most `(1 + 2^-53)^n - 1` of the mean of the absolute
values, where `n` is the number of traces in the box. -/
theorem C204_profile (h : Heap ℚ) (s : List ℕ) (next : ℕ) (hs : ∀ r ∈ s, r < next)
    (hlen : ∀ r ∈ s, ∀ q ∈ s, binOf (boxSets within boxes) (h r) = binOf (boxSets within boxes) (h q) →
      (h r).data.length = (h q).data.length) :
    (∃ e, profile within boxes crs h s next = .error e ∧ profile64 within boxes crs h s next = .error e) ∨
    ∃ (h1 h64 : Heap ℚ) (l : List ℕ), profile within boxes crs h s next = .ok (h1, l) ∧
      profile64 within boxes crs h s next = .ok (h64, l) ∧
      ∀ q ∈ l, SameHead (h1 q) (h64 q) ∧ ∀ k, HasBin (h1 q) k → ∀ i < (h1 q).data.length,
        |(h64 q).data.getD i 0 - (h1 q).data.getD i 0| ≤ roundings (binMembers (boxSets within boxes) h s k).length *
          meanAt ((binMembers (boxSets within boxes) h s k).map fun r => (h r).data.map abs) i := by
  rcases profile_err within boxes crs h s next hs with ⟨e, a1, a2, -⟩ | ⟨⟨h64, l64⟩, ⟨h1, l⟩, ⟨hA, lA⟩, a1, a2, a3, a4, a5, a6⟩
  · exact .inl ⟨e, a2, a1⟩
  · simp only at a4 a5 a6
    subst a4 a5
    refine .inr ⟨h1, h64, _, a2, a1, fun q hq => ?_⟩
    obtain ⟨b1, b2, n, b3, b4⟩ := a6 q hq
    obtain ⟨c1, c2⟩ := tri_getD b4
    refine ⟨⟨b1, c1⟩, fun k hk i hi => ?_⟩
    obtain ⟨m1, m2⟩ := C50_mean within boxes crs h h1 s _ next hs a2 q hq k hk
    have hn : n + 1 = (binMembers (boxSets within boxes) h s k).length := by
      rw [b3] at m1
      injection m1 with m1
      injection m1 with m1
      exact_mod_cast m1
    have hmem : ∀ r ∈ binMembers (boxSets within boxes) h s k, r ∈ s ∧ binOf (boxSets within boxes) (h r) = some k :=
      fun r hr => ⟨(List.mem_filter.1 hr).1, by simpa using (List.mem_filter.1 hr).2⟩
    obtain ⟨r0, hr0⟩ := List.exists_mem_of_length_pos (l := binMembers (boxSets within boxes) h s k) (by omega)
    have hL : ∀ r ∈ binMembers (boxSets within boxes) h s k, (h r).data.length = (h r0).data.length := fun r hr =>
      hlen r (hmem r hr).1 r0 (hmem r0 hr0).1 ((hmem r hr).2.trans (hmem r0 hr0).2.symm)
    obtain ⟨p1, -⟩ := m2 _ hL
    have hkA : HasBin (hA q) k := by rw [b2]; exact hk
    have hmA : binMembers (boxSets within boxes) (fun r => absTrace (h r)) s k = binMembers (boxSets within boxes) h s k := rfl
    obtain ⟨-, m3⟩ := C50_mean within boxes crs (fun r => absTrace (h r)) hA s _ next hs a3 q hq k hkA
    rw [hmA] at m3
    obtain ⟨-, p2⟩ := m3 (h r0).data.length fun r hr => by
      show ((h r).data.map abs).length = _
      rw [List.length_map]
      exact hL r hr
    have := c2 i hi
    rw [p2 i (by omega), hn] at this
    exact this

end profilePart

section examples204

/-- NumPy's plain order. -/
def plainOrder (n : ℕ) : SumOrder := SumOrder.oneByOne (n - 1)

theorem oneByOne_rows (n : ℕ) : (SumOrder.oneByOne n).rows = List.range (n + 1) := by
  induction n with
  | zero => rfl
  | succ n ih => rw [SumOrder.oneByOne, SumOrder.rows, ih, SumOrder.rows, List.range_succ (n := n + 1)]

theorem plain_complete : Complete plainOrder := by
  intro n hn
  unfold plainOrder
  rw [oneByOne_rows, Nat.sub_add_cancel hn]

/-- Three traces of one station with samples `1`, `2^-53` and `2^-53`. -/
def meanHeap : Heap ℚ := fun r =>
  ⟨"N".toList, "S".toList, [], "Q".toList, 0, 1, [if r = 0 then 1 else 1 / 9007199254740992, 3],
    [("onset", .time 1), ("pp_latitude", .num (1/2)), ("pp_longitude", .num 0)]⟩

/-- The small samples are lost if they are added to the large one one after the other, but not if they are added first. -/
example : ((stack64 plainOrder List.dedup meanHeap [0, 1, 2]).toOption.map fun o => o.map (·.data))
      = some [[fl64 (1 / 3), 3]] ∧
    ((stack64 (fun n => if n = 3 then .add (.row 0) (.add (.row 1) (.row 2)) else plainOrder n) List.dedup meanHeap [0, 1, 2]).toOption.map
      fun o => o.map (·.data)) = some [[fl64 ((1 + 1 / 4503599627370496) / 3), 3]] ∧
    fl64 (1 / 3) ≠ fl64 ((1 + 1 / 4503599627370496) / 3) ∧
    ((stack List.dedup meanHeap [0, 1, 2]).toOption.map fun o => o.map (·.data)) = some [[(1 + 1 / 4503599627370496) / 3, 3]] := by
  decide +kernel

example : ∃ out64, stack64 plainOrder List.dedup meanHeap [0, 1, 2] = .ok out64 := by
  have hok : ∃ out, stack List.dedup meanHeap [0, 1, 2] = .ok out := ⟨_, rfl⟩
  obtain ⟨out, hok⟩ := hok
  obtain ⟨o, h, -⟩ := C204_amplitude plainOrder plain_complete List.dedup meanHeap [0, 1, 2] out hok 3 (by decide +kernel) (by norm_num)
    (by norm_num)
  exact ⟨o, h⟩

example : ((profile64 exWithin exBoxes false meanHeap [0, 1, 2] 3).toOption.map fun o => o.2.map fun q => (o.1 q).data)
      = some [[fl64 (1 / 3), 3]] ∧
    ((profile exWithin exBoxes false meanHeap [0, 1, 2] 3).toOption.map fun o => o.2.map fun q => (o.1 q).data)
      = some [[(1 + 1 / 4503599627370496) / 3, 3]] := by
  decide +kernel

/-- The hypothesis of `C204_profile` holds. -/
example : ∀ r ∈ [0, 1, 2], ∀ q ∈ [0, 1, 2], binOf (boxSets exWithin exBoxes) (meanHeap r) =
    binOf (boxSets exWithin exBoxes) (meanHeap q) → (meanHeap r).data.length = (meanHeap q).data.length :=
  fun _ _ _ _ _ => rfl

end examples204

end Verif.Props
