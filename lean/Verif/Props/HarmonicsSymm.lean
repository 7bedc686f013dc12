import Verif.Props.HarmonicsExact

/-!
# Harmonic decomposition: rotation (C73), time and frequency method (C74)
-/

set_option linter.unusedSimpArgs false
set_option linter.unusedSectionVars false

namespace Verif.Props
open Verif.Py Verif.Model Verif.Model.Harmonics Verif.Spec Finset

/-! ### Rotation -/

/-- The constants stay, the first order pairs are rotated by `δ`, the second order pairs by `2 δ`. -/
noncomputable def rotated (δ : ℝ) (y : ℕ → ℝ) (j : ℕ) : ℝ :=
  match j % 5 with
  | 0 => y j
  | 1 => Real.cos δ * y j + Real.sin δ * y (j + 1)
  | 2 => -Real.sin δ * y (j - 1) + Real.cos δ * y j
  | 3 => Real.cos (2 * δ) * y j + Real.sin (2 * δ) * y (j + 1)
  | _ => -Real.sin (2 * δ) * y (j - 1) + Real.cos (2 * δ) * y j

theorem rotated_inv (δ : ℝ) (y : ℕ → ℝ) : ∀ j < 10, rotated δ (rotated (-δ) y) j = y j := by
  have h1 := Real.sin_sq_add_cos_sq δ
  have h2 := Real.sin_sq_add_cos_sq (2 * δ)
  intro j hj
  interval_cases j <;>
    simp only [rotated, Real.cos_neg, Real.sin_neg, mul_neg, Nat.reduceMod, Nat.reduceAdd, Nat.reduceSub] <;>
    first
    | linear_combination (y 1) * h1
    | linear_combination (y 2) * h1
    | linear_combination (y 6) * h1
    | linear_combination (y 7) * h1
    | linear_combination (y 3) * h2
    | linear_combination (y 4) * h2
    | linear_combination (y 8) * h2
    | linear_combination (y 9) * h2

theorem rotated_sumSq5 (δ : ℝ) (y : ℕ → ℝ) : sumSq 5 (rotated δ y) = sumSq 5 y := by
  have h1 := Real.sin_sq_add_cos_sq δ
  have h2 := Real.sin_sq_add_cos_sq (2 * δ)
  simp only [sumSq, sum_range_succ, sum_range_zero, Real.norm_eq_abs, sq_abs, rotated, Nat.reduceMod, Nat.reduceAdd,
    Nat.reduceSub, Nat.zero_mod]
  linear_combination (y 1 ^ 2 + y 2 ^ 2) * h1 + (y 3 ^ 2 + y 4 ^ 2) * h2

theorem rotated_sumSq10 (δ : ℝ) (y : ℕ → ℝ) : sumSq 10 (rotated δ y) = sumSq 10 y := by
  have h1 := Real.sin_sq_add_cos_sq δ
  have h2 := Real.sin_sq_add_cos_sq (2 * δ)
  simp only [sumSq, sum_range_succ, sum_range_zero, Real.norm_eq_abs, sq_abs, rotated, Nat.reduceMod, Nat.reduceAdd,
    Nat.reduceSub, Nat.zero_mod]
  linear_combination (y 1 ^ 2 + y 2 ^ 2 + y 6 ^ 2 + y 7 ^ 2) * h1 + (y 3 ^ 2 + y 4 ^ 2 + y 8 ^ 2 + y 9 ^ 2) * h2

theorem radians_shift (b azim d : ℝ) : radians (b - azim) = radians (b - (azim + d)) + radians d := by
  unfold radians
  ring

theorem rowOne_rotated (azim d b : ℝ) (y : ℕ → ℝ) :
    ∑ j ∈ range 5, (rowOne (azim + d) b).getD j 0 * rotated (radians d) y j =
      ∑ j ∈ range 5, (rowOne azim b).getD j 0 * y j := by
  rw [rowOne_dot, rowOne_dot, radians_shift b azim d, mul_add]
  simp only [Real.cos_add, Real.sin_add, rotated, Nat.reduceMod, Nat.reduceAdd, Nat.reduceSub, Nat.zero_mod]
  ring

theorem rowR_rotated (s0 azim d b : ℝ) (y : ℕ → ℝ) :
    ∑ j ∈ range 10, (rowR s0 (azim + d) b).getD j 0 * rotated (radians d) y j =
      ∑ j ∈ range 10, (rowR s0 azim b).getD j 0 * y j := by
  rw [rowR_dot, rowR_dot, radians_shift b azim d, mul_add]
  simp only [Real.cos_add, Real.sin_add, rotated, Nat.reduceMod, Nat.reduceAdd, Nat.reduceSub, Nat.zero_mod]
  ring

theorem rowT_rotated (s1 azim d b : ℝ) (y : ℕ → ℝ) :
    ∑ j ∈ range 10, (rowT s1 (azim + d) b).getD j 0 * rotated (radians d) y j =
      ∑ j ∈ range 10, (rowT s1 azim b).getD j 0 * y j := by
  rw [rowT_dot, rowT_dot, radians_shift b azim d, mul_add]
  simp only [Real.cos_add, Real.sin_add, rotated, Nat.reduceMod, Nat.reduceAdd, Nat.reduceSub, Nat.zero_mod]
  ring

/-- C73, one component: every data set, every pair of azimuths, both methods. -/
theorem C73_rotation_one (E : LstsqEnv) (hE : LstsqOk E) (info : Str) (a : HArgs) (d : ℝ) (h : Heap ℝ) (s : List ℕ)
    (c : Char) (B : ℕ → ℝ) (N : ℕ)
    (hcomp : a.components = [c]) (hc : c = 'R' ∨ c = 'Q' ∨ c = 'T') (hsc : a.scalars = none)
    (hm : a.method = "time".toList ∨ a.method = "freq".toList ∧ 0 < N)
    (hu : Usable h s (ofComponent h s c) B N) :
    ∃ (out out' : List (Trace ℝ)) (X : ℕ → ℕ → ℝ), harmonics E info a h s = .ok out ∧
      harmonics E info { a with azim := a.azim + d } h s = .ok out' ∧
      out.map (fun t => t.data) = ((List.range 5).map fun k => (List.range N).map fun i => X k i) ∧
      out'.map (fun t => t.data) = ((List.range 5).map fun k => (List.range N).map fun i =>
        rotated (radians d) (fun k => X k i) k) := by
  obtain ⟨f, -, hb⟩ := body_one E hE a h s c B N hcomp hc hsc hm hu
  obtain ⟨f', -, hb'⟩ := body_one E hE { a with azim := a.azim + d } h s c B N hcomp hc hsc hm hu
  obtain ⟨out, ho, hd⟩ := harmonics_data E info a h s _ _ _ _ hb
  obtain ⟨out', ho', hd'⟩ := harmonics_data E info _ h s _ _ _ _ hb'
  refine ⟨out, out', _, ho, ho', hd, hd'.trans ?_⟩
  apply List.map_congr_left
  intro k hk
  apply List.map_congr_left
  intro i _
  rw [List.mem_range] at hk
  simp only []
  set l := ofComponent h s c with hl
  have hl0 : byTime h l ≠ [] := by
    intro he
    have := (byTime_perm h l).length_eq
    rw [he] at this
    exact hu.nonempty (List.length_eq_zero_iff.1 this.symm)
  set A := (byTime h l).map fun r => rowOne a.azim (B r) with hA
  set A' := (byTime h l).map fun r => rowOne (a.azim + d) (B r) with hA'
  set b := (byTime h l).map fun r => (h r).data.getD i 0 with hbb
  have h1 := (hE.real 5 A b (by simpa [hA] using hl0) (by
    intro r hr
    obtain ⟨q, -, rfl⟩ := List.mem_map.1 hr
    rfl) (by simp [hA, hbb])).2
  have h2 := (hE.real 5 A' b (by simpa [hA'] using hl0) (by
    intro r hr
    obtain ⟨q, -, rfl⟩ := List.mem_map.1 hr
    rfl) (by simp [hA', hbb])).2
  have hlen : A'.length = A.length := by simp [hA, hA']
  rw [hlen] at h2
  refine minNorm_unique h2 (minNorm_isometry (rotated (radians d)) (rotated (-radians d)) h1 ?_ ?_ ?_) k hk
  · intro y q hq
    have hq' : q < (byTime h l).length := by simpa [hA] using hq
    rw [mulVec_of_row 5 (entry A') _ q (fun j => entry_map _ _ q j 0 hq') _,
      mulVec_of_row 5 (entry A) _ q (fun j => entry_map _ _ q j 0 hq') _, rowOne_rotated]
  · exact rotated_sumSq5 _
  · intro y j hj
    exact rotated_inv _ y j (by omega)

/-- C73, two components: also the unmodelled block is rotated. -/
theorem C73_rotation_two (E : LstsqEnv) (hE : LstsqOk E) (info : Str) (a : HArgs) (d : ℝ) (h : Heap ℝ) (s : List ℕ)
    (c : Char) (B BT : ℕ → ℝ) (N : ℕ)
    (hcomp : a.components = [c, 'T']) (hc : c = 'R' ∨ c = 'Q')
    (hm : a.method = "time".toList ∨ a.method = "freq".toList ∧ 0 < N)
    (hu : Usable h s (ofComponent h s c) B N) (hut : Usable h s (ofComponent h s 'T') BT N)
    (hcount : (ofComponent h s c).length = (ofComponent h s 'T').length) :
    ∃ (out out' : List (Trace ℝ)) (X : ℕ → ℕ → ℝ), harmonics E info a h s = .ok out ∧
      harmonics E info { a with azim := a.azim + d } h s = .ok out' ∧
      out.map (fun t => t.data) = ((List.range 10).map fun k => (List.range N).map fun i => X k i) ∧
      out'.map (fun t => t.data) = ((List.range 10).map fun k => (List.range N).map fun i =>
        rotated (radians d) (fun k => X k i) k) := by
  obtain ⟨f, -, hb⟩ := body_two E hE a h s c B N hcomp hc hm hu ⟨BT, hut⟩ hcount
  obtain ⟨f', -, hb'⟩ := body_two E hE { a with azim := a.azim + d } h s c B N hcomp hc hm hu ⟨BT, hut⟩ hcount
  obtain ⟨out, ho, hd⟩ := harmonics_data E info a h s _ _ _ _ hb
  obtain ⟨out', ho', hd'⟩ := harmonics_data E info _ h s _ _ _ _ hb'
  refine ⟨out, out', _, ho, ho', hd, hd'.trans ?_⟩
  apply List.map_congr_left
  intro k hk
  apply List.map_congr_left
  intro i _
  rw [List.mem_range] at hk
  simp only []
  set s0 := (a.scalars.getD (3, 3 / 10)).1 with hs0
  set s1 := (a.scalars.getD (3, 3 / 10)).2 with hs1
  set l := ofComponent h s c with hl
  set lt := ofComponent h s 'T' with hlt
  have hl0 : byTime h l ≠ [] := by
    intro he
    have := (byTime_perm h l).length_eq
    rw [he] at this
    exact hu.nonempty (List.length_eq_zero_iff.1 this.symm)
  have hll : (byTime h lt).length = (byTime h l).length := by
    rw [(byTime_perm h l).length_eq, (byTime_perm h lt).length_eq, hcount]
  set AR := (byTime h l).map fun r => rowR s0 a.azim (B r) with hAR
  set AT := (byTime h l).map fun r => rowT s1 a.azim (B r) with hAT
  set AR' := (byTime h l).map fun r => rowR s0 (a.azim + d) (B r) with hAR'
  set AT' := (byTime h l).map fun r => rowT s1 (a.azim + d) (B r) with hAT'
  set b := ((byTime h l).map fun r => (h r).data.getD i 0) ++ (byTime h lt).map fun r => (h r).data.getD i 0 with hbb
  have h1 := (hE.real 10 (AR ++ AT) b (fun he => hl0 (List.map_eq_nil_iff.1 (List.append_eq_nil_iff.1 he).1)) (by
    intro r hr
    rcases List.mem_append.1 hr with hr | hr <;> (obtain ⟨q, -, rfl⟩ := List.mem_map.1 hr; rfl))
    (by simp [hAR, hAT, hbb, hll])).2
  have h2 := (hE.real 10 (AR' ++ AT') b (fun he => hl0 (List.map_eq_nil_iff.1 (List.append_eq_nil_iff.1 he).1)) (by
    intro r hr
    rcases List.mem_append.1 hr with hr | hr <;> (obtain ⟨q, -, rfl⟩ := List.mem_map.1 hr; rfl))
    (by simp [hAR', hAT', hbb, hll])).2
  have hlen : (AR' ++ AT').length = (AR ++ AT).length := by simp [hAR, hAT, hAR', hAT']
  have hR : AR.length = (byTime h l).length := by simp [hAR]
  have hR' : AR'.length = (byTime h l).length := by simp [hAR']
  rw [hlen] at h2
  refine minNorm_unique h2 (minNorm_isometry (rotated (radians d)) (rotated (-radians d)) h1 ?_ ?_ ?_) k hk
  · intro y q hq
    rw [List.length_append] at hq
    have hT : AT.length = (byTime h l).length := by simp [hAT]
    by_cases hq' : q < (byTime h l).length
    · rw [mulVec_of_row 10 (entry (AR' ++ AT')) _ q
          (fun j => (entry_left _ _ q j (by omega)).trans (entry_map _ _ q j 0 hq')) _,
        mulVec_of_row 10 (entry (AR ++ AT)) _ q
          (fun j => (entry_left _ _ q j (by omega)).trans (entry_map _ _ q j 0 hq')) _, rowR_rotated]
    · obtain ⟨p, rfl⟩ : ∃ p, q = (byTime h l).length + p := ⟨q - (byTime h l).length, by omega⟩
      have hp : p < (byTime h l).length := by omega
      have e1 : ∀ j, entry (AR' ++ AT') ((byTime h l).length + p) j =
          (rowT s1 (a.azim + d) (B ((byTime h l).getD p 0))).getD j 0 := by
        intro j
        rw [← hR']
        exact (entry_right _ _ p j).trans (entry_map _ _ p j 0 hp)
      have e2 : ∀ j, entry (AR ++ AT) ((byTime h l).length + p) j =
          (rowT s1 a.azim (B ((byTime h l).getD p 0))).getD j 0 := by
        intro j
        rw [← hR]
        exact (entry_right _ _ p j).trans (entry_map _ _ p j 0 hp)
      rw [mulVec_of_row 10 _ _ _ e1, mulVec_of_row 10 _ _ _ e2, rowT_rotated]
  · exact rotated_sumSq10 _
  · exact fun y j hj => rotated_inv _ y j hj

/-! ### Time and frequency method -/

theorem sortByTime_perm (h : Heap ℝ) (l l' : List ℕ) (hs : sortByTime h l = .ok l') : l'.Perm l := by
  unfold sortByTime at hs
  split at hs
  · cases hs
  · split at hs
    · cases hs
    · injection hs with hs
      rw [← hs]
      exact List.perm_insertionSort _ _

theorem dataMatrix_rows (h : Heap ℝ) (l : List ℕ) (rows : List (List ℝ)) (hd : dataMatrix h l = .ok rows) :
    rows = l.map fun r => (h r).data := by
  unfold dataMatrix at hd
  split at hd
  · injection hd with hd; exact hd.symm
  · cases hd

theorem backAzimuths_length (h : Heap ℝ) (l : List ℕ) (baz : List ℝ) (hb : backAzimuths h l = .ok baz) :
    baz.length = l.length := by
  unfold backAzimuths at hb
  exact (mapM_ok _ l baz hb).1

theorem jacobian_shape (a : HArgs) (two : Bool) (baz : List ℝ) (jac : List (List ℝ))
    (hj : jacobian a two baz = .ok jac) (hb : baz ≠ []) :
    jac ≠ [] ∧ ∀ r ∈ jac, r.length = if two then 10 else 5 := by
  unfold jacobian at hj
  cases two
  · simp only [Bool.false_eq_true, if_false] at hj ⊢
    split at hj
    · cases hj
    · injection hj with hj
      rw [← hj]
      exact ⟨by simpa using hb, jacOne_rows _ _⟩
  · simp only [if_true] at hj ⊢
    injection hj with hj
    rw [← hj]
    exact ⟨by simpa using hb, jacTwo_rows _ _ _ _⟩

/-- C74: if all traces used have as many samples as the first trace of the stream, both methods return the same,
also for rank deficient data sets and also the same error. -/
theorem C74_methods_partial (E : LstsqEnv) (hE : LstsqOk E) (info : Str) (a : HArgs) (h : Heap ℝ) (s : List ℕ) (N : ℕ)
    (hN : 0 < N) (hfirst : ∀ f, s.head? = some f → (h f).npts = N)
    (hlen : ∀ c ∈ a.components, ∀ r ∈ ofComponent h s c, (h r).data.length = N) :
    harmonics E info { a with method := "freq".toList } h s =
      harmonics E info { a with method := "time".toList } h s := by
  have key : harmonicsBody E { a with method := "freq".toList } h s =
      harmonicsBody E { a with method := "time".toList } h s := by
    have hcheck : check h s { a with method := "freq".toList } = check h s { a with method := "time".toList } := by
      unfold check
      simp only []
      have h1 : ¬ ("freq".toList ≠ "time".toList ∧ "freq".toList ≠ "freq".toList) := by simp
      have h2 : ¬ ("time".toList ≠ "time".toList ∧ "time".toList ≠ "freq".toList) := by simp
      rw [if_neg h1, if_neg h2]
    unfold harmonicsBody
    rw [hcheck]
    cases hc : check h s { a with method := "time".toList } with
    | some e => rfl
    | none =>
      simp only []
      have hsup : a.components ∈ supported := by
        by_contra hn
        unfold check at hc
        rw [if_pos hn] at hc
        cases hc
      have hne : ∀ c ∈ a.components, ofComponent h s c ≠ [] := by
        intro c hcm he
        unfold check at hc
        rw [if_neg (by simpa using hsup)] at hc
        rw [if_pos] at hc
        · cases hc
        · rw [List.any_eq_true]
          exact ⟨c, hcm, by rw [List.isEmpty_iff]; exact he⟩
      have hshape : ∃ c l, a.components = c :: l ∧ (l = [] ∨ l = ['T']) := by
        unfold supported at hsup
        simp only [List.mem_cons, List.not_mem_nil, or_false] at hsup
        rcases hsup with hs | hs | hs | hs | hs <;> rw [hs]
        · exact ⟨'R', ['T'], rfl, Or.inr rfl⟩
        · exact ⟨'R', [], rfl, Or.inl rfl⟩
        · exact ⟨'Q', [], rfl, Or.inl rfl⟩
        · exact ⟨'Q', ['T'], rfl, Or.inr rfl⟩
        · exact ⟨'T', [], rfl, Or.inl rfl⟩
      obtain ⟨c, l, hcl, hl⟩ := hshape
      have hhead : a.components.headD ' ' = c := by rw [hcl]; rfl
      rw [hhead]
      change (do
        let lr ← sortByTime h (ofComponent h s c); _) = (do
        let lr ← sortByTime h (ofComponent h s c); _)
      cases hlr : sortByTime h (ofComponent h s c) with
      | error e => rfl
      | ok lr =>
        simp only [bind, Except.bind]
        cases hbz : backAzimuths h lr with
        | error e => rfl
        | ok baz =>
          simp only []
          cases hrr : dataMatrix h lr with
          | error e => rfl
          | ok rowsR =>
            simp only []
            cases hlt : transverse h s (decide (a.components.length = 2)) with
            | error e => rfl
            | ok lt =>
              simp only []
              cases hrt : dataMatrix h lt with
              | error e => rfl
              | ok rowsT =>
                simp only []
                have hmR : ∀ r ∈ rowsR, r.length = N := by
                  intro r hr
                  rw [dataMatrix_rows h lr rowsR hrr] at hr
                  obtain ⟨q, hq, rfl⟩ := List.mem_map.1 hr
                  exact hlen c (by rw [hcl]; exact List.mem_cons_self) q
                    ((sortByTime_perm h _ lr hlr).mem_iff.1 hq)
                have hmT : ∀ r ∈ rowsT, r.length = N := by
                  intro r hr
                  rw [dataMatrix_rows h lt rowsT hrt] at hr
                  obtain ⟨q, hq, rfl⟩ := List.mem_map.1 hr
                  rcases hl with rfl | rfl
                  · rw [hcl] at hlt
                    have hlt : (Except.ok [] : Res (List ℕ)) = .ok lt := hlt
                    injection hlt with hlt
                    rw [← hlt] at hq
                    cases hq
                  · rw [hcl] at hlt
                    have hlt : sortByTime h (selectLast h s 'T') = .ok lt := hlt
                    exact hlen 'T' (by rw [hcl]; simp) q ((sortByTime_perm h _ lt hlt).mem_iff.1 hq)
                have hall : ∀ r ∈ rowsR ++ rowsT, r.length = N := by
                  intro r hr
                  rcases List.mem_append.1 hr with hr | hr
                  · exact hmR r hr
                  · exact hmT r hr
                have hemp : ((rowsR ++ rowsT).any fun r => r.isEmpty) = false := by
                  rw [List.any_eq_false]
                  intro r hr he
                  have := hall r hr
                  rw [List.isEmpty_iff] at he
                  rw [he] at this
                  simp at this
                  omega
                rw [hemp, Bool.and_false, Bool.and_false, if_neg (by decide), if_neg (by decide)]
                have hjeq : ∀ two baz, jacobian { a with method := "freq".toList } two baz =
                    jacobian { a with method := "time".toList } two baz := fun _ _ => rfl
                rw [hjeq]
                cases hj : jacobian { a with method := "time".toList } (decide (a.components.length = 2)) baz with
                | error e => rfl
                | ok jac =>
                  simp only []
                  cases hf : s.head? with
                  | none => rfl
                  | some f =>
                    simp only []
                    rw [hfirst f hf]
                    have hb0 : baz ≠ [] := by
                      intro he
                      have h1 := backAzimuths_length h lr baz hbz
                      have h2 := (sortByTime_perm h _ lr hlr).length_eq
                      rw [he] at h1
                      rw [← h1] at h2
                      exact hne c (by rw [hcl]; exact List.mem_cons_self) (List.length_eq_zero_iff.1 h2.symm)
                    obtain ⟨hj0, hjr⟩ := jacobian_shape _ _ _ _ hj hb0
                    have h5 : (if decide (a.components.length = 2) = true then 10 else 5) =
                        5 * a.components.length := by
                      rcases hl with rfl | rfl <;> rw [hcl] <;> rfl
                    rw [h5] at hjr
                    simp only [decide_true]
                    have hd2 : decide ("time".toList = "freq".toList) = false := by decide
                    rw [hd2, decompose_agree E hE (5 * a.components.length) jac rowsR rowsT N
                      (5 * a.components.length) hN hall hj0 hjr le_rfl]
  unfold harmonics
  rw [key]

end Verif.Props
