import Verif.Props.Harmonics

/-!
# Harmonic decomposition: exact data are recovered (C71, C72), pairing of the components (C75)
-/

set_option linter.unusedSimpArgs false
set_option linter.unusedSectionVars false

namespace Verif.Props
open Verif.Py Verif.Model Verif.Model.Harmonics Verif.Spec Finset

/-! ### Rows -/

theorem entry_map {α : Type} (l : List α) (row : α → List ℝ) (i j : ℕ) (d : α) (hi : i < l.length) :
    entry (l.map row) i j = (row (l.getD i d)).getD j 0 := by
  unfold entry
  congr 1
  rw [List.getD_eq_getElem _ _ (by simpa using hi), List.getElem_map, List.getD_eq_getElem _ _ hi]

theorem entry_left (A B : List (List ℝ)) (i j : ℕ) (hi : i < A.length) : entry (A ++ B) i j = entry A i j := by
  unfold entry
  rw [List.getD_append _ _ _ _ hi]

theorem entry_right (A B : List (List ℝ)) (i j : ℕ) : entry (A ++ B) (A.length + i) j = entry B i j := by
  unfold entry
  rw [List.getD_append_right _ _ _ _ (by omega)]
  congr 2
  omega

theorem mulVec_of_row (n : ℕ) (A : ℕ → ℕ → ℝ) (row : List ℝ) (i : ℕ) (h : ∀ j, A i j = row.getD j 0) (y : ℕ → ℝ) :
    mulVec n A y i = ∑ j ∈ range n, row.getD j 0 * y j := by
  unfold mulVec
  exact sum_congr rfl fun j _ => by rw [h]

theorem rowOne_dot (azim b : ℝ) (y : ℕ → ℝ) : ∑ j ∈ range 5, (rowOne azim b).getD j 0 * y j =
    y 0 + y 1 * Real.cos (radians (b - azim)) + y 2 * Real.sin (radians (b - azim)) +
      y 3 * Real.cos (2 * radians (b - azim)) + y 4 * Real.sin (2 * radians (b - azim)) := by
  simp only [rowOne, sum_range_succ, sum_range_zero, List.getD_cons_zero, List.getD_cons_succ]
  ring

theorem rowR_dot (s0 azim b : ℝ) (y : ℕ → ℝ) : ∑ j ∈ range 10, (rowR s0 azim b).getD j 0 * y j =
    s0 * y 0 + (y 1 + y 6) * Real.cos (radians (b - azim)) + (y 2 + y 7) * Real.sin (radians (b - azim)) +
      (y 3 + y 8) * Real.cos (2 * radians (b - azim)) + (y 4 + y 9) * Real.sin (2 * radians (b - azim)) := by
  simp only [rowR, sum_range_succ, sum_range_zero, List.getD_cons_zero, List.getD_cons_succ]
  ring

theorem rowT_dot (s1 azim b : ℝ) (y : ℕ → ℝ) : ∑ j ∈ range 10, (rowT s1 azim b).getD j 0 * y j =
    s1 * y 5 + (y 2 - y 7) * Real.cos (radians (b - azim)) + (y 6 - y 1) * Real.sin (radians (b - azim)) +
      (y 4 - y 9) * Real.cos (2 * radians (b - azim)) + (y 8 - y 3) * Real.sin (2 * radians (b - azim)) := by
  simp only [rowT, sum_range_succ, sum_range_zero, List.getD_cons_zero, List.getD_cons_succ]
  ring

/-! ### One component -/

/-- Five of the traces come from directions which differ modulo 360 degrees. -/
def FiveDirections (l : List ℕ) (B : ℕ → ℝ) : Prop :=
  ∃ p : Fin 5 → ℕ, (∀ i, p i ∈ l) ∧ ∀ i j, i ≠ j → ∀ k : ℤ, B (p i) - B (p j) ≠ 360 * k

/-- Constant plus first and second order harmonics. -/
noncomputable def harmonicSum (c : ℕ → ℝ) (degrees : ℝ) : ℝ :=
  c 0 + c 1 * Real.cos (degrees * Real.pi / 180) + c 2 * Real.sin (degrees * Real.pi / 180) +
    c 3 * Real.cos (2 * (degrees * Real.pi / 180)) + c 4 * Real.sin (2 * (degrees * Real.pi / 180))

theorem radians_eq (d : ℝ) : radians d = d * Real.pi / 180 := by
  unfold radians
  ring

theorem harmonicSum_eq (y : ℕ → ℝ) (d : ℝ) : harmonicSum y d = y 0 + y 1 * Real.cos (radians d) +
    y 2 * Real.sin (radians d) + y 3 * Real.cos (2 * radians d) + y 4 * Real.sin (2 * radians d) := by
  rw [radians_eq]
  rfl

theorem mem_index (h : Heap ℝ) (l : List ℕ) (r : ℕ) (hr : r ∈ l) :
    ∃ i < (byTime h l).length, (byTime h l).getD i 0 = r := by
  obtain ⟨i, hi, he⟩ := List.mem_iff_getElem.1 ((byTime_mem h l r).2 hr)
  exact ⟨i, hi, by rw [List.getD_eq_getElem _ _ hi, he]⟩

theorem getD_byTime_mem (h : Heap ℝ) (l : List ℕ) (i : ℕ) (hi : i < (byTime h l).length) :
    (byTime h l).getD i 0 ∈ l := by
  rw [List.getD_eq_getElem _ _ hi]
  exact (byTime_mem h l _).1 (List.getElem_mem hi)

/-- C71: exact harmonics are recovered from one component, by both methods. -/
theorem C71_one_component (E : LstsqEnv) (hE : LstsqOk E) (info : Str) (a : HArgs) (h : Heap ℝ) (s : List ℕ) (c : Char)
    (B : ℕ → ℝ) (N : ℕ) (coef : ℕ → ℕ → ℝ)
    (hcomp : a.components = [c]) (hc : c = 'R' ∨ c = 'Q' ∨ c = 'T') (hsc : a.scalars = none)
    (hm : a.method = "time".toList ∨ a.method = "freq".toList ∧ 0 < N)
    (hu : Usable h s (ofComponent h s c) B N) (hfive : FiveDirections (ofComponent h s c) B)
    (hdata : ∀ r ∈ ofComponent h s c, ∀ i < N,
      (h r).data.getD i 0 = harmonicSum (fun k => coef k i) (B r - a.azim)) :
    ∃ out, harmonics E info a h s = .ok out ∧
      out.map (fun t => t.data) = (List.range 5).map fun k => (List.range N).map fun i => coef k i := by
  obtain ⟨f, -, hb⟩ := body_one E hE a h s c B N hcomp hc hsc hm hu
  obtain ⟨out, ho, hd⟩ := harmonics_data E info a h s _ _ _ _ hb
  refine ⟨out, ho, hd.trans ?_⟩
  apply List.map_congr_left
  intro k hk
  apply List.map_congr_left
  intro i hi
  rw [List.mem_range] at hk hi
  set l := ofComponent h s c with hl
  set A := (byTime h l).map fun r => rowOne a.azim (B r) with hA
  have hAl : A.length = (byTime h l).length := by rw [hA, List.length_map]
  have hA0 : A ≠ [] := by
    intro he
    rw [he, List.length_nil, (byTime_perm h l).length_eq] at hAl
    exact hu.nonempty (List.length_eq_zero_iff.1 hAl.symm)
  have hrow : ∀ q < A.length, ∀ y, mulVec 5 (entry A) y q = harmonicSum y (B ((byTime h l).getD q 0) - a.azim) := by
    intro q hq y
    rw [mulVec_of_row 5 (entry A) _ q (fun j => entry_map _ _ q j 0 (by rwa [hAl] at hq)) y, rowOne_dot,
      harmonicSum_eq]
  refine minNorm_exact (c := fun k => coef k i) (hE.real 5 A _ hA0 ?_ ?_).2 ?_ ?_ k hk
  · intro r hr
    obtain ⟨q, -, rfl⟩ := List.mem_map.1 hr
    rfl
  · rw [List.length_map, hAl]
  · intro q hq
    have hq' : q < (byTime h l).length := by rwa [hAl] at hq
    rw [hrow q hq, ← hdata _ (getD_byTime_mem h l q hq') i hi, List.getD_eq_getElem _ _ (by simpa using hq'),
      List.getElem_map, List.getD_eq_getElem _ _ hq']
  · intro y hy
    obtain ⟨p, hp, hpd⟩ := hfive
    have := harm_unique_one (fun i => B (p i)) a.azim hpd (y 0) (y 1) (y 2) (y 3) (y 4) (by
      intro j
      obtain ⟨q, hq, he⟩ := mem_index h l (p j) (hp j)
      have h1 := hy q (by rwa [hAl])
      rw [hrow q (by rwa [hAl]), he, harmonicSum_eq] at h1
      exact h1)
    obtain ⟨h0, h1, h2, h3, h4⟩ := this
    intro j hj
    interval_cases j <;> assumption

/-! ### Two components -/

/-- Data of the first component: modelled terms 0-4, unmodelled terms 5-9. -/
noncomputable def radialSum (s0 : ℝ) (c : ℕ → ℝ) (degrees : ℝ) : ℝ :=
  let θ := degrees * Real.pi / 180
  s0 * c 0 + (c 1 * Real.cos θ + c 2 * Real.sin θ) + (c 3 * Real.cos (2 * θ) + c 4 * Real.sin (2 * θ)) +
    (c 6 * Real.cos θ + c 7 * Real.sin θ) + (c 8 * Real.cos (2 * θ) + c 9 * Real.sin (2 * θ))

/-- Data of the transverse component: the modelled harmonics shifted by a quarter period, the unmodelled
harmonics shifted the other way. -/
noncomputable def transverseSum (s1 : ℝ) (c : ℕ → ℝ) (degrees : ℝ) : ℝ :=
  let θ := degrees * Real.pi / 180
  s1 * c 5 + (c 1 * Real.cos (θ + Real.pi / 2) + c 2 * Real.sin (θ + Real.pi / 2)) +
    (c 3 * Real.cos (2 * θ + Real.pi / 2) + c 4 * Real.sin (2 * θ + Real.pi / 2)) +
    (c 6 * Real.cos (θ - Real.pi / 2) + c 7 * Real.sin (θ - Real.pi / 2)) +
    (c 8 * Real.cos (2 * θ - Real.pi / 2) + c 9 * Real.sin (2 * θ - Real.pi / 2))

theorem rowR_radial (s0 azim b : ℝ) (y : ℕ → ℝ) :
    ∑ j ∈ range 10, (rowR s0 azim b).getD j 0 * y j = radialSum s0 y (b - azim) := by
  rw [rowR_dot]
  unfold radialSum
  simp only [radians_eq]
  ring

theorem rowT_transverse (s1 azim b : ℝ) (y : ℕ → ℝ) :
    ∑ j ∈ range 10, (rowT s1 azim b).getD j 0 * y j = transverseSum s1 y (b - azim) := by
  rw [rowT_dot]
  unfold transverseSum
  simp only [radians_eq, Real.cos_add_pi_div_two, Real.sin_add_pi_div_two, Real.cos_sub_pi_div_two,
    Real.sin_sub_pi_div_two]
  ring

theorem harm_unique_two (B : Fin 5 → ℝ) (azim : ℝ) (hB : ∀ i j, i ≠ j → ∀ k : ℤ, B i - B j ≠ 360 * k)
    (s0 s1 : ℝ) (hs0 : s0 ≠ 0) (hs1 : s1 ≠ 0) (y : ℕ → ℝ)
    (hR : ∀ i, ∑ j ∈ range 10, (rowR s0 azim (B i)).getD j 0 * y j = 0)
    (hT : ∀ i, ∑ j ∈ range 10, (rowT s1 azim (B i)).getD j 0 * y j = 0) : ∀ j < 10, y j = 0 := by
  have h1 := harm_unique_one B azim hB (s0 * y 0) (y 1 + y 6) (y 2 + y 7) (y 3 + y 8) (y 4 + y 9)
    (fun i => by rw [← hR i, rowR_dot])
  have h2 := harm_unique_one B azim hB (s1 * y 5) (y 2 - y 7) (y 6 - y 1) (y 4 - y 9) (y 8 - y 3)
    (fun i => by rw [← hT i, rowT_dot])
  obtain ⟨a0, a1, a2, a3, a4⟩ := h1
  obtain ⟨b0, b1, b2, b3, b4⟩ := h2
  have e0 : y 0 = 0 := (mul_eq_zero.1 a0).resolve_left hs0
  have e5 : y 5 = 0 := (mul_eq_zero.1 b0).resolve_left hs1
  intro j hj
  interval_cases j <;> first | assumption | linarith

/-- The transverse traces belong to the events of the traces of the first component, one of each for an event. -/
structure Paired (h : Heap ℝ) (l lt : List ℕ) : Prop where
  distinct : l.Pairwise fun r q => (h r).getTime "event_time" ≠ (h q).getTime "event_time"
  distinctT : lt.Pairwise fun r q => (h r).getTime "event_time" ≠ (h q).getTime "event_time"
  count : l.length = lt.length
  event : ∀ q ∈ lt, ∃ r ∈ l, (h r).getTime "event_time" = (h q).getTime "event_time"

theorem keys_nodup (h : Heap ℝ) (l : List ℕ) (ht : ∀ r ∈ l, ∃ t, (h r).getTime "event_time" = some t)
    (hd : l.Pairwise fun r q => (h r).getTime "event_time" ≠ (h q).getTime "event_time") :
    (l.map (timeKey h)).Nodup := by
  rw [List.Nodup, List.pairwise_map]
  refine List.Pairwise.imp_of_mem ?_ hd
  intro r q hr hq hne he
  obtain ⟨t, ht1⟩ := ht r hr
  obtain ⟨u, ht2⟩ := ht q hq
  unfold timeKey at he
  rw [ht1, ht2] at he hne
  simp only [Option.getD_some] at he
  exact hne (by rw [he])

theorem byTime_sorted (h : Heap ℝ) (l : List ℕ) : ((byTime h l).map (timeKey h)).Pairwise (· ≤ ·) := by
  rw [List.pairwise_map]
  have : Std.Total fun a b : ℕ => timeKey h a ≤ timeKey h b := ⟨fun a b => le_total _ _⟩
  have : IsTrans ℕ fun a b => timeKey h a ≤ timeKey h b := ⟨fun a b c => le_trans⟩
  exact List.pairwise_insertionSort _ _

theorem paired_keys (h : Heap ℝ) (l lt : List ℕ)
    (htt : ∀ r ∈ lt, ∃ t, (h r).getTime "event_time" = some t) (hp : Paired h l lt) :
    (byTime h l).map (timeKey h) = (byTime h lt).map (timeKey h) := by
  have hperm : (lt.map (timeKey h)).Perm (l.map (timeKey h)) := by
    have hsub : (lt.map (timeKey h)) ⊆ l.map (timeKey h) := by
      intro x hx
      obtain ⟨q, hq, rfl⟩ := List.mem_map.1 hx
      obtain ⟨r, hr, he⟩ := hp.event q hq
      exact List.mem_map.2 ⟨r, hr, by unfold timeKey; rw [he]⟩
    refine ((keys_nodup h lt htt hp.distinctT).subperm hsub).perm_of_length_le ?_
    simp [hp.count]
  apply List.Perm.eq_of_pairwise (le := (· ≤ ·)) ?_ (byTime_sorted h l) (byTime_sorted h lt)
  · exact ((byTime_perm h l).map _).trans (hperm.symm.trans ((byTime_perm h lt).map _).symm)
  · intro a b _ _ hab hba
    exact le_antisymm hab hba

/-- Same position after sorting, same event. -/
theorem paired_position (h : Heap ℝ) (l lt : List ℕ) (ht : ∀ r ∈ l, ∃ t, (h r).getTime "event_time" = some t)
    (htt : ∀ r ∈ lt, ∃ t, (h r).getTime "event_time" = some t) (hp : Paired h l lt) (i : ℕ)
    (hi : i < (byTime h l).length) : ∃ hi' : i < (byTime h lt).length,
      (h ((byTime h l)[i])).getTime "event_time" = (h ((byTime h lt)[i])).getTime "event_time" := by
  have hk := paired_keys h l lt htt hp
  have hlen : (byTime h l).length = (byTime h lt).length := by simpa using congrArg List.length hk
  refine ⟨by omega, ?_⟩
  have hi' : i < (byTime h lt).length := by omega
  have := congrArg (fun x : List ℝ => x.getD i 0) hk
  beta_reduce at this
  rw [List.getD_eq_getElem _ _ (by simpa using hi), List.getD_eq_getElem _ _ (by simpa using hi'),
    List.getElem_map, List.getElem_map] at this
  obtain ⟨t, h1⟩ := ht _ ((byTime_mem h l _).1 (List.getElem_mem hi))
  obtain ⟨u, h2⟩ := htt _ ((byTime_mem h lt _).1 (List.getElem_mem hi'))
  unfold timeKey at this
  rw [h1, h2] at this ⊢
  simp only [Option.getD_some] at this
  rw [this]

/-- C72: exact data are recovered from two components, by both methods. -/
theorem C72_two_components (E : LstsqEnv) (hE : LstsqOk E) (info : Str) (a : HArgs) (h : Heap ℝ) (s : List ℕ) (c : Char)
    (B BT : ℕ → ℝ) (N : ℕ) (s0 s1 : ℝ) (coef : ℕ → ℕ → ℝ)
    (hcomp : a.components = [c, 'T']) (hc : c = 'R' ∨ c = 'Q') (hsc : a.scalars.getD (3, 3 / 10) = (s0, s1))
    (hs0 : s0 ≠ 0) (hs1 : s1 ≠ 0)
    (hm : a.method = "time".toList ∨ a.method = "freq".toList ∧ 0 < N)
    (hu : Usable h s (ofComponent h s c) B N) (hut : Usable h s (ofComponent h s 'T') BT N)
    (hpair : Paired h (ofComponent h s c) (ofComponent h s 'T'))
    (hbaz : ∀ r ∈ ofComponent h s c, ∀ q ∈ ofComponent h s 'T',
      (h r).getTime "event_time" = (h q).getTime "event_time" → BT q = B r)
    (hfive : FiveDirections (ofComponent h s c) B)
    (hdata : ∀ r ∈ ofComponent h s c, ∀ i < N,
      (h r).data.getD i 0 = radialSum s0 (fun k => coef k i) (B r - a.azim))
    (hdataT : ∀ q ∈ ofComponent h s 'T', ∀ i < N,
      (h q).data.getD i 0 = transverseSum s1 (fun k => coef k i) (BT q - a.azim)) :
    ∃ out, harmonics E info a h s = .ok out ∧
      out.map (fun t => t.data) = (List.range 10).map fun k => (List.range N).map fun i => coef k i := by
  obtain ⟨f, -, hb⟩ := body_two E hE a h s c B N hcomp hc hm hu ⟨BT, hut⟩ hpair.count
  obtain ⟨out, ho, hd⟩ := harmonics_data E info a h s _ _ _ _ hb
  refine ⟨out, ho, hd.trans ?_⟩
  apply List.map_congr_left
  intro k hk
  apply List.map_congr_left
  intro i hi
  rw [List.mem_range] at hk hi
  rw [hsc]
  simp only []
  set l := ofComponent h s c with hl
  set lt := ofComponent h s 'T' with hlt
  set A := (byTime h l).map fun r => rowR s0 a.azim (B r) with hA
  set A' := (byTime h l).map fun r => rowT s1 a.azim (B r) with hA'
  set b := (byTime h l).map fun r => (h r).data.getD i 0 with hbb
  set b' := (byTime h lt).map fun r => (h r).data.getD i 0 with hbb'
  have hAl : A.length = (byTime h l).length := by rw [hA, List.length_map]
  have hAl' : A'.length = (byTime h l).length := by rw [hA', List.length_map]
  have hll : (byTime h lt).length = (byTime h l).length := by
    rw [(byTime_perm h l).length_eq, (byTime_perm h lt).length_eq, hpair.count]
  have hbl : b.length = (byTime h l).length := by rw [hbb, List.length_map]
  have hbl' : b'.length = (byTime h l).length := by rw [hbb', List.length_map, hll]
  have hA0 : A ++ A' ≠ [] := by
    intro he
    have := (List.append_eq_nil_iff.1 he).1
    rw [this, List.length_nil, (byTime_perm h l).length_eq] at hAl
    exact hu.nonempty (List.length_eq_zero_iff.1 hAl.symm)
  have hrow : ∀ q < (byTime h l).length, ∀ y, mulVec 10 (entry (A ++ A')) y q =
      ∑ j ∈ range 10, (rowR s0 a.azim (B ((byTime h l).getD q 0))).getD j 0 * y j := by
    intro q hq y
    exact mulVec_of_row 10 _ _ q (fun j => (entry_left A A' q j (by omega)).trans (entry_map _ _ q j 0 hq)) y
  have hrow' : ∀ q < (byTime h l).length, ∀ y, mulVec 10 (entry (A ++ A')) y (A.length + q) =
      ∑ j ∈ range 10, (rowT s1 a.azim (B ((byTime h l).getD q 0))).getD j 0 * y j := by
    intro q hq y
    exact mulVec_of_row 10 _ _ _ (fun j => (entry_right A A' q j).trans (entry_map _ _ q j 0 hq)) y
  refine minNorm_exact (c := fun k => coef k i) (hE.real 10 (A ++ A') _ hA0 ?_ ?_).2 ?_ ?_ k hk
  · intro r hr
    rcases List.mem_append.1 hr with hr | hr <;> (obtain ⟨q, -, rfl⟩ := List.mem_map.1 hr; rfl)
  · rw [List.length_append, List.length_append]; omega
  · intro q hq
    rw [List.length_append] at hq
    by_cases hq' : q < (byTime h l).length
    · rw [hrow q hq', rowR_radial, ← hdata _ (getD_byTime_mem h l q hq') i hi]
      beta_reduce
      rw [List.getD_append _ _ _ _ (by omega), List.getD_eq_getElem _ _ (by omega)]
      simp only [hbb, List.getElem_map, List.getD_eq_getElem _ _ hq']
    · obtain ⟨p, rfl⟩ : ∃ p, q = A.length + p := ⟨q - A.length, by omega⟩
      have hp : p < (byTime h l).length := by omega
      rw [hrow' p hp, rowT_transverse]
      obtain ⟨hp', hev⟩ := paired_position h l lt hu.time hut.time hpair p hp
      have hm1 : (byTime h l)[p] ∈ l := (byTime_mem h l _).1 (List.getElem_mem hp)
      have hm2 : (byTime h lt)[p] ∈ lt := (byTime_mem h lt _).1 (List.getElem_mem hp')
      rw [List.getD_eq_getElem _ _ hp, ← hbaz _ hm1 _ hm2 hev, ← hdataT _ hm2 i hi]
      beta_reduce
      have : A.length = b.length := by omega
      rw [this, List.getD_append_right _ _ _ _ (by omega), Nat.add_sub_cancel_left,
        List.getD_eq_getElem _ _ (by omega)]
      simp only [hbb', List.getElem_map]
  · intro y hy
    obtain ⟨p, hp, hpd⟩ := hfive
    refine harm_unique_two (fun i => B (p i)) a.azim hpd s0 s1 hs0 hs1 y ?_ ?_
    · intro j
      obtain ⟨q, hq, he⟩ := mem_index h l (p j) (hp j)
      have h1 := hy q (by rw [List.length_append]; omega)
      rw [hrow q hq, he] at h1
      exact h1
    · intro j
      obtain ⟨q, hq, he⟩ := mem_index h l (p j) (hp j)
      have h1 := hy (A.length + q) (by rw [List.length_append]; omega)
      rw [hrow' q hq, he] at h1
      exact h1

end Verif.Props
