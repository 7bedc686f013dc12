import Verif.Model.Harmonics
import Verif.Props.Lstsq
import Verif.Props.Freq
import Verif.Props.IterativeProps
import Mathlib.LinearAlgebra.Vandermonde

/-!
# Harmonic decomposition: the numbers (C71 - C75)
-/

set_option linter.unusedSimpArgs false
set_option linter.unusedSectionVars false

namespace Verif.Props
open Verif.Py Verif.Model Verif.Model.Harmonics Verif.Spec Finset

/-! ### Contract of `lstsq` -/

/-- Entry `i, j` of a matrix given by its rows. -/
def entry {α : Type} [Zero α] (A : List (List α)) (i j : ℕ) : α := (A.getD i []).getD j 0

/-- `numpy.linalg.lstsq` in exact arithmetic: for a matrix of `n` columns the least squares solution of minimal
norm. -/
structure LstsqOk (E : LstsqEnv) : Prop where
  real : ∀ (n : ℕ) (A : List (List ℝ)) (b : List ℝ), A ≠ [] → (∀ r ∈ A, r.length = n) → b.length = A.length →
    (E.real A b).length = n ∧ MinNormLS A.length n (entry A) (b.getD · 0) ((E.real A b).getD · 0)
  cplx : ∀ (n : ℕ) (A : List (List ℝ)) (b : List ℂ), A ≠ [] → (∀ r ∈ A, r.length = n) → b.length = A.length →
    (E.cplx A b).length = n ∧
      MinNormLS A.length n (fun i j => ((entry A i j : ℝ) : ℂ)) (b.getD · 0) ((E.cplx A b).getD · 0)

/-! ### Fit of one sample -/

theorem mapM_eq_map {α β : Type} (f : α → Res β) (g : α → β) (l : List α) (h : ∀ a ∈ l, f a = .ok (g a)) :
    l.mapM f = .ok (l.map g) := by
  induction l with
  | nil => rfl
  | cons a l ih =>
    rw [List.mapM_cons, h a List.mem_cons_self, ih fun a ha => h a (List.mem_cons_of_mem _ ha)]
    rfl

theorem column_eq {α : Type} (rows : List (List α)) (i : ℕ) (d : α) (h : ∀ r ∈ rows, i < r.length) :
    column rows i = .ok (rows.map fun r => r.getD i d) := by
  unfold column
  apply mapM_eq_map
  intro r hr
  rw [List.getElem?_eq_getElem (h r hr), List.getD_eq_getElem _ _ (h r hr)]

theorem fit_eq {α : Type} (f : List (List ℝ) → List α → List α) (jac : List (List ℝ)) (rows : List (List α)) (i : ℕ)
    (d : α) (h : ∀ r ∈ rows, i < r.length) (hl : rows.length = jac.length) :
    fit f jac rows i = .ok (f jac (rows.map fun r => r.getD i d)) := by
  unfold fit
  rw [column_eq rows i d h]
  simp only [List.length_map]
  rw [if_pos hl]

theorem fit_mismatch {α : Type} (f : List (List ℝ) → List α → List α) (jac : List (List ℝ)) (rows : List (List α))
    (i : ℕ) (h : ∀ r ∈ rows, i < r.length) (hl : rows.length ≠ jac.length) :
    fit f jac rows i = .error .other := by
  unfold fit
  cases rows with
  | nil =>
    simp only [column, List.mapM_nil, pure, Except.pure]
    rw [if_neg (by simpa using hl)]
  | cons r rs =>
    obtain ⟨x, -⟩ : ∃ x : α, True := by
      have := h r List.mem_cons_self
      exact ⟨r[i], trivial⟩
    rw [column_eq (r :: rs) i x h]
    simp only [List.length_map]
    rw [if_neg hl]

/-- The time domain fit for rows of at least `npts` samples. -/
theorem decompose_time (E : LstsqEnv) (jac rowsR rowsT : List (List ℝ)) (npts nharm : ℕ)
    (h : ∀ r ∈ rowsR ++ rowsT, npts ≤ r.length) (hl : (rowsR ++ rowsT).length = jac.length) :
    decompose E false jac rowsR rowsT npts nharm = .ok ((List.range nharm).map fun (k : ℕ) =>
      (List.range npts).map fun (i : ℕ) =>
        (E.real jac ((rowsR ++ rowsT).map fun r => r.getD i 0)).getD k 0) := by
  unfold decompose
  rw [if_neg (by decide)]
  rw [mapM_eq_map _ (fun i => E.real jac ((rowsR ++ rowsT).map fun r => r.getD i 0))]
  · simp only [bind, Except.bind, List.map_map]
    rfl
  · intro i hi
    exact fit_eq _ _ _ _ 0 (fun r hr => lt_of_lt_of_le (List.mem_range.1 hi) (h r hr)) hl

theorem fftRows_eq (rows : List (List ℝ)) (h : ∀ r ∈ rows, 0 < r.length) :
    fftRows rows = .ok (rows.map fun r => fft (toC r) r.length) := by
  unfold fftRows
  rw [if_neg]
  simp only [List.any_eq_true, not_exists, not_and]
  intro r hr he
  have := h r hr
  rw [List.isEmpty_iff] at he
  rw [he] at this
  exact absurd this (by simp)

theorem decompose_freq (E : LstsqEnv) (jac rowsR rowsT : List (List ℝ)) (npts nharm : ℕ) (hn : 0 < npts)
    (h : ∀ r ∈ rowsR ++ rowsT, r.length = npts) (hl : (rowsR ++ rowsT).length = jac.length) :
    decompose E true jac rowsR rowsT npts nharm = .ok ((List.range nharm).map fun (k : ℕ) =>
      (ifft ((List.range npts).map fun (f : ℕ) =>
        (E.cplx jac ((rowsR ++ rowsT).map fun r => (fft (toC r) npts).getD f 0)).getD k 0) npts).map Complex.re) := by
  unfold decompose
  rw [if_pos rfl, fftRows_eq rowsR (fun r hr => by rw [h r (by simp [hr])]; exact hn),
    fftRows_eq rowsT (fun r hr => by rw [h r (by simp [hr])]; exact hn)]
  simp only [bind, Except.bind]
  have e : (rowsR.map fun r => fft (toC r) r.length) ++ (rowsT.map fun r => fft (toC r) r.length) =
      (rowsR ++ rowsT).map fun r => fft (toC r) npts := by
    rw [← List.map_append]
    apply List.map_congr_left
    intro r hr
    rw [h r hr]
  rw [e, mapM_eq_map _ (fun f => E.cplx jac ((rowsR ++ rowsT).map fun r => (fft (toC r) npts).getD f 0))]
  · simp only [List.map_map]
    rw [if_neg (by omega)]
    rfl
  · intro i hi
    rw [fit_eq _ _ _ _ 0 _ (by simpa using hl)]
    · rw [List.map_map]; rfl
    · intro r hr
      obtain ⟨q, -, rfl⟩ := List.mem_map.1 hr
      rw [fft_length]
      exact List.mem_range.1 hi

/-- Time and frequency domain fit agree. -/
theorem decompose_agree (E : LstsqEnv) (hE : LstsqOk E) (n : ℕ) (jac rowsR rowsT : List (List ℝ))
    (npts nharm : ℕ) (hn : 0 < npts) (h : ∀ r ∈ rowsR ++ rowsT, r.length = npts) (hj : jac ≠ [])
    (hjn : ∀ r ∈ jac, r.length = n) (hnh : nharm ≤ n) :
    decompose E true jac rowsR rowsT npts nharm = decompose E false jac rowsR rowsT npts nharm := by
  by_cases hl : (rowsR ++ rowsT).length = jac.length
  · rw [decompose_freq E jac rowsR rowsT npts nharm hn h hl,
      decompose_time E jac rowsR rowsT npts nharm (fun r hr => (h r hr).ge) hl]
    congr 1
    apply List.map_congr_left
    intro k hk
    have hk : k < nharm := List.mem_range.1 hk
    set rows := rowsR ++ rowsT with hrows
    have key : ∀ f < npts, (E.cplx jac (rows.map fun r => (fft (toC r) npts).getD f 0)).getD k 0 =
        ∑ t ∈ range npts, ((E.real jac (rows.map fun r => r.getD t 0)).getD k 0 : ℂ) * W npts (-(t * f)) := by
      intro f hf
      obtain ⟨-, hc⟩ := hE.cplx n jac (rows.map fun r => (fft (toC r) npts).getD f 0) hj hjn (by simpa using hl)
      have hr : ∀ t < npts, Normal jac.length n (fun i j => ((entry jac i j : ℝ) : ℂ))
          (fun i => (((rows.map fun r => r.getD t 0).getD i 0 : ℝ) : ℂ))
          (fun j => (((E.real jac (rows.map fun r => r.getD t 0)).getD j 0 : ℝ) : ℂ)) := by
        intro t _
        exact (minNorm_normal (hE.real n jac (rows.map fun r => r.getD t 0) hj hjn (by simpa using hl)).2).ofReal
      have hs := Normal.sum (N := npts) _ _ (fun t => W npts (-(t * f))) hr
      have hu := Normal.unique (minNorm_normal hc) (y := fun j => ∑ t ∈ range npts, W npts (-(t * f)) *
          (((E.real jac (rows.map fun r => r.getD t 0)).getD j 0 : ℝ) : ℂ)) ⟨by
        intro y
        refine Eq.trans ?_ (hs.residual y)
        refine dotP_congr _ _ _ _ _ (fun _ _ => rfl) fun i hi => ?_
        congr 1
        have hi' : i < rows.length := by omega
        rw [getD_map_of_lt _ _ [] _ _ hi', fft_get _ _ _ hf]
        refine sum_congr rfl fun t _ => ?_
        rw [getD_map_of_lt _ _ [] _ _ hi', toC_getD]
        ring, hs.kernel⟩ k (by omega)
      rw [hu]
      exact sum_congr rfl fun t _ => by ring
    have e : (List.range npts).map (fun (f : ℕ) =>
        (E.cplx jac (rows.map fun r => (fft (toC r) npts).getD f 0)).getD k 0) =
        fft (toC ((List.range npts).map fun (i : ℕ) => (E.real jac (rows.map fun r => r.getD i 0)).getD k 0)) npts := by
      conv_rhs => unfold fft
      apply List.map_congr_left
      intro f hf
      rw [key f (List.mem_range.1 hf)]
      refine sum_congr rfl fun t ht => ?_
      rw [toC_getD, List.getD_eq_getElem (n := t) _ _ (by simpa using ht), List.getElem_map, List.getElem_range]
    rw [e]
    apply List.ext_getElem
    · simp
    · intro i h1 h2
      have hi : i < npts := by simpa using h1
      rw [List.getElem_map, ← List.getD_eq_getElem _ 0, ifft_fft_get _ _ _ hi, toC_getD, Complex.ofReal_re,
        List.getD_eq_getElem _ _ h2]
  · have hlr : ∀ r ∈ rowsR ++ rowsT, 0 < r.length := fun r hr => by rw [h r hr]; exact hn
    obtain ⟨m, rfl⟩ : ∃ m, npts = m + 1 := ⟨npts - 1, by omega⟩
    unfold decompose
    rw [if_pos rfl, if_neg (by decide), fftRows_eq rowsR (fun r hr => hlr r (by simp [hr])),
      fftRows_eq rowsT (fun r hr => hlr r (by simp [hr]))]
    simp only [bind, Except.bind, List.range_succ_eq_map, List.mapM_cons]
    rw [fit_mismatch _ _ _ _ hlr hl, fit_mismatch]
    · intro r hr
      rcases List.mem_append.1 hr with hr | hr
      all_goals
        obtain ⟨q, hq, rfl⟩ := List.mem_map.1 hr
        rw [fft_length]
        exact hlr q (by simp [hq])
    · simpa using hl

/-! ### The whole call -/

/-- Traces sorted by event time. -/
noncomputable def byTime (h : Heap ℝ) (l : List ℕ) : List ℕ := l.insertionSort fun a b => timeKey h a ≤ timeKey h b

theorem byTime_perm (h : Heap ℝ) (l : List ℕ) : (byTime h l).Perm l := List.perm_insertionSort _ _

theorem byTime_mem (h : Heap ℝ) (l : List ℕ) (r : ℕ) : r ∈ byTime h l ↔ r ∈ l := (byTime_perm h l).mem_iff

theorem sortByTime_ok (h : Heap ℝ) (l : List ℕ) (ht : ∀ r ∈ l, ∃ t, (h r).getTime "event_time" = some t) :
    sortByTime h l = .ok (byTime h l) := by
  unfold sortByTime
  rw [if_neg, if_neg]
  · rfl
  · simp only [List.any_eq_true, not_exists, not_and, Option.isNone_iff_eq_none]
    intro r hr
    obtain ⟨t, ht⟩ := ht r hr
    simp [ht]
  · simp only [List.any_eq_true, not_exists, not_and, Bool.not_eq_true', Bool.not_eq_false]
    intro r hr
    obtain ⟨t, ht⟩ := ht r hr
    unfold Trace.getTime at ht
    unfold Dict.has
    cases hg : (h r).ext.get "event_time" with
    | none => rw [hg] at ht; cases ht
    | some v => rfl

theorem backAzimuths_ok (h : Heap ℝ) (l : List ℕ) (B : ℕ → ℝ)
    (hb : ∀ r ∈ l, (h r).ext.get "back_azimuth" = some (.num (B r))) : backAzimuths h l = .ok (l.map B) := by
  unfold backAzimuths
  apply mapM_eq_map
  intro r hr
  rw [hb r hr]

theorem dataMatrix_ok (h : Heap ℝ) (l : List ℕ) (N : ℕ) (hl : ∀ r ∈ l, (h r).data.length = N) :
    dataMatrix h l = .ok (l.map fun r => (h r).data) := by
  unfold dataMatrix
  rw [if_pos]
  rw [List.all_eq_true]
  intro r hr
  cases l with
  | nil => cases hr
  | cons q l =>
    apply decide_eq_true
    change (h r).data.length = (h q).data.length
    rw [hl r hr, hl q List.mem_cons_self]

/-- The traces of a component. -/
def ofComponent (h : Heap ℝ) (s : List ℕ) (c : Char) : List ℕ :=
  s.filter fun r => decide ((upper (h r).cha).getLast? = some c)

/-- A stream `harmonics` can work with: the selected traces have event time, back azimuth and as many samples
as the first trace of the stream. -/
structure Usable (h : Heap ℝ) (s l : List ℕ) (B : ℕ → ℝ) (N : ℕ) : Prop where
  nonempty : l ≠ []
  time : ∀ r ∈ l, ∃ t, (h r).getTime "event_time" = some t
  baz : ∀ r ∈ l, (h r).ext.get "back_azimuth" = some (.num (B r))
  npts : ∀ r ∈ l, (h r).data.length = N
  first : ∃ f, s.head? = some f ∧ (h f).npts = N

theorem jacOne_rows (azim : ℝ) (baz : List ℝ) : ∀ r ∈ baz.map (rowOne azim), r.length = 5 := by
  intro r hr
  obtain ⟨b, -, rfl⟩ := List.mem_map.1 hr
  rfl

theorem jacTwo_rows (azim s0 s1 : ℝ) (baz : List ℝ) :
    ∀ r ∈ baz.map (rowR s0 azim) ++ baz.map (rowT s1 azim), r.length = 10 := by
  intro r hr
  rcases List.mem_append.1 hr with hr | hr
  all_goals
    obtain ⟨b, -, rfl⟩ := List.mem_map.1 hr
    rfl

/-- A call for one component. -/
theorem body_one (E : LstsqEnv) (hE : LstsqOk E) (a : HArgs) (h : Heap ℝ) (s : List ℕ) (c : Char) (B : ℕ → ℝ) (N : ℕ)
    (hcomp : a.components = [c]) (hc : c = 'R' ∨ c = 'Q' ∨ c = 'T') (hsc : a.scalars = none)
    (hm : a.method = "time".toList ∨ a.method = "freq".toList ∧ 0 < N)
    (hu : Usable h s (ofComponent h s c) B N) :
    ∃ f, s.head? = some f ∧ harmonicsBody E a h s = .ok (harmOut (h f) [c] false
      ((List.range 5).map fun (k : ℕ) => (List.range N).map fun (i : ℕ) =>
        (E.real ((byTime h (ofComponent h s c)).map fun r => rowOne a.azim (B r))
          ((byTime h (ofComponent h s c)).map fun r => (h r).data.getD i 0)).getD k 0)) := by
  obtain ⟨f, hf, hN⟩ := hu.first
  refine ⟨f, hf, ?_⟩
  have hsel : selectLast h s c = ofComponent h s c := rfl
  have hcheck : check h s a = none := by
    unfold check
    rw [if_neg, if_neg, if_neg]
    · rintro ⟨h1, h2⟩
      rcases hm with hm | ⟨hm, -⟩
      · exact h1 hm
      · exact h2 hm
    · rw [hcomp]
      simp only [List.any_cons, List.any_nil, Bool.or_false, hsel, List.isEmpty_iff]
      exact hu.nonempty
    · rw [hcomp]
      rcases hc with rfl | rfl | rfl <;> decide
  unfold harmonicsBody
  rw [hcheck]
  have h2 : ¬ (a.components.length = 2) := by rw [hcomp]; simp
  have h5 : 5 * a.components.length = 5 := by rw [hcomp]; rfl
  simp only [decide_eq_false h2, transverse, Bool.false_eq_true, if_false, h5]
  rw [hcomp]
  simp only [List.headD_cons, hsel]
  set l := ofComponent h s c with hl
  have hmem : ∀ r ∈ byTime h l, r ∈ l := fun r => (byTime_mem h l r).1
  rw [sortByTime_ok h l hu.time]
  simp only [bind, Except.bind]
  rw [backAzimuths_ok h (byTime h l) B fun r hr => hu.baz r (hmem r hr)]
  simp only []
  rw [dataMatrix_ok h (byTime h l) N fun r hr => hu.npts r (hmem r hr), dataMatrix_ok h [] N (by simp)]
  simp only [List.map_nil, List.append_nil]
  set rows := (byTime h l).map fun r => (h r).data with hrows
  have hrl : ∀ r ∈ rows ++ [], r.length = N := by
    intro r hr
    rw [List.append_nil, hrows] at hr
    obtain ⟨q, hq, rfl⟩ := List.mem_map.1 hr
    exact hu.npts q (hmem q hq)
  have hne : byTime h l ≠ [] := by
    intro he
    have := (byTime_perm h l).length_eq
    rw [he] at this
    exact hu.nonempty (List.length_eq_zero_iff.1 this.symm)
  have hjac : jacobian a false ((byTime h l).map B) = .ok ((byTime h l).map fun r => rowOne a.azim (B r)) := by
    unfold jacobian
    rw [if_neg (by decide), hsc]
    simp only [List.map_map]
    rfl
  have hemp : (decide (a.method = "freq".toList) && rows.any fun r => r.isEmpty) = false := by
    rcases hm with hm | ⟨hm, hN0⟩
    · rw [hm]; simp
    · rw [Bool.and_eq_false_iff]
      right
      rw [List.any_eq_false]
      intro r hr he
      have := hrl r (by simpa using hr)
      rw [List.isEmpty_iff] at he
      rw [he] at this
      simp at this
      omega
  rw [hemp, if_neg (by decide), hjac]
  simp only [hf, hN]
  have hlen : (rows ++ []).length = ((byTime h l).map fun r => rowOne a.azim (B r)).length := by simp [hrows]
  have hdec : decompose E (decide (a.method = "freq".toList)) ((byTime h l).map fun r => rowOne a.azim (B r)) rows []
      N 5 = decompose E false ((byTime h l).map fun r => rowOne a.azim (B r)) rows [] N 5 := by
    rcases hm with hm | ⟨hm, hN0⟩
    · rw [hm]; rfl
    · rw [hm]
      refine decompose_agree E hE 5 _ rows [] N 5 hN0 hrl (by simpa using hne) ?_ le_rfl
      have := jacOne_rows a.azim ((byTime h l).map B)
      rwa [List.map_map] at this
  rw [hdec, decompose_time E _ rows [] N 5 (fun r hr => (hrl r hr).ge) hlen]
  simp only [List.append_nil, hrows, List.map_map]
  rfl

/-- A call for two components. -/
theorem body_two (E : LstsqEnv) (hE : LstsqOk E) (a : HArgs) (h : Heap ℝ) (s : List ℕ) (c : Char) (B : ℕ → ℝ) (N : ℕ)
    (hcomp : a.components = [c, 'T']) (hc : c = 'R' ∨ c = 'Q')
    (hm : a.method = "time".toList ∨ a.method = "freq".toList ∧ 0 < N)
    (hu : Usable h s (ofComponent h s c) B N) (hut : ∃ B', Usable h s (ofComponent h s 'T') B' N)
    (hcount : (ofComponent h s c).length = (ofComponent h s 'T').length) :
    ∃ f, s.head? = some f ∧ harmonicsBody E a h s = .ok (harmOut (h f) [c, 'T'] true
      ((List.range 10).map fun (k : ℕ) => (List.range N).map fun (i : ℕ) =>
        (E.real ((byTime h (ofComponent h s c)).map (fun r => rowR (a.scalars.getD (3, 3 / 10)).1 a.azim (B r)) ++
            (byTime h (ofComponent h s c)).map fun r => rowT (a.scalars.getD (3, 3 / 10)).2 a.azim (B r))
          ((byTime h (ofComponent h s c)).map (fun r => (h r).data.getD i 0) ++
            (byTime h (ofComponent h s 'T')).map fun r => (h r).data.getD i 0)).getD k 0)) := by
  obtain ⟨f, hf, hN⟩ := hu.first
  obtain ⟨B', hut⟩ := hut
  refine ⟨f, hf, ?_⟩
  have hsel : ∀ c, selectLast h s c = ofComponent h s c := fun _ => rfl
  have hcheck : check h s a = none := by
    unfold check
    rw [if_neg, if_neg, if_neg]
    · rintro ⟨h1, h2⟩
      rcases hm with hm | ⟨hm, -⟩
      · exact h1 hm
      · exact h2 hm
    · rw [hcomp]
      simp only [List.any_cons, List.any_nil, Bool.or_false, hsel, List.isEmpty_iff, Bool.or_eq_true, not_or]
      exact ⟨hu.nonempty, hut.nonempty⟩
    · rw [hcomp]
      rcases hc with rfl | rfl <;> decide
  unfold harmonicsBody
  rw [hcheck]
  have h2 : a.components.length = 2 := by rw [hcomp]; simp
  have h5 : 5 * a.components.length = 10 := by rw [hcomp]; rfl
  simp only [decide_eq_true h2, h5, transverse, if_true]
  rw [hcomp]
  simp only [List.headD_cons, hsel]
  set l := ofComponent h s c with hl
  set lt := ofComponent h s 'T' with hlt
  have hmem : ∀ r ∈ byTime h l, r ∈ l := fun r => (byTime_mem h l r).1
  have hmemt : ∀ r ∈ byTime h lt, r ∈ lt := fun r => (byTime_mem h lt r).1
  rw [sortByTime_ok h l hu.time]
  simp only [bind, Except.bind]
  rw [backAzimuths_ok h (byTime h l) B fun r hr => hu.baz r (hmem r hr)]
  simp only []
  rw [dataMatrix_ok h (byTime h l) N fun r hr => hu.npts r (hmem r hr), sortByTime_ok h lt hut.time]
  simp only []
  rw [dataMatrix_ok h (byTime h lt) N fun r hr => hut.npts r (hmemt r hr)]
  simp only []
  set rows := (byTime h l).map fun r => (h r).data with hrows
  set rowst := (byTime h lt).map fun r => (h r).data with hrowst
  have hrl : ∀ r ∈ rows ++ rowst, r.length = N := by
    intro r hr
    rcases List.mem_append.1 hr with hr | hr
    · obtain ⟨q, hq, rfl⟩ := List.mem_map.1 hr
      exact hu.npts q (hmem q hq)
    · obtain ⟨q, hq, rfl⟩ := List.mem_map.1 hr
      exact hut.npts q (hmemt q hq)
  have hne : byTime h l ≠ [] := by
    intro he
    have := (byTime_perm h l).length_eq
    rw [he] at this
    exact hu.nonempty (List.length_eq_zero_iff.1 this.symm)
  set jac := (byTime h l).map (fun r => rowR (a.scalars.getD (3, 3 / 10)).1 a.azim (B r)) ++
            (byTime h l).map fun r => rowT (a.scalars.getD (3, 3 / 10)).2 a.azim (B r) with hjacd
  have hjac : jacobian a true ((byTime h l).map B) = .ok jac := by
    unfold jacobian
    rw [if_pos rfl, hjacd]
    simp only [List.map_map]
    rfl
  have hemp : (decide (a.method = "freq".toList) && (rows ++ rowst).any fun r => r.isEmpty) = false := by
    rcases hm with hm | ⟨hm, hN0⟩
    · rw [hm]; simp
    · rw [Bool.and_eq_false_iff]
      right
      rw [List.any_eq_false]
      intro r hr he
      have := hrl r hr
      rw [List.isEmpty_iff] at he
      rw [he] at this
      simp at this
      omega
  rw [hemp, if_neg (by decide), hjac]
  simp only [hf, hN]
  have hlen : (rows ++ rowst).length = jac.length := by
    simp only [hrows, hrowst, hjacd, List.length_append, List.length_map, (byTime_perm h l).length_eq,
      (byTime_perm h lt).length_eq, hcount]
  have hjr : ∀ r ∈ jac, r.length = 10 := by
    have := jacTwo_rows a.azim (a.scalars.getD (3, 3 / 10)).1 (a.scalars.getD (3, 3 / 10)).2 ((byTime h l).map B)
    rw [List.map_map, List.map_map] at this
    exact this
  have hdec : decompose E (decide (a.method = "freq".toList)) jac rows rowst N 10 =
      decompose E false jac rows rowst N 10 := by
    rcases hm with hm | ⟨hm, hN0⟩
    · rw [hm]; rfl
    · rw [hm]
      refine decompose_agree E hE 10 _ rows rowst N 10 hN0 hrl ?_ hjr le_rfl
      rw [hjacd]
      simpa using hne
  rw [hdec, decompose_time E _ rows rowst N 10 (fun r hr => (hrl r hr).ge) hlen]
  simp only [List.map_append, hrows, hrowst, List.map_map]
  rfl

/-! ### Output traces -/

theorem harmTrace_data {K : Type} (t : Trace K) (comps : Str) (two : Bool) (i : ℕ) (d : List K) :
    (harmTrace t comps two i d).data = d := by
  unfold harmTrace
  simp only []
  split
  · rfl
  · split
    · split <;> rfl
    · rfl

theorem addInfo_data {K : Type} (info : Str) (t t' : Trace K) (h : addInfo info t = .ok t') : t'.data = t.data := by
  unfold addInfo at h
  split at h
  · injection h with h; rw [← h]; rfl
  · injection h with h
    rw [← h]
    split <;> rfl
  · cases h

/-- The data of the traces returned by the decorated function. -/
theorem harmonics_data (E : LstsqEnv) (info : Str) (a : HArgs) (h : Heap ℝ) (s : List ℕ) (f : Trace ℝ) (comps : Str)
    (two : Bool) (hd : List (List ℝ)) (hb : harmonicsBody E a h s = .ok (harmOut f comps two hd)) :
    ∃ out, harmonics E info a h s = .ok out ∧ out.map (fun t => t.data) = hd := by
  unfold harmonics
  rw [hb]
  refine ⟨_, rfl, ?_⟩
  rw [List.map_map]
  unfold harmOut
  rw [List.map_map]
  have : (fun (p : List ℝ × ℕ) => (((fun (t : Trace ℝ) => t.data) ∘ fun t => match addInfo info t with
      | .ok t' => t' | .error _ => t) ∘ fun (p : List ℝ × ℕ) => harmTrace (cleanTrace f) comps two p.2 p.1) p) =
      Prod.fst := by
    funext p
    simp only [Function.comp]
    cases ha : addInfo info (harmTrace (cleanTrace f) comps two p.2 p.1) with
    | error e => exact harmTrace_data _ _ _ _ _
    | ok t' => simp only []; rw [addInfo_data _ _ _ ha, harmTrace_data]
  refine Eq.trans (List.map_congr_left fun p _ => congrFun this p) ?_
  exact List.zipIdx_map_fst 0 hd

/-! ### Five directions determine the harmonics -/

/-- A polynomial of degree four in `z⁻² ... z²` with five zeros vanishes. -/
theorem five_zeros (A : Fin 5 → ℂ) (z : Fin 5 → ℂ) (hz : Function.Injective z)
    (h : ∀ i, A 0 + A 1 * z i + A 2 * z i ^ 2 + A 3 * z i ^ 3 + A 4 * z i ^ 4 = 0) : A = 0 := by
  apply Matrix.eq_zero_of_forall_index_sum_pow_mul_eq_zero hz
  intro j
  rw [Fin.sum_univ_five]
  rw [← h j]
  simp
  ring

theorem exp_distinct (B : Fin 5 → ℝ) (azim : ℝ) (h : ∀ i j, i ≠ j → ∀ k : ℤ, B i - B j ≠ 360 * k) :
    Function.Injective fun i => Complex.exp ((radians (B i - azim) : ℝ) * Complex.I) := by
  intro i j hij
  by_contra hne
  rw [Complex.exp_eq_exp_iff_exists_int] at hij
  obtain ⟨k, hk⟩ := hij
  have hI : (Complex.I : ℂ) ≠ 0 := Complex.I_ne_zero
  have h1 : ((radians (B i - azim) : ℝ) : ℂ) = ((radians (B j - azim) + k * (2 * Real.pi) : ℝ) : ℂ) := by
    apply mul_right_cancel₀ hI
    rw [hk]
    push_cast
    ring
  have h2 : radians (B i - azim) = radians (B j - azim) + k * (2 * Real.pi) := by exact_mod_cast h1
  apply h i j hne k
  unfold radians at h2
  have hpi := Real.pi_ne_zero
  field_simp at h2
  linarith

theorem harm_unique_one (B : Fin 5 → ℝ) (azim : ℝ) (hB : ∀ i j, i ≠ j → ∀ k : ℤ, B i - B j ≠ 360 * k)
    (y0 y1 y2 y3 y4 : ℝ) (h : ∀ i, y0 + y1 * Real.cos (radians (B i - azim)) + y2 * Real.sin (radians (B i - azim)) +
      y3 * Real.cos (2 * radians (B i - azim)) + y4 * Real.sin (2 * radians (B i - azim)) = 0) :
    y0 = 0 ∧ y1 = 0 ∧ y2 = 0 ∧ y3 = 0 ∧ y4 = 0 := by
  have key := five_zeros ![(y3 + y4 * Complex.I) / 2, (y1 + y2 * Complex.I) / 2, y0,
    (y1 - y2 * Complex.I) / 2, (y3 - y4 * Complex.I) / 2] _ (exp_distinct B azim hB) (by
    intro i
    set θ := radians (B i - azim) with hθ
    have hi := h i
    rw [← hθ] at hi
    have hc : ((y0 : ℂ) + y1 * Complex.cos θ + y2 * Complex.sin θ + y3 * Complex.cos (2 * θ) +
        y4 * Complex.sin (2 * θ)) = 0 := by
      have := congrArg (fun x : ℝ => (x : ℂ)) hi
      push_cast at this
      exact this
    rw [Complex.cos_two_mul, Complex.sin_two_mul] at hc
    have he : Complex.exp (θ * Complex.I) = Complex.cos θ + Complex.sin θ * Complex.I := Complex.exp_mul_I _
    have hcs := Complex.sin_sq_add_cos_sq (θ : ℂ)
    have hI := Complex.I_sq
    simp only [Matrix.cons_val_zero, Matrix.cons_val_one, Matrix.cons_val]
    rw [he]
    set C := Complex.cos θ
    set S := Complex.sin θ
    set I := Complex.I
    have hCz : 2 * C * (C + S * I) = (C + S * I) ^ 2 + 1 := by linear_combination (-S ^ 2) * hI + hcs
    have hSz : 2 * S * (C + S * I) = -I * ((C + S * I) ^ 2 - 1) := by
      linear_combination (2 * S * C + S ^ 2 * I) * hI + I * hcs
    have : ((y3 + y4 * I) / 2 + (y1 + y2 * I) / 2 * (C + S * I) + y0 * (C + S * I) ^ 2 +
        (y1 - y2 * I) / 2 * (C + S * I) ^ 3 + (y3 - y4 * I) / 2 * (C + S * I) ^ 4 : ℂ) =
        (C + S * I) ^ 2 * (y0 + y1 * C + y2 * S + y3 * (2 * C ^ 2 - 1) + y4 * (2 * S * C)) := by
      generalize C + S * I = z at hCz hSz ⊢
      linear_combination (-(y1 * z / 2)) * hCz - (y2 * z / 2) * hSz - y3 / 2 * (2 * C * z + z ^ 2 + 1) * hCz -
        y4 / 2 * (2 * S * z * hCz + (z ^ 2 + 1) * hSz)
    rw [this, hc, mul_zero])
  have k0 := congrFun key 0
  have k1 := congrFun key 1
  have k2 := congrFun key 2
  simp only [Matrix.cons_val_zero, Matrix.cons_val_one, Matrix.cons_val, Pi.zero_apply] at k0 k1 k2
  have k2' : y0 = 0 := by exact_mod_cast k2
  have r0 := congrArg Complex.re k0
  have i0 := congrArg Complex.im k0
  have r1 := congrArg Complex.re k1
  have i1 := congrArg Complex.im k1
  simp at r0 i0 r1 i1
  exact ⟨k2', r1, i1, r0, i0⟩

end Verif.Props
