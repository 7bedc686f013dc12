import Verif.Props.HarmonicsSymm

/-!
# Harmonic decomposition: pairing of the components (C75), different lengths (C74)
-/

set_option linter.unusedSimpArgs false
set_option linter.unusedSectionVars false

namespace Verif.Props
open Verif.Py Verif.Model Verif.Model.Harmonics Verif.Spec Finset

/-- C75: if both components have one trace for each event, the samples fitted against one back azimuth belong to
the same event. -/
theorem C75_pairing_partial (E : LstsqEnv) (hE : LstsqOk E) (info : Str) (a : HArgs) (h : Heap ℝ) (s : List ℕ) (c : Char)
    (B BT : ℕ → ℝ) (N : ℕ) (hcomp : a.components = [c, 'T']) (hc : c = 'R' ∨ c = 'Q')
    (hm : a.method = "time".toList ∨ a.method = "freq".toList ∧ 0 < N)
    (hu : Usable h s (ofComponent h s c) B N) (hut : Usable h s (ofComponent h s 'T') BT N)
    (hpair : Paired h (ofComponent h s c) (ofComponent h s 'T')) :
    ∃ (pairs : List (ℕ × ℕ)) (out : List (Trace ℝ)),
      (pairs.map Prod.fst).Perm (ofComponent h s c) ∧ (pairs.map Prod.snd).Perm (ofComponent h s 'T') ∧
      (∀ p ∈ pairs, (h p.1).getTime "event_time" = (h p.2).getTime "event_time") ∧
      harmonics E info a h s = .ok out ∧
      out.map (fun t => t.data) = (List.range 10).map fun (k : ℕ) => (List.range N).map fun (i : ℕ) =>
        (E.real (pairs.map (fun p => rowR (a.scalars.getD (3, 3 / 10)).1 a.azim (B p.1)) ++
            pairs.map fun p => rowT (a.scalars.getD (3, 3 / 10)).2 a.azim (B p.1))
          (pairs.map (fun p => (h p.1).data.getD i 0) ++ pairs.map fun p => (h p.2).data.getD i 0)).getD k 0 := by
  obtain ⟨f, -, hb⟩ := body_two E hE a h s c B N hcomp hc hm hu ⟨BT, hut⟩ hpair.count
  obtain ⟨out, ho, hd⟩ := harmonics_data E info a h s _ _ _ _ hb
  have hlen : (byTime h (ofComponent h s c)).length = (byTime h (ofComponent h s 'T')).length := by
    rw [(byTime_perm _ _).length_eq, (byTime_perm _ _).length_eq, hpair.count]
  have hf : ((byTime h (ofComponent h s c)).zip (byTime h (ofComponent h s 'T'))).map Prod.fst =
      byTime h (ofComponent h s c) := List.map_fst_zip hlen.le
  have hs : ((byTime h (ofComponent h s c)).zip (byTime h (ofComponent h s 'T'))).map Prod.snd =
      byTime h (ofComponent h s 'T') := List.map_snd_zip hlen.ge
  refine ⟨(byTime h (ofComponent h s c)).zip (byTime h (ofComponent h s 'T')), out, ?_, ?_, ?_, ho, hd.trans ?_⟩
  · rw [hf]; exact byTime_perm _ _
  · rw [hs]; exact byTime_perm _ _
  · intro p hp
    obtain ⟨i, hi, rfl⟩ := List.mem_iff_getElem.1 hp
    rw [List.getElem_zip]
    have hi' : i < (byTime h (ofComponent h s c)).length := by
      rw [List.length_zip] at hi
      omega
    obtain ⟨_, he⟩ := paired_position h _ _ hu.time hut.time hpair i hi'
    exact he
  · have e1 : ∀ {β : Type} (g : ℕ → β), ((byTime h (ofComponent h s c)).zip (byTime h (ofComponent h s 'T'))).map
        (fun p => g p.1) = (byTime h (ofComponent h s c)).map g := by
      intro β g
      conv_rhs => rw [← hf]
      rw [List.map_map]
      rfl
    have e2 : ∀ {β : Type} (g : ℕ → β), ((byTime h (ofComponent h s c)).zip (byTime h (ofComponent h s 'T'))).map
        (fun p => g p.2) = (byTime h (ofComponent h s 'T')).map g := by
      intro β g
      conv_rhs => rw [← hs]
      rw [List.map_map]
      rfl
    apply List.map_congr_left
    intro k _
    apply List.map_congr_left
    intro i _
    rw [e1 (fun r => rowR (a.scalars.getD (3, 3 / 10)).1 a.azim (B r)),
      e1 (fun r => rowT (a.scalars.getD (3, 3 / 10)).2 a.azim (B r)), e1 (fun r => (h r).data.getD i 0),
      e2 (fun r => (h r).data.getD i 0)]

/-! ### A stream with components of different events -/

/-- Back azimuths of events 1 - 6. -/
noncomputable def hpBaz (e : ℕ) : ℝ := [0, 0, 10, 20, 30, 40, 90].getD e 0

/-- Traces 1 - 5 are the R traces of events 1 - 5, traces 6 - 10 the T traces of events 2 - 6. -/
def hpEvent (r : ℕ) : ℕ := if r ≤ 5 then r else r - 4

/-- A medium with a pure cosine term: R data `cos baz`, T data `-sin baz`. -/
noncomputable def hpHeap : Heap ℝ := fun r =>
  { net := [], sta := [], loc := [], cha := if r ≤ 5 then ['R'] else ['T'], start := 0, sr := 1,
    data := [if r ≤ 5 then Real.cos (hpBaz (hpEvent r) * Real.pi / 180) else -Real.sin (hpBaz (hpEvent r) * Real.pi / 180)],
    ext := [("event_time", .time (hpEvent r : ℝ)), ("back_azimuth", .num (hpBaz (hpEvent r)))] }

def hpStream : List ℕ := [1, 2, 3, 4, 5, 6, 7, 8, 9, 10]

noncomputable def hpArgs : HArgs := { components := ['R', 'T'], azim := 0, method := "time".toList, scalars := none }

theorem hpR : ofComponent hpHeap hpStream 'R' = [1, 2, 3, 4, 5] := rfl
theorem hpT : ofComponent hpHeap hpStream 'T' = [6, 7, 8, 9, 10] := rfl

theorem hpTime (r : ℕ) : (hpHeap r).getTime "event_time" = some (hpEvent r : ℝ) := rfl

theorem hpUsable (l : List ℕ) (hl : l ≠ []) : Usable hpHeap hpStream l (fun r => hpBaz (hpEvent r)) 1 where
  nonempty := hl
  time r _ := ⟨_, hpTime r⟩
  baz _ _ := rfl
  npts _ _ := rfl
  first := ⟨1, rfl, rfl⟩

theorem hpSorted (l : List ℕ) (h : l.Pairwise fun a b => hpEvent a ≤ hpEvent b) : byTime hpHeap l = l := by
  unfold byTime
  apply List.Pairwise.insertionSort_eq
  refine h.imp ?_
  intro a b hab
  unfold timeKey
  rw [hpTime, hpTime]
  simp only [Option.getD_some]
  exact_mod_cast hab

/-- The coefficients of the medium: the cosine term is one, all others vanish. -/
def hpCoef (k : ℕ) : ℝ := if k = 1 then 1 else 0

/-- C75 in general is wrong: the traces below follow exactly the ten term expansion with the coefficients `hpCoef`,
there are five directions, but the R traces belong to events 1 - 5, the T traces to events 2 - 6, and
`harmonics` returns other coefficients. -/
theorem C75_counterexample (E : LstsqEnv) (hE : LstsqOk E) (info : Str) :
    (∀ r ∈ ofComponent hpHeap hpStream 'R', (hpHeap r).data = [radialSum 3 hpCoef (hpBaz (hpEvent r) - 0)]) ∧
    (∀ r ∈ ofComponent hpHeap hpStream 'T', (hpHeap r).data = [transverseSum (3 / 10) hpCoef (hpBaz (hpEvent r) - 0)]) ∧
    FiveDirections (ofComponent hpHeap hpStream 'R') (fun r => hpBaz (hpEvent r)) ∧
    ∃ out, harmonics E info hpArgs hpHeap hpStream = .ok out ∧
      out.map (fun t => t.data) ≠ (List.range 10).map fun k => [hpCoef k] := by
  refine ⟨?_, ?_, ?_, ?_⟩
  · intro r hr
    rw [hpR] at hr
    have hr5 : r ≤ 5 := by simp at hr; omega
    simp [hpHeap, hr5, radialSum, hpCoef]
  · intro r hr
    rw [hpT] at hr
    have hr5 : ¬ r ≤ 5 := by simp at hr; omega
    simp [hpHeap, hr5, transverseSum, hpCoef, Real.cos_add_pi_div_two]
  · refine ⟨fun i => i.1 + 1, ?_, ?_⟩
    · intro i
      rw [hpR]
      fin_cases i <;> simp
    · intro i j hij k he
      have hk : ∀ n : ℤ, (n : ℝ) = 360 * k → n = 360 * k := fun n hn => by exact_mod_cast hn
      fin_cases i <;> fin_cases j <;> simp [hpEvent, hpBaz] at hij he <;> norm_num at he <;>
      first
      | (have h1 := hk 10 (by push_cast; linarith); omega)
      | (have h1 := hk (-10) (by push_cast; linarith); omega)
      | (have h1 := hk 20 (by push_cast; linarith); omega)
      | (have h1 := hk (-20) (by push_cast; linarith); omega)
      | (have h1 := hk 30 (by push_cast; linarith); omega)
      | (have h1 := hk (-30) (by push_cast; linarith); omega)
      | (have h1 := hk 40 (by push_cast; linarith); omega)
      | (have h1 := hk (-40) (by push_cast; linarith); omega)
  · obtain ⟨f, -, hb⟩ := body_two E hE hpArgs hpHeap hpStream 'R' (fun r => hpBaz (hpEvent r)) 1 rfl (Or.inl rfl)
      (Or.inl rfl) (hpUsable _ (by rw [hpR]; simp)) ⟨_, hpUsable _ (by rw [hpT]; simp)⟩ (by rw [hpR, hpT]; rfl)
    obtain ⟨out, ho, hd⟩ := harmonics_data E info hpArgs hpHeap hpStream _ _ _ _ hb
    refine ⟨out, ho, ?_⟩
    rw [hd, hpR, hpT, hpSorted _ (by decide), hpSorted _ (by decide)]
    intro he
    set A := ([1, 2, 3, 4, 5] : List ℕ).map (fun r => rowR (hpArgs.scalars.getD (3, 3 / 10)).1 hpArgs.azim
      (hpBaz (hpEvent r))) ++ ([1, 2, 3, 4, 5] : List ℕ).map (fun r => rowT (hpArgs.scalars.getD (3, 3 / 10)).2
      hpArgs.azim (hpBaz (hpEvent r))) with hA
    set b := ([1, 2, 3, 4, 5] : List ℕ).map (fun r => (hpHeap r).data.getD 0 0) ++
      ([6, 7, 8, 9, 10] : List ℕ).map (fun r => (hpHeap r).data.getD 0 0) with hbb
    have hx : ∀ k < 10, (E.real A b).getD k 0 = hpCoef k := by
      intro k hk
      have := (List.map_inj_left.1 he) k (List.mem_range.2 hk)
      exact (List.cons.inj this).1
    have hn := minNorm_normal (hE.real 10 A b (by simp [hA]) (by
      intro r hr
      rcases List.mem_append.1 hr with hr | hr <;> (obtain ⟨q, -, rfl⟩ := List.mem_map.1 hr; rfl)) (by simp [hA, hbb])).2
    have hr := hn.residual (fun j => if j = 5 then 1 else 0)
    have hAl : A.length = 10 := by simp [hA]
    rw [hAl] at hr
    have hcol5 : ∀ i, mulVec 10 (entry A) (fun j => if j = 5 then 1 else 0) i = entry A i 5 := by
      intro i
      simp [mulVec, sum_range_succ]
    have hcol1 : ∀ i, mulVec 10 (entry A) (fun j => (E.real A b).getD j 0) i = entry A i 1 := by
      intro i
      rw [mulVec_congr 10 _ _ hpCoef hx i]
      simp [mulVec, sum_range_succ, hpCoef]
    unfold dotP at hr
    simp only [hcol5, hcol1] at hr
    have h0 : Real.sin (0 * Real.pi / 180) = 0 := by simp
    have h90 : Real.sin (90 * Real.pi / 180) = 1 := by
      rw [show (90 : ℝ) * Real.pi / 180 = Real.pi / 2 by ring]
      exact Real.sin_pi_div_two
    simp only [sum_range_succ, sum_range_zero, hA, hbb, entry, List.map_cons, List.map_nil, List.cons_append,
      List.nil_append, List.getD_cons_zero, List.getD_cons_succ, rowR, rowT, hpArgs, Option.getD_none, hpHeap, hpEvent,
      hpBaz, radians_eq, sub_zero, starRingEnd_apply, star_trivial] at hr
    norm_num [h0, h90] at hr
    linarith

/-! ### Traces longer than the first trace of the stream -/

/-- Trace 0 is a Z trace with one sample, trace 1 an R trace with two samples. -/
noncomputable def hlHeap : Heap ℝ := fun r =>
  { net := [], sta := [], loc := [], cha := if r = 0 then ['Z'] else ['R'], start := 0, sr := 1,
    data := if r = 0 then [0] else [0, 1],
    ext := [("event_time", .time 0), ("back_azimuth", .num 0)] }

noncomputable def hlArgs : HArgs := { components := ['R'], azim := 0, method := "time".toList, scalars := none }

theorem hlBody (E : LstsqEnv) (m : Str) (hm : m = "time".toList ∨ m = "freq".toList) :
    harmonicsBody E { hlArgs with method := m } hlHeap [0, 1] =
      (decompose E (decide (m = "freq".toList)) [rowOne 0 0] [[0, 1]] [] 1 5).bind fun hd =>
        .ok (harmOut (hlHeap 0) ['R'] false hd) := by
  have hsel : selectLast hlHeap [0, 1] 'R' = [1] := rfl
  have hcheck : check hlHeap [0, 1] { hlArgs with method := m } = none := by
    unfold check
    have hc1 : hlArgs.components ∈ supported := by decide
    have hc2 : ¬ hlArgs.components.any (fun c => (selectLast hlHeap [0, 1] c).isEmpty) = true := by decide
    rw [if_neg (not_not.2 hc1), if_neg hc2, if_neg]
    rintro ⟨h1, h2⟩
    rcases hm with hm | hm
    · exact h1 hm
    · exact h2 hm
  unfold harmonicsBody
  rw [hcheck]
  have hh : hlArgs.components.headD ' ' = 'R' := rfl
  have h2 : ¬ hlArgs.components.length = 2 := by decide
  have h5 : 5 * hlArgs.components.length = 5 := rfl
  simp only [hh, hsel, decide_eq_false h2, transverse, Bool.false_eq_true, if_false, h5]
  rw [sortByTime_ok hlHeap [1] fun r _ => ⟨0, rfl⟩]
  have hb : byTime hlHeap [1] = [1] := rfl
  rw [hb]
  simp only [bind, Except.bind]
  rw [backAzimuths_ok hlHeap [1] (fun _ => 0) fun r _ => rfl]
  simp only []
  rw [dataMatrix_ok hlHeap [1] 2 (by intro r hr; simp at hr; subst hr; rfl)]
  simp only []
  rw [dataMatrix_ok hlHeap [] 2 (by intro r hr; cases hr)]
  have hd : hlHeap 1 = { hlHeap 1 with data := [0, 1] } := rfl
  have he : (([1].map fun r => (hlHeap r).data) ++ ([].map fun r => (hlHeap r).data)).any (fun r => r.isEmpty) = false := by
    simp [hlHeap]
  simp only []
  rw [he, Bool.and_false, if_neg (by decide)]
  have hj : jacobian { hlArgs with method := m } false (List.map (fun _ => (0 : ℝ)) [1]) = .ok [rowOne 0 0] := rfl
  rw [hj]
  have hrow : ([1].map fun r => (hlHeap r).data) = [[0, 1]] := by simp [hlHeap]
  simp only [List.head?_cons, hrow, List.map_nil]
  rfl

/-- A one trace fit is exact. -/
theorem one_row_exact {𝕜 : Type} [RCLike 𝕜] (n : ℕ) (A : ℕ → ℕ → 𝕜) (b x : ℕ → 𝕜) (hA : A 0 0 = 1) (hn : 0 < n)
    (h : MinNormLS 1 n A b x) : mulVec n A x 0 = b 0 := by
  have hr := (minNorm_normal h).residual (fun j => if j = 0 then 1 else 0)
  have h1 : mulVec n A (fun j => if j = 0 then 1 else 0) 0 = 1 := by
    unfold mulVec
    rw [sum_eq_single 0]
    · simp [hA]
    · intro j _ hj
      simp [hj]
    · intro h0
      exact absurd (mem_range.2 hn) h0
  unfold dotP at hr
  rw [sum_range_one, h1] at hr
  simp at hr
  exact sub_eq_zero.1 hr

theorem exact_real (E : LstsqEnv) (hE : LstsqOk E) (v : ℝ) :
    (E.real [rowOne 0 0] [v]).getD 0 0 + (E.real [rowOne 0 0] [v]).getD 1 0 + (E.real [rowOne 0 0] [v]).getD 3 0 = v := by
  have h := (hE.real 5 [rowOne 0 0] [v] (by simp) (by simp [rowOne]) rfl).2
  generalize E.real [rowOne 0 0] [v] = x at h ⊢
  have := one_row_exact 5 _ _ _ (by simp [entry, rowOne]) (by norm_num) h
  unfold mulVec entry at this
  simp only [sum_range_succ, sum_range_zero, rowOne, List.getD_cons_zero, List.getD_cons_succ, radians] at this
  norm_num at this ⊢
  linarith

theorem exact_cplx (E : LstsqEnv) (hE : LstsqOk E) (v : ℂ) :
    (E.cplx [rowOne 0 0] [v]).getD 0 0 + (E.cplx [rowOne 0 0] [v]).getD 1 0 + (E.cplx [rowOne 0 0] [v]).getD 3 0 = v := by
  have h := (hE.cplx 5 [rowOne 0 0] [v] (by simp) (by simp [rowOne]) rfl).2
  generalize E.cplx [rowOne 0 0] [v] = x at h ⊢
  have := one_row_exact 5 _ _ _ (by simp [entry, rowOne]) (by norm_num) h
  unfold mulVec entry at this
  simp only [sum_range_succ, sum_range_zero, rowOne, List.getD_cons_zero, List.getD_cons_succ, radians] at this
  norm_num at this ⊢
  exact this

theorem hlFreq (E : LstsqEnv) : decompose E true [rowOne 0 0] [[0, 1]] [] 1 5 =
    .ok ((List.range 5).map fun (k : ℕ) => [((E.cplx [rowOne 0 0] [1]).getD k 0).re]) := by
  unfold decompose
  rw [if_pos rfl, fftRows_eq [[0, 1]] (by simp), fftRows_eq [] (by simp)]
  simp only [bind, Except.bind, List.map_nil, List.append_nil, List.map_cons]
  have hc : fit E.cplx [rowOne 0 0] [fft (toC [0, 1]) ([0, 1] : List ℝ).length] 0 =
      .ok (E.cplx [rowOne 0 0] [1]) := by
    rw [fit_eq E.cplx [rowOne 0 0] [fft (toC [0, 1]) ([0, 1] : List ℝ).length] 0 0
      (by intro r hr; rw [List.mem_singleton] at hr; rw [hr, fft_length]; norm_num) rfl]
    congr 2
    simp [fft, toC, sum_range_succ, W]
  have hm : (List.range 1).mapM (fit E.cplx [rowOne 0 0] [fft (toC [0, 1]) ([0, 1] : List ℝ).length]) =
      .ok [E.cplx [rowOne 0 0] [1]] := by
    have : List.range 1 = [0] := rfl
    rw [this, List.mapM_cons, hc]
    rfl
  rw [hm]
  simp only []
  rw [if_neg (by norm_num)]
  congr 1
  apply List.map_congr_left
  intro k _
  simp [ifft, W]

/-- C74 in general is wrong: if the traces used are longer than the first trace of the stream, the time method
returns the fit of the first samples, the frequency method something else. -/
theorem C74_counterexample (E : LstsqEnv) (hE : LstsqOk E) (info : Str) :
    ∃ out out', harmonics E info hlArgs hlHeap [0, 1] = .ok out ∧
      harmonics E info { hlArgs with method := "freq".toList } hlHeap [0, 1] = .ok out' ∧
      out.map (fun t => t.data) ≠ out'.map fun t => t.data := by
  have h1 := hlBody E "time".toList (Or.inl rfl)
  have h2 := hlBody E "freq".toList (Or.inr rfl)
  have hd1 : decide ("time".toList = "freq".toList) = false := by decide
  have hd2 : decide ("freq".toList = "freq".toList) = true := by decide
  rw [hd1, decompose_time E [rowOne 0 0] [[0, 1]] [] 1 5 (by simp) rfl] at h1
  rw [hd2, hlFreq] at h2
  obtain ⟨out, ho, hd⟩ := harmonics_data E info hlArgs hlHeap [0, 1] _ _ _ _ h1
  obtain ⟨out', ho', hd'⟩ := harmonics_data E info _ hlHeap [0, 1] _ _ _ _ h2
  refine ⟨out, out', ho, ho', ?_⟩
  rw [hd, hd']
  intro he
  have hk : ∀ k < 5, (E.real [rowOne 0 0] [0]).getD k 0 = ((E.cplx [rowOne 0 0] [1]).getD k 0).re := by
    intro k hk
    exact (List.cons.inj ((List.map_inj_left.1 he) k (List.mem_range.2 hk))).1
  have e1 := exact_real E hE 0
  have e2 := congrArg Complex.re (exact_cplx E hE 1)
  rw [Complex.add_re, Complex.add_re, ← hk 0 (by norm_num), ← hk 1 (by norm_num), ← hk 3 (by norm_num), e1] at e2
  simp at e2

/-- A loop whose steps fail with one kind of exception only fails with it if one of them does. -/
theorem mapM_one_error {α β : Type} (f : α → Res β) (e : PyErr) (l : List α) (h : ∀ x ∈ l, (∃ y, f x = .ok y) ∨ f x = .error e)
    (hx : ∃ x ∈ l, f x = .error e) : l.mapM f = .error e := by
  induction l with
  | nil => obtain ⟨x, hx, -⟩ := hx; simp at hx
  | cons a l ih =>
    rw [List.mapM_cons]
    rcases h a List.mem_cons_self with ⟨y, hy⟩ | ha
    · rw [hy]
      have : l.mapM f = .error e := by
        apply ih fun x hx => h x (List.mem_cons_of_mem _ hx)
        obtain ⟨x, hx, hxe⟩ := hx
        rcases List.mem_cons.1 hx with rfl | hx
        · rw [hy] at hxe; cases hxe
        · exact ⟨x, hx, hxe⟩
      simp only [bind, Except.bind, this]
    · rw [ha]; rfl

/-- C74: a trace that is shorter than the first trace of the stream raises `IndexError` in the time domain. -/
theorem C74_short (E : LstsqEnv) (jac : List (List ℝ)) (rowsR rowsT : List (List ℝ)) (npts nharm : ℕ)
    (hjac : jac.length = (rowsR ++ rowsT).length) (hshort : ∃ r ∈ rowsR ++ rowsT, r.length < npts) :
    decompose E false jac rowsR rowsT npts nharm = .error .indexError := by
  set rows := rowsR ++ rowsT with hrows
  have col : ∀ i, (∃ y, column rows i = .ok y ∧ y.length = rows.length) ∨ column rows i = .error .indexError := by
    intro i
    by_cases h : ∀ r ∈ rows, i < r.length
    · exact .inl ⟨_, column_eq rows i 0 h, by simp⟩
    · right
      push Not at h
      obtain ⟨r, hr, hi⟩ := h
      refine mapM_one_error _ _ _ (fun x _ => ?_) ⟨r, hr, by simp [List.getElem?_eq_none hi]⟩
      cases x[i]? with
      | none => exact .inr rfl
      | some y => exact .inl ⟨y, rfl⟩
  have hfit : (List.range npts).mapM (fit E.real jac rows) = .error .indexError := by
    obtain ⟨r, hr, hlt⟩ := hshort
    refine mapM_one_error _ _ _ (fun i _ => ?_) ⟨r.length, by simpa using hlt, ?_⟩
    · unfold fit
      rcases col i with ⟨y, hy, hl⟩ | h
      · rw [hy]
        simp only
        rw [if_pos (by rw [hl, hjac])]
        exact .inl ⟨_, rfl⟩
      · rw [h]; exact .inr rfl
    · have : column rows r.length = .error .indexError := by
        refine mapM_one_error _ _ _ (fun x _ => ?_) ⟨r, hr, by simp⟩
        cases x[r.length]? with
        | none => exact .inr rfl
        | some y => exact .inl ⟨y, rfl⟩
      unfold fit
      rw [this]
  unfold decompose
  simp only [Bool.false_eq_true, if_false, bind, Except.bind]
  rw [← hrows, hfit]

example (E : LstsqEnv) : decompose E false [[1, 0, 0, 0, 0]] [[7, 8]] [] 3 5 = .error .indexError :=
  C74_short E _ _ _ _ _ rfl ⟨[7, 8], by simp, by simp⟩

end Verif.Props
