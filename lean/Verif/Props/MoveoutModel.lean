import Verif.Props.MoveoutTime

/-!
# Moveout with the tables of a velocity model: C33, C36; S multiples; C39
-/

set_option linter.unusedSimpArgs false
set_option linter.unusedSectionVars false

namespace Verif.Props
open Verif.Py Verif.Model.Simple Verif.Spec

section tables
variable {K : Type} [Field K] [LinearOrder K] [IsStrictOrderedRing K] (sqrt : K → K)

/-- What is used of the square root in C36: non-negative and strictly monotone on non-negative numbers. -/
def SqrtStrict (sqrt : K → K) : Prop :=
  ∀ x y, 0 ≤ x → (0 ≤ sqrt x ∧ (x < y → sqrt x < sqrt y))

theorem SqrtStrict.mono {sqrt : K → K} (h : SqrtStrict sqrt) : SqrtMono sqrt := by
  intro x y hx hxy
  refine ⟨(h x y hx).1, ?_⟩
  rcases lt_or_eq_of_le hxy with hlt | rfl
  · exact ((h x y hx).2 hlt).le
  · rfl

/-- The delay times for a P phase as a list of numbers. -/
def delayList (phase : Str) (layers : List (Layer K)) (s : K) : List K :=
  (List.range layers.length).map fun (k : Nat) =>
    delaySpec sqrt ((upper phase).count 'P') ((upper phase).count 'S')
      ((upper phase).head? = some 'P') layers s k

/-- The tables returned by `stretch_delay_times` on a fresh model. -/
theorem stretch_tables (m : SimpleModel K) (layers : List (Layer K))
    (hvp : m.vp = layers.map Layer.vp) (hvs : m.vs = layers.map Layer.vs)
    (hdz : m.dz = layers.map Layer.dz) (hfresh : m.tRef = []) (s ref : K) (phase : Str)
    (heven : phase.length % 2 = 0)
    (hletters : ∀ c ∈ upper phase, c = 'P' ∨ c = 'S') (hfirst : (upper phase).head? = some 'P')
    (hprop : Propagates layers s) (hpropr : Propagates layers ref) :
    (stretch sqrt m s phase ref).2 = .ok ((mirrorK (delayList sqrt phase layers s)).map some,
      (mirrorK (delayList sqrt phase layers ref)).map some) := by
  have hne : phase ≠ [] := by rintro rfl; simp at hfirst
  have hd : ∀ x, Propagates layers x → delayTimes sqrt m x (upper phase)
      = .ok ((delayList sqrt phase layers x).map some) := by
    intro x hx
    rw [C28_only_letters sqrt m x (upper phase) phase (by rw [upper_idem]) (by rw [upper_idem]),
      C28_delay_times sqrt m layers hvp hvs hdz x phase hne hletters hx]
    simp [delayList, Function.comp_def]
  have hl : ∀ x, (delayList sqrt phase layers x).length = layers.length := by
    intro x; simp [delayList]
  unfold stretch
  rw [if_neg (by omega)]
  simp only [hfresh, lookupRef, List.find?_nil, Option.map_none, hd s hprop, hd ref hpropr, hfirst,
    Option.some.injEq, show ('P' : Char) ≠ 'S' by decide, if_false, firstNaN_some,
    List.length_map]
  rw [hl s]
  conv_lhs =>
    rw [show ((layers.length : Int)) = (((delayList sqrt phase layers s).map some).length : Int) by
      simp [hl]]
  rw [sliceTo_length]
  rw [show (((delayList sqrt phase layers s).map some).length : Int)
    = (((delayList sqrt phase layers ref).map some).length : Int) by simp [hl],
    sliceTo_length, mirror_some, mirror_some]

theorem sum_pos_iff_exists (l : List K) (h : ∀ x ∈ l, 0 ≤ x) : 0 < l.sum ↔ ∃ x ∈ l, 0 < x := by
  induction l with
  | nil => simp
  | cons a l ih =>
    have ha := h a (by simp)
    have hl : 0 ≤ l.sum := List.sum_nonneg fun x hx => h x (by simp [hx])
    have ih := ih fun x hx => h x (by simp [hx])
    rw [List.sum_cons]
    constructor
    · intro hp
      rcases lt_or_eq_of_le ha with h1 | h1
      · exact ⟨a, by simp, h1⟩
      · obtain ⟨x, hx, hx0⟩ := ih.1 (by rw [← h1] at hp; simpa using hp)
        exact ⟨x, by simp [hx], hx0⟩
    · rintro ⟨x, hx, hx0⟩
      rcases List.mem_cons.1 hx with rfl | hx
      · linarith
      · have := ih.2 ⟨x, hx, hx0⟩
        linarith

theorem sum_take_lt_iff {L : Type} (l : List L) (f : L → K) (hf : ∀ x ∈ l, 0 ≤ f x) (i j : Nat) :
    (((l.take i).map f).sum < ((l.take j).map f).sum) ↔ ∃ x ∈ (l.take j).drop i, 0 < f x := by
  rcases le_total j i with hij | hij
  · have h1 : (l.take j).drop i = [] := by
      apply List.drop_eq_nil_of_le; simp; omega
    have h2 : ((l.take j).map f).sum ≤ ((l.take i).map f).sum := by
      have : l.take j = (l.take i).take j := by rw [List.take_take]; congr 1; omega
      have happ : (l.take i).map f = (l.take j).map f ++ (((l.take i).drop j).map f) := by
        rw [← List.map_append]; congr 1; rw [this]; simp
      rw [happ, List.sum_append]
      have : 0 ≤ (((l.take i).drop j).map f).sum := by
        apply List.sum_nonneg
        intro x hx
        obtain ⟨y, hy, rfl⟩ := List.mem_map.1 hx
        exact hf y (List.mem_of_mem_take (List.mem_of_mem_drop hy))
      linarith
    simp only [h1, List.not_mem_nil, false_and, exists_false, iff_false, not_lt]
    exact h2
  · have happ : (l.take j).map f = (l.take i).map f ++ (((l.take j).drop i).map f) := by
      rw [← List.map_append]; congr 1
      have : l.take i = (l.take j).take i := by rw [List.take_take]; congr 1; omega
      rw [this]; simp
    rw [happ, List.sum_append, lt_add_iff_pos_right, sum_pos_iff_exists]
    · constructor
      · rintro ⟨x, hx, h0⟩
        obtain ⟨y, hy, rfl⟩ := List.mem_map.1 hx
        exact ⟨y, hy, h0⟩
      · rintro ⟨y, hy, h0⟩
        exact ⟨f y, List.mem_map_of_mem hy, h0⟩
    · intro x hx
      obtain ⟨y, hy, rfl⟩ := List.mem_map.1 hx
      exact hf y (List.mem_of_mem_take (List.mem_of_mem_drop hy))

/-- One term of the delay of a P phase is positive iff the layer has a thickness. -/
theorem term_pos_iff (hs : SqrtStrict sqrt) (l : Layer K) (s : K)
    (hv : 0 < l.vs ∧ l.vs < l.vp ∧ 0 ≤ l.dz)
    (hp : (s / (1112 / 10)) ^ 2 ≤ 1 / l.vp ^ 2) (nP nS : Nat) (hP : 1 ≤ nP) (hS : 1 ≤ nS) :
    (0 < ((nP : K) * qSpec sqrt l.vp s + (nS : K) * qSpec sqrt l.vs s
      - 2 * qSpec sqrt l.vp s) * l.dz) ↔ 0 < l.dz := by
  have hvp : 0 < l.vp := lt_trans hv.1 hv.2.1
  have hle : 1 / l.vp ^ 2 < 1 / l.vs ^ 2 :=
    one_div_lt_one_div_of_lt (pow_pos hv.1 2) (pow_lt_pow_left₀ hv.2.1 hv.1.le (by norm_num))
  have h0 : 0 ≤ 1 / l.vp ^ 2 - (s / (1112 / 10)) ^ 2 := by linarith
  obtain ⟨q0, q1⟩ := hs _ (1 / l.vs ^ 2 - (s / (1112 / 10)) ^ 2) h0
  have q1 := q1 (by linarith)
  have hc : 0 < (nP : K) * qSpec sqrt l.vp s + (nS : K) * qSpec sqrt l.vs s
      - 2 * qSpec sqrt l.vp s := by
    unfold qSpec
    have hP' : (1 : K) ≤ nP := by exact_mod_cast hP
    have hS' : (1 : K) ≤ nS := by exact_mod_cast hS
    nlinarith [mul_nonneg (sub_nonneg.2 hP') q0, mul_nonneg (sub_nonneg.2 hS') (q0.trans q1.le)]
  constructor
  · intro h; exact (pos_iff_pos_of_mul_pos h).1 hc
  · intro h; exact mul_pos hc h

/-- Entry `i` of a mirrored table. -/
theorem mirrorK_getD (t : List K) (i : Nat) (hi : i < (mirrorK t).length) :
    (mirrorK t).length = min 9 (t.length - 1) + t.length ∧
    (mirrorK t).getD i 0 = if i < min 9 (t.length - 1) then - t.getD (min 9 (t.length - 1) - i) 0
      else t.getD (i - min 9 (t.length - 1)) 0 := by
  have hsl : (slice t 1 10).length = min 9 (t.length - 1) := by
    simp [slice, clampIdx]; omega
  have hlen : (mirrorK t).length = min 9 (t.length - 1) + t.length := by
    unfold mirrorK
    rw [List.length_append, List.length_reverse, List.length_map, hsl]
  refine ⟨hlen, ?_⟩
  rw [hlen] at hi
  split
  · rename_i h
    rw [List.getD_eq_getElem _ _ (by omega), List.getD_eq_getElem _ _ (by omega)]
    simp only [mirrorK]
    rw [List.getElem_append_left (by simp [hsl]; omega), List.getElem_reverse, List.getElem_map]
    congr 1
    simp only [slice, List.getElem_drop, List.getElem_take, List.length_map]
    congr 1
    have : (List.drop (clampIdx t.length 1) (List.take (clampIdx t.length 10) t)).length
      = min 9 (t.length - 1) := hsl
    rw [this]
    simp only [clampIdx]
    norm_num
    omega
  · rename_i h
    rw [List.getD_eq_getElem _ _ (by omega), List.getD_eq_getElem _ _ (by omega)]
    simp only [mirrorK]
    rw [List.getElem_append_right (by simp [hsl]; omega)]
    congr 1
    simp [hsl]

/-- Two tables of the same length with the same order of entries and the same positive entries
have mirrored tables with the same order of entries. -/
theorem mirrorK_compat (t r : List K) (hl : t.length = r.length) (ht : ∀ i, 0 ≤ t.getD i 0)
    (hr : ∀ i, 0 ≤ r.getD i 0) (hpos : ∀ i, 0 < t.getD i 0 ↔ 0 < r.getD i 0)
    (hord : ∀ i j, t.getD i 0 < t.getD j 0 ↔ r.getD i 0 < r.getD j 0) (i j : Nat)
    (hi : i < (mirrorK t).length) (hj : j < (mirrorK t).length) :
    (mirrorK t).getD i 0 < (mirrorK t).getD j 0 ↔ (mirrorK r).getD i 0 < (mirrorK r).getD j 0 := by
  have hlr : (mirrorK t).length = (mirrorK r).length := by
    unfold mirrorK slice clampIdx; simp [hl]
  obtain ⟨-, h1⟩ := mirrorK_getD t i hi
  obtain ⟨-, h2⟩ := mirrorK_getD t j hj
  obtain ⟨-, h3⟩ := mirrorK_getD r i (by omega)
  obtain ⟨-, h4⟩ := mirrorK_getD r j (by omega)
  rw [h1, h2, h3, h4, ← hl]
  generalize min 9 (t.length - 1) = m
  have hmix : ∀ (a b : Nat), (- t.getD a 0 < t.getD b 0) ↔ (- r.getD a 0 < r.getD b 0) := by
    intro a b
    have key : ∀ u : List K, (∀ i, 0 ≤ u.getD i 0) →
        ((- u.getD a 0 < u.getD b 0) ↔ (0 < u.getD a 0 ∨ 0 < u.getD b 0)) := by
      intro u hu
      constructor
      · intro h
        by_contra hcon
        simp only [not_or, not_lt] at hcon
        linarith [hu a, hu b, hcon.1, hcon.2]
      · rintro (h | h) <;> linarith [hu a, hu b]
    rw [key t ht, key r hr, hpos a, hpos b]
  split <;> split
  · rw [neg_lt_neg_iff, neg_lt_neg_iff]; exact hord _ _
  · exact hmix _ _
  · constructor
    · intro h; linarith [ht (i - m), ht (m - j)]
    · intro h; linarith [hr (i - m), hr (m - j)]
  · exact hord _ _

/-- Facts about the delay times of a P phase with conversion. -/
theorem delayList_facts (hs : SqrtStrict sqrt) (layers : List (Layer K)) (s ref : K) (phase : Str)
    (hfirst : (upper phase).head? = some 'P')
    (hS : 'S' ∈ upper phase) (hprop : Propagates layers s) (hpropr : Propagates layers ref)
    (hv : ∀ l ∈ layers, 0 < l.vs ∧ l.vs < l.vp ∧ 0 ≤ l.dz) :
    let t := delayList sqrt phase layers s
    let r := delayList sqrt phase layers ref
    t.length = r.length ∧ (∀ i, 0 ≤ t.getD i 0) ∧ (∀ i, 0 < t.getD i 0 ↔ 0 < r.getD i 0) ∧
      (∀ i j, t.getD i 0 < t.getD j 0 ↔ r.getD i 0 < r.getD j 0) ∧
      (∀ i j, i ≤ j → j < t.length → t.getD i 0 ≤ t.getD j 0) := by
  have hP1 : 1 ≤ (upper phase).count 'P' := List.one_le_count_iff.2 (List.mem_of_mem_head? hfirst)
  have hS1 : 1 ≤ (upper phase).count 'S' := List.one_le_count_iff.2 hS
  set f : K → Layer K → K := fun s l =>
    (((upper phase).count 'P' : K) * qSpec sqrt l.vp s + ((upper phase).count 'S' : K) * qSpec sqrt l.vs s
      - 2 * qSpec sqrt l.vp s) * l.dz with hf
  have hf0 : ∀ x, Propagates layers x → ∀ l ∈ layers, 0 ≤ f x l := by
    intro x hx l hl
    exact delaySpec_term_nonneg sqrt hs.mono l x ⟨(hv l hl).1, (hv l hl).2.1.le, (hv l hl).2.2⟩
      (hx l hl).1 _ _ hP1 hS1
  have hfpos : ∀ x, Propagates layers x → ∀ l ∈ layers, (0 < f x l ↔ 0 < l.dz) := by
    intro x hx l hl
    exact term_pos_iff sqrt hs l x (hv l hl) (hx l hl).1 _ _ hP1 hS1
  -- entry `i` as partial sum; entries outside of the list are 0
  have hget : ∀ x i, (delayList sqrt phase layers x).getD i 0
      = ((layers.take (if i < layers.length then i + 1 else 0)).map (f x)).sum := by
    intro x i
    by_cases hi : i < layers.length
    · unfold delayList
      rw [getD_map_range _ hi, if_pos hi]
      simp only [delaySpec, hfirst, decide_true, if_true, hf]
    · rw [if_neg hi, List.getD_eq_default _ _ (by simp [delayList]; omega)]
      simp
  have hlt : ∀ x, Propagates layers x → ∀ i j, ((layers.take i).map (f x)).sum
      < ((layers.take j).map (f x)).sum ↔ ∃ l ∈ (layers.take j).drop i, 0 < l.dz := by
    intro x hx i j
    rw [sum_take_lt_iff layers (f x) (hf0 x hx) i j]
    constructor
    · rintro ⟨l, hl, hp⟩
      exact ⟨l, hl, (hfpos x hx l (List.mem_of_mem_take (List.mem_of_mem_drop hl))).1 hp⟩
    · rintro ⟨l, hl, hp⟩
      exact ⟨l, hl, (hfpos x hx l (List.mem_of_mem_take (List.mem_of_mem_drop hl))).2 hp⟩
  refine ⟨by simp [delayList], ?_, ?_, ?_, ?_⟩
  · intro i
    rw [hget]
    apply List.sum_nonneg
    intro y hy
    obtain ⟨l, hl, rfl⟩ := List.mem_map.1 hy
    exact hf0 s hprop l (List.mem_of_mem_take hl)
  · intro i
    rw [hget, hget]
    have h1 := hlt s hprop 0 (if i < layers.length then i + 1 else 0)
    have h2 := hlt ref hpropr 0 (if i < layers.length then i + 1 else 0)
    simp only [List.take_zero, List.map_nil, List.sum_nil] at h1 h2
    rw [h1, h2]
  · intro i j
    rw [hget, hget, hget, hget, hlt s hprop, hlt ref hpropr]
  · intro i j hij hj
    rw [hget, hget]
    have hj' : j < layers.length := by simpa [delayList] using hj
    rw [if_pos hj', if_pos (by omega)]
    by_contra hcon
    obtain ⟨l, hl, -⟩ := (hlt s hprop _ _).1 (not_le.1 hcon)
    rw [List.drop_eq_nil_of_le (by simp; omega)] at hl
    simp at hl

variable [FloorRing K] (find : List K → K → Nat)

theorem allSome_map (l : List K) : allSome (l.map some) = some l := by
  induction l with
  | nil => rfl
  | cons a l ih => simp [allSome, ih]

/-- Moveout of one trace with the tables of a fresh model. -/
theorem step_tables (nanCase : Trace K → Res (List K)) (m : SimpleModel K) (layers : List (Layer K))
    (hvp : m.vp = layers.map Layer.vp) (hvs : m.vs = layers.map Layer.vs)
    (hdz : m.dz = layers.map Layer.dz) (hfresh : m.tRef = []) (s ref : K) (phase : Str)
    (heven : phase.length % 2 = 0)
    (hletters : ∀ c ∈ upper phase, c = 'P' ∨ c = 'S') (hfirst : (upper phase).head? = some 'P')
    (hprop : Propagates layers s) (hpropr : Propagates layers ref)
    (tr tr' : Trace K) (onset : K) (hon : tr.getTime "onset" = some onset)
    (hslow : tr.getNum "slowness" = some s)
    (h : (moveoutStep sqrt find nanCase phase ref m tr).2 = .ok tr') :
    tr.start ≤ onset ∧ onset ≤ tr.endtime ∧
    moveoutData find tr onset phase (mirrorK (delayList sqrt phase layers s))
      (mirrorK (delayList sqrt phase layers ref)) = .ok tr'.data ∧
    tr' = { tr with data := tr'.data } := by
  have hst := stretch_tables sqrt m layers hvp hvs hdz hfresh s ref phase heven hletters hfirst hprop
    hpropr
  unfold moveoutStep at h
  simp only [hon, hslow] at h
  split at h
  · simp at h
  · rename_i hin
    rw [not_not] at hin
    refine ⟨hin.1, hin.2, ?_⟩
    rcases hS : stretch sqrt m s phase ref with ⟨m', r⟩
    rw [hS] at hst h
    simp only at hst
    subst hst
    simp only [allSome_map] at h
    cases hm : moveoutData find tr onset phase (mirrorK (delayList sqrt phase layers s))
      (mirrorK (delayList sqrt phase layers ref)) with
    | error e => simp [hm] at h
    | ok d =>
      simp only [hm, Except.ok.injEq] at h
      rw [← h]
      exact ⟨rfl, rfl⟩

theorem mirrorK_first (t : List K) (h : 2 ≤ t.length) :
    (mirrorK t).getD 0 0 = - t.getD (min 9 (t.length - 1)) 0 := by
  have hlen := (mirrorK_getD t 0 (by unfold mirrorK; simp; omega)).2
  rw [if_pos (by omega)] at hlen
  simpa using hlen

theorem mirrorK_shift (t : List K) (j : Nat) (hj : j < t.length) :
    (mirrorK t).getD (min 9 (t.length - 1) + j) 0 = t.getD j 0 ∧
    min 9 (t.length - 1) + j < (mirrorK t).length := by
  have hl : (mirrorK t).length = min 9 (t.length - 1) + t.length :=
    (mirrorK_getD t 0 (by unfold mirrorK; simp; omega)).1
  have hlen := (mirrorK_getD t (min 9 (t.length - 1) + j) (by rw [hl]; omega)).2
  rw [if_neg (by omega), Nat.add_sub_cancel_left] at hlen
  exact ⟨hlen, by omega⟩

theorem onset_sample_time (tr : Trace K) (onset : K) (hsr : 0 < tr.sr) (i : Nat)
    (h : (onset - tr.start) * tr.sr < (i : K) + 1) : - tr.delta ≤ sampleTime tr onset i := by
  unfold sampleTime Trace.delta
  have h1 : (onset - tr.start) < ((i : K) + 1) / tr.sr := by rwa [lt_div_iff₀ hsr]
  rw [add_div] at h1
  linarith

/-- **C36 (P phases).** With a velocity model (layers with `vs < vp`): the sample at the delay time of the
bottom of layer `j` for the slowness of the trace is moved to the sample at the delay time of the
same layer for the reference slowness.  Conditions: the layer is not the last one to delay (later
samples are cut), one sampling interval is covered by the mirrored part of the table. -/
theorem C36_conversion_partial (hf : FindSpec find) (hs : SqrtStrict sqrt)
    (nanCase : Trace K → Res (List K)) (m : SimpleModel K) (layers : List (Layer K))
    (hvp : m.vp = layers.map Layer.vp) (hvs : m.vs = layers.map Layer.vs)
    (hdz : m.dz = layers.map Layer.dz) (hfresh : m.tRef = []) (s ref : K) (phase : Str)
    (heven : phase.length % 2 = 0)
    (hletters : ∀ c ∈ upper phase, c = 'P' ∨ c = 'S') (hfirst : (upper phase).head? = some 'P')
    (hS : 'S' ∈ upper phase) (hprop : Propagates layers s) (hpropr : Propagates layers ref)
    (hv : ∀ l ∈ layers, 0 < l.vs ∧ l.vs < l.vp ∧ 0 ≤ l.dz)
    (tr tr' : Trace K) (onset : K) (hsr : 0 < tr.sr) (hon : tr.getTime "onset" = some onset)
    (hslow : tr.getNum "slowness" = some s)
    (h : (moveoutStep sqrt find nanCase phase ref m tr).2 = .ok tr')
    (j : Nat) (hj : j < layers.length)
    (delay : K → Nat → K)
    (hdelay : delay = fun x k => delaySpec sqrt ((upper phase).count 'P') ((upper phase).count 'S')
      true layers x k)
    (hpos : 0 < delay s j) (hlast : delay s j < delay s (layers.length - 1))
    (hδ : tr.delta ≤ delay s (min 9 (layers.length - 1)))
    (k k' : Nat) (hk : k < tr.data.length) (hk' : k' < tr.data.length)
    (hkt : tr.start + (k : K) / tr.sr - onset = delay s j)
    (hkt' : tr.start + (k' : K) / tr.sr - onset = delay ref j) :
    tr'.data[k']? = tr.data[k]? := by
  obtain ⟨h1, h2, h3, -⟩ := step_tables sqrt find nanCase m layers hvp hvs hdz hfresh s ref phase
    heven hletters hfirst hprop hpropr tr tr' onset hon hslow h
  obtain ⟨e1, e2, e3, e4, e5⟩ := delayList_facts sqrt hs layers s ref phase hfirst hS hprop hpropr hv
  obtain ⟨-, e2r, -, -, e5r⟩ := delayList_facts sqrt hs layers ref s phase hfirst hS hpropr hprop hv
  have hdl : ∀ x k, k < layers.length → (delayList sqrt phase layers x).getD k 0 = delay x k := by
    intro x k hk
    unfold delayList
    rw [getD_map_range _ hk, hdelay]
    simp [hfirst]
  have hlt : (delayList sqrt phase layers s).length = layers.length := by simp [delayList]
  have hlr : (delayList sqrt phase layers ref).length = layers.length := by simp [delayList]
  set t := delayList sqrt phase layers s with ht
  set r := delayList sqrt phase layers ref with hr
  have hn2 : 2 ≤ t.length := by
    by_contra hcon
    have : j = layers.length - 1 := by omega
    rw [← this] at hlast
    exact lt_irrefl _ hlast
  obtain ⟨s1, s2⟩ := mirrorK_shift t j (by omega)
  obtain ⟨s3, s4⟩ := mirrorK_shift r j (by omega)
  rw [← e1] at s3 s4
  have hjpos : 0 < t.getD j 0 := by rw [hdl s j hj]; exact hpos
  have nonneg_mem : ∀ u : List K, (∀ i, 0 ≤ u.getD i 0) → ∀ x ∈ u, 0 ≤ x := by
    intro u hu x hx
    obtain ⟨i, hi, rfl⟩ := List.mem_iff_getElem.1 hx
    have := hu i
    rwa [List.getD_eq_getElem _ _ hi] at this
  have sorted_of : ∀ u : List K, (∀ i j, i ≤ j → j < u.length → u.getD i 0 ≤ u.getD j 0) →
      u.Pairwise (· ≤ ·) := fun u hu => (increasing_iff_pairwise u).1 hu
  obtain ⟨l1, l2⟩ := mirrorK_shift t (t.length - 1) (by omega)
  have hL := (mirrorK_getD t 0 (by omega)).1
  have hML : min 9 (t.length - 1) + (t.length - 1) = (mirrorK t).length - 1 := by omega
  rw [hML] at l1
  have hS' : isSMultiple phase = false := by
    unfold isSMultiple
    rw [hfirst]; simp
  refine C36_moves_sample_partial find hf tr onset phase (mirrorK t) (mirrorK r) tr'.data hsr h1 h2 hS'
    h3 (mirrorK_sorted t (nonneg_mem t e2) (sorted_of t e5))
    (mirrorK_sorted r (nonneg_mem r e2r) (sorted_of r e5r))
    (fun a b ha hb => mirrorK_compat t r e1 e2 e2r e3 e4 a b ha hb) ?_
    (min 9 (t.length - 1) + j) s2 ?_ ?_ ?_ k k' hk hk' ?_ ?_
  · intro i hi
    rw [mirrorK_first t hn2, hlt, hdl s _ (by omega)]
    exact (neg_le_neg hδ).trans (onset_sample_time tr onset hsr i hi)
  · rw [s1]; exact hjpos
  · rw [s3]; exact (e3 j).1 hjpos
  · rw [s1, l1, hdl s j hj, hlt, hdl s _ (by omega)]; exact hlast
  · rw [s1, hdl s j hj]; exact hkt
  · rw [s3, hdl ref j hj]; exact hkt'

/-- **C33 (P phases).** A trace whose slowness is the reference slowness is unchanged on all samples
earlier than the largest tabulated delay time. -/
theorem C33_identity_partial (hf : FindSpec find) (hs : SqrtMono sqrt)
    (nanCase : Trace K → Res (List K)) (m : SimpleModel K) (layers : List (Layer K))
    (hvp : m.vp = layers.map Layer.vp) (hvs : m.vs = layers.map Layer.vs)
    (hdz : m.dz = layers.map Layer.dz) (hfresh : m.tRef = []) (s : K) (phase : Str)
    (heven : phase.length % 2 = 0)
    (hletters : ∀ c ∈ upper phase, c = 'P' ∨ c = 'S') (hfirst : (upper phase).head? = some 'P')
    (hS : 'S' ∈ upper phase) (hprop : Propagates layers s)
    (hv : ∀ l ∈ layers, 0 < l.vs ∧ l.vs ≤ l.vp ∧ 0 ≤ l.dz)
    (tr tr' : Trace K) (onset : K) (hsr : 0 < tr.sr) (hon : tr.getTime "onset" = some onset)
    (hslow : tr.getNum "slowness" = some s)
    (h : (moveoutStep sqrt find nanCase phase s m tr).2 = .ok tr')
    (hn2 : 2 ≤ layers.length)
    (delay : Nat → K)
    (hdelay : delay = fun k => delaySpec sqrt ((upper phase).count 'P') ((upper phase).count 'S')
      true layers s k)
    (hδ : tr.delta ≤ delay (min 9 (layers.length - 1)))
    (k : Nat) (hkt : tr.start + (k : K) / tr.sr - onset < delay (layers.length - 1)) :
    tr'.data[k]? = tr.data[k]? := by
  obtain ⟨h1, h2, h3, -⟩ := step_tables sqrt find nanCase m layers hvp hvs hdz hfresh s s phase
    heven hletters hfirst hprop hprop tr tr' onset hon hslow h
  obtain ⟨t', ht', hl', h0', hsort'⟩ := C29_nonneg_monotone sqrt hs m layers hvp hvs hdz s phase
    hletters hfirst hS hprop hv
  have hne : phase ≠ [] := by rintro rfl; simp at hfirst
  have htt : t' = delayList sqrt phase layers s := by
    rw [C28_delay_times sqrt m layers hvp hvs hdz s phase hne hletters hprop] at ht'
    simp only [Except.ok.injEq] at ht'
    have : (delayList sqrt phase layers s).map some = t'.map some := by
      rw [← ht']; simp [delayList, Function.comp_def]
    exact (List.map_injective_iff.2 (Option.some_injective K) this).symm
  have hdl : ∀ k, k < layers.length → (delayList sqrt phase layers s).getD k 0 = delay k := by
    intro k hk
    unfold delayList
    rw [getD_map_range _ hk, hdelay]
    simp [hfirst]
  have hlt : (delayList sqrt phase layers s).length = layers.length := by simp [delayList]
  rw [← htt] at h3 hdl hlt
  have hS' : isSMultiple phase = false := by
    unfold isSMultiple
    rw [hfirst]; simp
  obtain ⟨l1, l2⟩ := mirrorK_shift t' (t'.length - 1) (by omega)
  have hL := (mirrorK_getD t' 0 (by omega)).1
  have hML : min 9 (t'.length - 1) + (t'.length - 1) = (mirrorK t').length - 1 := by omega
  rw [hML] at l1
  refine C33_same_table_partial find hf tr onset phase (mirrorK t') tr'.data hsr h1 h2 hS' h3
    (mirrorK_sorted t' h0' hsort') ?_ k ?_
  · intro i hi
    rw [mirrorK_first t' (by omega), hlt, hdl _ (by omega)]
    exact (neg_le_neg hδ).trans (onset_sample_time tr onset hsr i hi)
  · rw [l1, hlt, hdl _ (by omega)]
    exact hkt

/-- The tables of `Sp` are the tables of `Ps`, so C33 and C36 also hold for `Sp`. -/
theorem C36_sp_is_ps (m : SimpleModel K) (layers : List (Layer K))
    (hvp : m.vp = layers.map Layer.vp) (hvs : m.vs = layers.map Layer.vs)
    (hdz : m.dz = layers.map Layer.dz) (hfresh : m.tRef = []) (s ref : K)
    (hprop : Propagates layers s) (hpropr : Propagates layers ref)
    (nanCase : Trace K → Res (List K)) (tr : Trace K) (hslow : tr.getNum "slowness" = some s) :
    (moveoutStep sqrt find nanCase "Sp".toList ref m tr).2
      = (moveoutStep sqrt find nanCase "Ps".toList ref m tr).2 := by
  have hsp : (stretch sqrt m s "Sp".toList ref).2 = (stretch sqrt m s "Ps".toList ref).2 := by
    rw [stretch_tables sqrt m layers hvp hvs hdz hfresh s ref "Ps".toList (by decide) (by decide)
      (by decide) hprop hpropr]
    have hd : ∀ x, Propagates layers x → delayTimes sqrt m x (upper "Sp".toList)
        = .ok (negO ((delayList sqrt "Ps".toList layers x).map some)) := by
      intro x hx
      rw [C28_only_letters sqrt m x (upper "Sp".toList) "Sp".toList (by rw [upper_idem])
        (by rw [upper_idem]),
        C28_delay_times sqrt m layers hvp hvs hdz x "Sp".toList (by decide) (by decide) hx]
      unfold negO delayList
      rw [List.map_map, List.map_map]
      congr 1
      apply List.map_congr_left
      intro k _
      obtain ⟨p1, p2, -⟩ := C28_common_phases sqrt layers x k
      simp only at p1 p2
      simp only [Function.comp_def, Option.map_some, p1, p2]
    have hneg : ∀ u : List (Option K), negO (negO u) = u := by
      intro u; unfold negO; rw [List.map_map]
      conv_rhs => rw [← List.map_id u]
      apply List.map_congr_left
      intro x _
      cases x <;> simp
    have hhead : (upper "Sp".toList).head? = some 'S' := by decide
    have hl : ∀ x, (delayList sqrt "Ps".toList layers x).length = layers.length := by
      intro x; simp [delayList]
    unfold stretch
    rw [if_neg (by decide)]
    simp only [hfresh, lookupRef, List.find?_nil, Option.map_none, hd s hprop, hd ref hpropr, hhead,
      if_true, hneg, firstNaN_some, List.length_map]
    rw [hl s]
    conv_lhs =>
      rw [show ((layers.length : Int)) = (((delayList sqrt "Ps".toList layers s).map some).length : Int) by
        rw [List.length_map, hl]]
    rw [sliceTo_length]
    rw [show (((delayList sqrt "Ps".toList layers s).map some).length : Int)
      = (((delayList sqrt "Ps".toList layers ref).map some).length : Int) by
        rw [List.length_map, List.length_map, hl, hl],
      sliceTo_length, mirror_some, mirror_some]
  unfold moveoutStep
  cases tr.getTime "onset" with
  | none => rfl
  | some onset =>
    simp only [hslow]
    split
    · rfl
    · rcases h1 : stretch sqrt m s "Sp".toList ref with ⟨m1, r1⟩
      rcases h2 : stretch sqrt m s "Ps".toList ref with ⟨m2, r2⟩
      rw [h1, h2] at hsp
      simp only at hsp
      subst hsp
      cases r1 with
      | error e => rfl
      | ok p =>
        obtain ⟨t0, t1⟩ := p
        simp only [moveoutData, show isSMultiple "Sp".toList = false by decide,
          show isSMultiple "Ps".toList = false by decide]
        split <;> simp_all

end tables
end Verif.Props
