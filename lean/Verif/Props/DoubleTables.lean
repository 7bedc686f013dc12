import Verif.Props.DoubleDelayErr
import Verif.Props.Delay

/-!
# C219: the tables of delay times of move out are close to the exact ones
-/

set_option linter.unusedSimpArgs false
set_option linter.unusedSectionVars false

namespace Verif.Spec

/-- Tables of the same length without NaN whose entries differ by at most `ε`. -/
def CloseTables (ε : ℝ) (t : List (Option ℚ)) (u : List (Option ℝ)) : Prop :=
  List.Forall₂ (fun o p => ∃ (x : ℚ) (y : ℝ), o = some x ∧ p = some y ∧ |(x : ℝ) - y| ≤ ε) t u

/-- Doubles as real numbers; nothing is cached. -/
noncomputable def realModel (m : Model.Simple.SimpleModel ℚ) : Model.Simple.SimpleModel ℝ :=
  ⟨m.z.map (↑), m.dz.map (↑), m.vp.map (↑), m.vs.map (↑), []⟩

/-- The bound of C218. -/
noncomputable def delayBound (ph : List Char) (layers : List (Layer ℚ)) (v : ℚ) (c : ℝ) : ℝ :=
  (ph.count 'P' + ph.count 'S' + 2 : ℝ) * (((layers.map Layer.dz).sum : ℚ) / v) * ((64 / c + 4 * layers.length) / 2 ^ 53)

end Verif.Spec

namespace Verif.Props
open Verif.Py Verif.Model Verif.Model.Simple Verif.Model.DoubleDelay Verif.Spec

theorem close_neg (ε : ℝ) (t : List (Option ℚ)) (u : List (Option ℝ)) (h : CloseTables ε t u) : CloseTables ε (negO t) (negO u) := by
  unfold CloseTables negO at *
  rw [List.forall₂_map_left_iff, List.forall₂_map_right_iff]
  refine h.imp ?_
  rintro o p ⟨x, y, rfl, rfl, e⟩
  refine ⟨-x, -y, rfl, rfl, ?_⟩
  push_cast
  rw [← abs_neg]
  have : -(-(x : ℝ) - -y) = x - y := by ring
  rwa [this]

theorem close_take (ε : ℝ) (n : Nat) (t : List (Option ℚ)) (u : List (Option ℝ)) (h : CloseTables ε t u) : CloseTables ε (t.take n) (u.take n) :=
  List.forall₂_take n h

theorem close_drop (ε : ℝ) (n : Nat) (t : List (Option ℚ)) (u : List (Option ℝ)) (h : CloseTables ε t u) : CloseTables ε (t.drop n) (u.drop n) :=
  List.forall₂_drop n h

theorem close_mirror (ε : ℝ) (t : List (Option ℚ)) (u : List (Option ℝ)) (h : CloseTables ε t u) : CloseTables ε (mirror t) (mirror u) := by
  have hl : t.length = u.length := List.Forall₂.length_eq h
  unfold mirror slice
  rw [← hl]
  refine List.rel_append (List.rel_reverse ?_) h
  exact close_neg _ _ _ (close_drop _ _ _ _ (close_take _ _ _ _ h))

theorem close_noNaN (ε : ℝ) (t : List (Option ℚ)) (u : List (Option ℝ)) (h : CloseTables ε t u) : firstNaN t = none ∧ firstNaN u = none := by
  unfold firstNaN
  rw [List.findIdx?_eq_none_iff, List.findIdx?_eq_none_iff]
  induction h with
  | nil => simp
  | cons h _ ih =>
    obtain ⟨x, y, rfl, rfl, _⟩ := h
    simpa using ih

theorem sliceTo_all {α : Type} (l : List α) : sliceTo l (l.length : Int) = l := by
  unfold sliceTo clampIdx
  apply List.take_of_length_le
  split <;> omega

/-- Delay times in double precision and the exact delay times as tables. -/
theorem close_delays (pw sq sqr : ℚ → ℚ) (ha : Accurate pw sq sqr) (m : SimpleModel ℚ) (layers : List (Layer ℚ))
    (hvp : m.vp = layers.map Layer.vp) (hvs : m.vs = layers.map Layer.vs) (hdz : m.dz = layers.map Layer.dz) (v s : ℚ) (hv : 0 < v)
    (hl : ∀ l ∈ layers, v ≤ l.vs ∧ l.vs ≤ l.vp ∧ 0 ≤ l.dz) (c : ℝ) (hc : 1 / 2 ^ 20 ≤ c) (hc1 : c ≤ 1)
    (hcos : ∀ l ∈ layers, ((s : ℝ) / (1112 / 10)) ^ 2 ≤ (1 - c ^ 2) * (1 / (l.vp : ℝ) ^ 2)) (hn : (layers.length : ℝ) ≤ 2 ^ 50)
    (phase : Str) (hne : phase ≠ []) (hletters : ∀ x ∈ upper phase, x = 'P' ∨ x = 'S') :
    ∃ t u, delayTimes64 pw sq sqr m s phase = .ok t ∧ delayTimes Real.sqrt (realModel m) s phase = .ok u ∧
      CloseTables (delayBound (upper phase) layers v c) t u := by
  have hhead : (upper phase).head? = some 'P' ∨ (upper phase).head? = some 'S' := by
    cases hp : upper phase with
    | nil => exact absurd (by simpa [upper] using hp) hne
    | cons x xs =>
      have := hletters x (by simp [hp])
      simpa using this
  obtain ⟨t, h1, h2, h3⟩ := C218_delays pw sq sqr ha m layers hvp hvs hdz v s hv hl c hc hc1 hcos hn phase hhead
  have hprop : Propagates (layers.map realLayer) (s : ℝ) := by
    intro l hl'
    obtain ⟨l, hm, rfl⟩ := List.mem_map.1 hl'
    have hv' : (0 : ℝ) < v := by exact_mod_cast hv
    have hvs' : (v : ℝ) ≤ l.vs := by exact_mod_cast (hl l hm).1
    have hvp' : (l.vs : ℝ) ≤ l.vp := by exact_mod_cast (hl l hm).2.1
    have hvs0 : (0 : ℝ) < l.vs := hv'.trans_le hvs'
    have e1 : ((s : ℝ) / (1112 / 10)) ^ 2 ≤ 1 / (l.vp : ℝ) ^ 2 := by
      refine (hcos l hm).trans ?_
      have : 0 ≤ c ^ 2 * (1 / (l.vp : ℝ) ^ 2) := by positivity
      linarith
    refine ⟨e1, e1.trans ?_⟩
    show 1 / (l.vp : ℝ) ^ 2 ≤ 1 / (l.vs : ℝ) ^ 2
    exact one_div_le_one_div_of_le (by positivity) (by gcongr)
  have hex := C28_delay_times Real.sqrt (realModel m) (layers.map realLayer) (by simp [realModel, hvp, realLayer, Function.comp_def])
    (by simp [realModel, hvs, realLayer, Function.comp_def]) (by simp [realModel, hdz, realLayer, Function.comp_def]) (s : ℝ) phase hne hletters hprop
  refine ⟨_, _, h1, hex, ?_⟩
  unfold CloseTables
  rw [List.forall₂_iff_get]
  refine ⟨by simp [h2], fun i hi hj => ?_⟩
  have hi' : i < layers.length := by simpa [h2] using hi
  refine ⟨t.getD i 0, _, ?_, ?_, h3 i hi'⟩
  · have : i < t.length := by rw [h2]; exact hi'
    rw [List.getD_eq_getElem _ _ this]
    simp
  · simp

/-- **C219**.  The two tables of `stretch_delay_times` in double precision are without NaN, have the lengths of the exact ones, and their
entries differ from the exact ones by at most the bound of C218. -/
theorem C219_tables (pw sq sqr : ℚ → ℚ) (ha : Accurate pw sq sqr) (m : SimpleModel ℚ) (layers : List (Layer ℚ))
    (hvp : m.vp = layers.map Layer.vp) (hvs : m.vs = layers.map Layer.vs) (hdz : m.dz = layers.map Layer.dz) (v s ref : ℚ) (hv : 0 < v)
    (hl : ∀ l ∈ layers, v ≤ l.vs ∧ l.vs ≤ l.vp ∧ 0 ≤ l.dz) (c : ℝ) (hc : 1 / 2 ^ 20 ≤ c) (hc1 : c ≤ 1)
    (hcos : ∀ l ∈ layers, ((s : ℝ) / (1112 / 10)) ^ 2 ≤ (1 - c ^ 2) * (1 / (l.vp : ℝ) ^ 2))
    (hcosr : ∀ l ∈ layers, ((ref : ℝ) / (1112 / 10)) ^ 2 ≤ (1 - c ^ 2) * (1 / (l.vp : ℝ) ^ 2)) (hn : (layers.length : ℝ) ≤ 2 ^ 50)
    (phase : Str) (hne : phase ≠ []) (heven : phase.length % 2 = 0) (hletters : ∀ x ∈ upper phase, x = 'P' ∨ x = 'S') :
    ∃ t0 t1 u0 u1, stretch64 pw sq sqr m s phase ref = .ok (t0, t1) ∧ (stretch Real.sqrt (realModel m) s phase ref).2 = .ok (u0, u1) ∧
      CloseTables (delayBound (upper phase) layers v c) t0 u0 ∧ CloseTables (delayBound (upper phase) layers v c) t1 u1 := by
  have hne' : upper phase ≠ [] := by simpa [upper] using hne
  have hlet' : ∀ x ∈ upper (upper phase), x = 'P' ∨ x = 'S' := by rw [upper_idem]; exact hletters
  obtain ⟨t, u, t1, u1, c1⟩ := close_delays pw sq sqr ha m layers hvp hvs hdz v s hv hl c hc hc1 hcos hn (upper phase) hne' hlet'
  obtain ⟨r, w, r1, w1, c2⟩ := close_delays pw sq sqr ha m layers hvp hvs hdz v ref hv hl c hc hc1 hcosr hn (upper phase) hne' hlet'
  rw [upper_idem] at c1 c2
  have hlen : t.length = layers.length ∧ r.length = layers.length := by
    have hhead : (upper (upper phase)).head? = some 'P' ∨ (upper (upper phase)).head? = some 'S' := by
      cases hp : upper (upper phase) with
      | nil => rw [upper_idem] at hp; exact absurd hp hne'
      | cons x xs =>
        have := hlet' x (by simp [hp])
        simpa using this
    obtain ⟨t', a1, a2, _⟩ := C218_delays pw sq sqr ha m layers hvp hvs hdz v s hv hl c hc hc1 hcos hn (upper phase) hhead
    obtain ⟨r', b1, b2, _⟩ := C218_delays pw sq sqr ha m layers hvp hvs hdz v ref hv hl c hc hc1 hcosr hn (upper phase) hhead
    rw [t1] at a1
    rw [r1] at b1
    injection a1 with a1
    injection b1 with b1
    exact ⟨by rw [a1, List.length_map, a2], by rw [b1, List.length_map, b2]⟩
  -- the sign of phases starting with S
  have sgn : ∀ (ε : ℝ) (t : List (Option ℚ)) (u : List (Option ℝ)), CloseTables ε t u →
      CloseTables ε (if (upper phase).head? = some 'S' then negO t else t) (if (upper phase).head? = some 'S' then negO u else u) := by
    intro ε t u h
    split
    · exact close_neg _ _ _ h
    · exact h
  have d1 := sgn _ _ _ c1
  have d2 := sgn _ _ _ c2
  have l1 : (if (upper phase).head? = some 'S' then negO t else t).length = layers.length := by
    split <;> simp [negO, hlen.1]
  have l2 : (if (upper phase).head? = some 'S' then negO r else r).length = layers.length := by
    split <;> simp [negO, hlen.2]
  have l3 := (List.Forall₂.length_eq d1).symm.trans l1
  have l4 := (List.Forall₂.length_eq d2).symm.trans l2
  obtain ⟨n1, n2⟩ := close_noNaN _ _ _ d1
  refine ⟨_, _, _, _, ?_, ?_, close_mirror _ _ _ d1, close_mirror _ _ _ d2⟩
  · unfold stretch64
    rw [if_neg (by omega)]
    simp only [bind, Except.bind, t1, r1, n1]
    rw [sliceTo_all, l1, ← l2, sliceTo_all]
  · unfold stretch
    rw [if_neg (by omega)]
    have hcache : lookupRef (realModel m).tRef (upper phase) = none := rfl
    simp only [hcache, w1, u1, n2]
    rw [sliceTo_all, l3, ← l4, sliceTo_all]

/-- Three layers of together 75 km, the multiple Ppps at 7 s/deg corrected to 6.4 s/deg: tables of 5 entries which are accurate to 2e-11 s. -/
example : ∃ sq : ℚ → ℚ, ∃ t0 t1 u0 u1,
    stretch64 (fun v => fl64 (1 / v ^ 2)) sq (fun y => fl64 (y ^ 2))
      ⟨[0, 20, 35], [20, 15, 40], [58 / 10, 65 / 10, 8], [336 / 100, 375 / 100, 447 / 100], []⟩ 7 "Ppps".toList (64 / 10) = .ok (t0, t1) ∧
    (stretch Real.sqrt (realModel ⟨[0, 20, 35], [20, 15, 40], [58 / 10, 65 / 10, 8], [336 / 100, 375 / 100, 447 / 100], []⟩) ((7 : ℚ) : ℝ)
      "Ppps".toList ((64 / 10 : ℚ) : ℝ)).2 = .ok (u0, u1) ∧ CloseTables (2 / 10 ^ 11) t0 u0 ∧ CloseTables (2 / 10 ^ 11) t1 u1 := by
  obtain ⟨sq, ha⟩ := accurate_exists
  obtain ⟨t0, t1, u0, u1, h1, h2, h3, h4⟩ := C219_tables _ sq _ ha ⟨[0, 20, 35], [20, 15, 40], [58 / 10, 65 / 10, 8], [336 / 100, 375 / 100, 447 / 100], []⟩
    [⟨58 / 10, 336 / 100, 20⟩, ⟨65 / 10, 375 / 100, 15⟩, ⟨8, 447 / 100, 40⟩] rfl rfl rfl (336 / 100) 7 (64 / 10) (by norm_num) (by decide +kernel)
    (1 / 2) (by norm_num) (by norm_num) (by
      intro l hl
      simp only [List.mem_cons, List.not_mem_nil, or_false] at hl
      rcases hl with rfl | rfl | rfl <;> norm_num) (by
      intro l hl
      simp only [List.mem_cons, List.not_mem_nil, or_false] at hl
      rcases hl with rfl | rfl | rfl <;> norm_num) (by norm_num) "Ppps".toList (by decide) (by decide) (by decide)
  have hb : delayBound (upper "Ppps".toList) [⟨58 / 10, 336 / 100, 20⟩, ⟨65 / 10, 375 / 100, 15⟩, ⟨8, 447 / 100, 40⟩] (336 / 100) (1 / 2) ≤ 2 / 10 ^ 11 := by
    unfold delayBound
    have e1 : (upper "Ppps".toList).count 'P' = 3 := by decide
    have e2 : (upper "Ppps".toList).count 'S' = 1 := by decide
    rw [e1, e2]
    norm_num
  have mono : ∀ t u, CloseTables (delayBound (upper "Ppps".toList) [⟨58 / 10, 336 / 100, 20⟩, ⟨65 / 10, 375 / 100, 15⟩, ⟨8, 447 / 100, 40⟩]
      (336 / 100) (1 / 2)) t u → CloseTables (2 / 10 ^ 11) t u := fun t u h =>
    h.imp fun o p ⟨x, y, e1, e2, e3⟩ => ⟨x, y, e1, e2, e3.trans hb⟩
  exact ⟨sq, t0, t1, u0, u1, h1, h2, mono _ _ h3, mono _ _ h4⟩

end Verif.Props
