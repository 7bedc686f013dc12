import Verif.Model.DoubleDelay
import Verif.Props.DoubleIdentity
import Verif.Props.Delay

/-!
# C215: tables of delay times are sorted in double precision
-/

set_option linter.unusedSimpArgs false
set_option linter.unusedSectionVars false

namespace Verif.Spec
open Verif.Py

/-- Non-decreasing apart from NaN. -/
def SortedNaN (l : List (Option ℚ)) : Prop := l.Pairwise fun a b => ∀ x y, a = some x → b = some y → x ≤ y

/-- What is needed of `v ** (-2)` and of `np.sqrt`: `v ** (-2)` does not grow with `v`; the root is a double, is not negative and grows. -/
structure Library (pw sq : ℚ → ℚ) : Prop where
  pw_anti : ∀ a b, 0 < a → a ≤ b → pw b ≤ pw a
  sq_double : ∀ x, 0 ≤ x → Double (sq x)
  sq_nonneg : ∀ x, 0 ≤ x → 0 ≤ sq x
  sq_mono : ∀ x y, 0 ≤ x → x ≤ y → sq x ≤ sq y

end Verif.Spec

namespace Verif.Props
open Verif.Py Verif.Model Verif.Model.Simple Verif.Model.DoubleDelay Verif.Spec

theorem roundEven_nearest (q : ℚ) (n : ℤ) : |(roundEven q : ℚ) - q| ≤ |(n : ℚ) - q| := by
  have h1 := Int.floor_le q
  have h2 := Int.lt_floor_add_one q
  have hn : n ≤ ⌊q⌋ ∨ ⌊q⌋ + 1 ≤ n := by omega
  have key : |(n : ℚ) - q| ≥ min (q - ⌊q⌋) (⌊q⌋ + 1 - q) := by
    rcases hn with hn | hn
    · have : (n : ℚ) ≤ ⌊q⌋ := by exact_mod_cast hn
      rw [abs_of_nonpos (by linarith)]
      exact (min_le_left _ _).trans (by linarith)
    · have : ((⌊q⌋ + 1 : ℤ) : ℚ) ≤ n := by exact_mod_cast hn
      push_cast at this
      rw [abs_of_nonneg (by linarith)]
      exact (min_le_right _ _).trans (by linarith)
  refine le_trans ?_ key
  unfold roundEven
  split
  · rw [abs_of_nonpos (by linarith)]
    exact le_min (by linarith) (by linarith)
  · rename_i h3
    have h3 := not_lt.1 h3
    split
    · push_cast
      rw [abs_of_nonneg (by linarith)]
      exact le_min (by linarith) (by linarith)
    · rename_i h4
      have h4 := not_lt.1 h4
      split
      · rw [abs_of_nonpos (by linarith)]
        exact le_min (by linarith) (by linarith)
      · push_cast
        rw [abs_of_nonneg (by linarith)]
        exact le_min (by linarith) (by linarith)

/-- Multiples of the last bit of `x` are not nearer to `x` than the rounded number. -/
theorem fl64_nearest_mul (x : ℚ) (n : ℤ) : |fl64 x - x| ≤ |n * 2 ^ ulpExp x - x| := by
  have hu : (0 : ℚ) < 2 ^ ulpExp x := zpow_pos (by norm_num) _
  have e : ∀ k : ℤ, |(k : ℚ) * 2 ^ ulpExp x - x| = |(k : ℚ) - x / 2 ^ ulpExp x| * 2 ^ ulpExp x := by
    intro k
    rw [← abs_of_pos hu, ← abs_mul, abs_of_pos hu]
    congr 1
    field_simp
  unfold fl64
  rw [e, e]
  exact mul_le_mul_of_nonneg_right (roundEven_nearest _ _) hu.le

/-- The rounded number is a nearest double. -/
theorem fl64_nearest (x d : ℚ) (hd : Double d) : |fl64 x - x| ≤ |d - x| := by
  by_cases hx : x = 0
  · rw [hx, fl64_zero, sub_self, abs_zero]
    exact abs_nonneg _
  obtain ⟨m, e, hm, rfl⟩ := hd
  by_cases he : ulpExp x ≤ e
  · obtain ⟨k, hk⟩ := Int.eq_ofNat_of_zero_le (sub_nonneg.2 he)
    have e1 : (m : ℚ) * 2 ^ e = ((m * 2 ^ k : ℤ) : ℚ) * 2 ^ ulpExp x := by
      have : e = k + ulpExp x := by
        have : e - ulpExp x = (k : ℤ) := hk
        omega
      push_cast
      rw [this, zpow_add₀ (by norm_num), zpow_natCast]
      ring
    rw [e1]
    exact fl64_nearest_mul x _
  · have he : e + 1 ≤ ulpExp x := by omega
    have hu : (0 : ℚ) < 2 ^ ulpExp x := zpow_pos (by norm_num) _
    have h1 : |(m : ℚ) * 2 ^ e| ≤ 2 ^ 52 * 2 ^ ulpExp x := by
      have he' : (0 : ℚ) < 2 ^ e := zpow_pos (by norm_num) _
      have h2 : (2 : ℚ) ^ (e + 1) ≤ 2 ^ ulpExp x := zpow_le_zpow_right₀ (by norm_num) he
      have h3 : |(m : ℚ)| ≤ 2 ^ 53 := by
        have := (Int.cast_lt (R := ℚ)).2 hm
        rw [Int.cast_abs] at this
        push_cast at this
        exact this.le
      rw [zpow_add₀ (by norm_num), zpow_one] at h2
      rw [abs_mul, abs_of_pos he']
      calc _ ≤ 2 ^ 53 * (2 : ℚ) ^ e := mul_le_mul_of_nonneg_right h3 he'.le
        _ = 2 ^ 52 * (2 ^ e * 2) := by ring
        _ ≤ _ := mul_le_mul_of_nonneg_left h2 (by norm_num)
    have h2 : (2 : ℚ) ^ 52 * 2 ^ ulpExp x ≤ |x| := by
      have hlog := Int.zpow_log_le_self (R := ℚ) (b := 2) (by norm_num) (abs_pos.2 hx)
      have e2 : (2 : ℚ) ^ 52 * 2 ^ ulpExp x = 2 ^ (Int.log 2 |x|) := by
        rw [← zpow_natCast, ← zpow_add₀ (by norm_num)]
        congr 1
        unfold ulpExp
        push_cast
        ring
      rw [e2]
      exact_mod_cast hlog
    obtain ⟨h3, h4⟩ := abs_le.1 h1
    rcases lt_or_gt_of_ne hx with hneg | hpos
    · have h5 := fl64_nearest_mul x (-(2 ^ 52))
      push_cast at h5
      refine h5.trans ?_
      rw [abs_of_neg hneg] at h2
      rw [abs_of_nonneg (by linarith), abs_of_nonneg (by linarith)]
      linarith
    · have h5 := fl64_nearest_mul x (2 ^ 52)
      push_cast at h5
      refine h5.trans ?_
      rw [abs_of_pos hpos] at h2
      rw [abs_of_nonpos (by linarith), abs_of_nonpos (by linarith)]
      linarith

/-- Rounding keeps the order. -/
theorem fl64_mono (x y : ℚ) (h : x ≤ y) : fl64 x ≤ fl64 y := by
  rcases eq_or_lt_of_le h with rfl | h
  · exact le_rfl
  by_contra hc
  have hc := not_le.1 hc
  have h1 := fl64_nearest x _ (double_fl64 y)
  have h2 := fl64_nearest y _ (double_fl64 x)
  rcases abs_cases (fl64 x - x) with ⟨a1, _⟩ | ⟨a1, _⟩ <;> rcases abs_cases (fl64 y - x) with ⟨a2, _⟩ | ⟨a2, _⟩ <;>
    rcases abs_cases (fl64 y - y) with ⟨a3, _⟩ | ⟨a3, _⟩ <;> rcases abs_cases (fl64 x - y) with ⟨a4, _⟩ | ⟨a4, _⟩ <;> linarith

theorem le_fl64 (d x : ℚ) (hd : Double d) (h : d ≤ x) : d ≤ fl64 x := by
  have := fl64_mono d x h
  rwa [fl64_double d hd] at this

theorem fl64_le (d x : ℚ) (hd : Double d) (h : x ≤ d) : fl64 x ≤ d := by
  have := fl64_mono x d h
  rwa [fl64_double d hd] at this

theorem double_zero : Double 0 := ⟨0, 0, by norm_num, by simp⟩

theorem double_two (x : ℚ) (h : Double x) : Double (2 * x) := by
  obtain ⟨m, e, hm, rfl⟩ := h
  refine ⟨m, e + 1, hm, ?_⟩
  rw [zpow_add₀ (by norm_num), zpow_one]
  ring

/-- The vertical slowness of S is not smaller than that of P. -/
theorem vslow64_le (pw sq sqr : ℚ → ℚ) (hl : Library pw sq) (vp vs s a : ℚ) (hv : 0 < vs) (hle : vs ≤ vp)
    (ha : vslow64 pw sq sqr vp s = some a) : ∃ b, vslow64 pw sq sqr vs s = some b ∧ a ≤ b := by
  unfold vslow64 at ha ⊢
  simp only at ha ⊢
  have hm := fl64_mono (pw vp - sqr (fl64 (s / fl64 deg2km))) (pw vs - sqr (fl64 (s / fl64 deg2km)))
    (sub_le_sub_right (hl.pw_anti vs vp hv hle) _)
  split at ha
  · simp at ha
  · rename_i h
    have h := not_lt.1 h
    obtain rfl := Option.some.inj ha
    exact ⟨_, if_neg (not_lt.2 (h.trans hm)), hl.sq_mono _ _ h hm⟩

theorem vslow64_good (pw sq sqr : ℚ → ℚ) (hl : Library pw sq) (v s a : ℚ) (ha : vslow64 pw sq sqr v s = some a) :
    Double a ∧ 0 ≤ a := by
  unfold vslow64 at ha
  simp only at ha
  split at ha
  · simp at ha
  · rename_i h
    obtain rfl := Option.some.inj ha
    exact ⟨hl.sq_double _ (not_lt.1 h), hl.sq_nonneg _ (not_lt.1 h)⟩

/-- One layer of a phase which starts with P. -/
theorem layer_nonneg (nP nS : ℕ) (a b dz : ℚ) (ha : Double a) (hb : Double b) (ha0 : 0 ≤ a) (hb0 : 0 ≤ b) (hab : 1 ≤ nS → a ≤ b) (h1 : 1 ≤ nP)
    (h2 : 2 ≤ nP + nS) (hdz : 0 ≤ dz) :
    0 ≤ fl64 (fl64 (fl64 (fl64 (a * (nP : ℚ)) + fl64 (b * (nS : ℚ))) - fl64 (2 * a)) * dz) := by
  have hbn : 0 ≤ fl64 (b * (nS : ℚ)) := le_fl64 _ _ double_zero (by positivity)
  have key : 2 * a ≤ fl64 (fl64 (a * (nP : ℚ)) + fl64 (b * (nS : ℚ))) := by
    refine le_fl64 _ _ (double_two a ha) ?_
    by_cases hp : 2 ≤ nP
    · have : 2 * a ≤ fl64 (a * (nP : ℚ)) := by
        refine le_fl64 _ _ (double_two a ha) ?_
        have : (2 : ℚ) ≤ nP := by exact_mod_cast hp
        nlinarith
      linarith
    · have hs : 1 ≤ nS := by omega
      have e1 : a ≤ fl64 (a * (nP : ℚ)) := by
        refine le_fl64 _ _ ha ?_
        have : (1 : ℚ) ≤ nP := by exact_mod_cast h1
        nlinarith
      have e2 : b ≤ fl64 (b * (nS : ℚ)) := by
        refine le_fl64 _ _ hb ?_
        have : (1 : ℚ) ≤ nS := by exact_mod_cast hs
        nlinarith
      linarith [hab hs]
  rw [fl64_double _ (double_two a ha)]
  refine le_fl64 _ _ double_zero (mul_nonneg (le_fl64 _ _ double_zero (by linarith)) hdz)

/-- One layer of Sp. -/
theorem layer_nonpos (nP nS : ℕ) (a b dz : ℚ) (ha : Double a) (hb : Double b) (ha0 : 0 ≤ a) (hb0 : 0 ≤ b) (hab : a ≤ b) (h1 : nP ≤ 1)
    (h2 : nS ≤ 1) (hdz : 0 ≤ dz) :
    fl64 (fl64 (fl64 (fl64 (a * (nP : ℚ)) + fl64 (b * (nS : ℚ))) - fl64 (2 * b)) * dz) ≤ 0 := by
  have h1' : (nP : ℚ) ≤ 1 := by exact_mod_cast h1
  have h2' : (nS : ℚ) ≤ 1 := by exact_mod_cast h2
  have key : fl64 (fl64 (a * (nP : ℚ)) + fl64 (b * (nS : ℚ))) ≤ 2 * b := by
    refine fl64_le _ _ (double_two b hb) ?_
    have e1 : fl64 (a * (nP : ℚ)) ≤ a := fl64_le _ _ ha (by nlinarith)
    have e2 : fl64 (b * (nS : ℚ)) ≤ b := fl64_le _ _ hb (by nlinarith)
    linarith
  rw [fl64_double _ (double_two b hb)]
  refine fl64_le _ _ double_zero (mul_nonpos_of_nonpos_of_nonneg (fl64_le _ _ double_zero (by linarith)) hdz)

/-- Sums of summands of one sign (`σ` is 1 or -1) run in this direction. -/
theorem cumsum64_sorted (σ : ℚ) (hσ : σ = 1 ∨ σ = -1) (l : List (Option ℚ)) (hl : ∀ o ∈ l, ∀ b, o = some b → 0 ≤ σ * b) :
    ∀ acc : Option ℚ, (∀ a, acc = some a → Double a ∧ 0 ≤ σ * a) →
      (∀ o ∈ cumsum64 acc l, ∀ x, o = some x → ∃ a, acc = some a ∧ σ * a ≤ σ * x ∧ 0 ≤ σ * x) ∧
      (cumsum64 acc l).Pairwise fun o p => ∀ x y, o = some x → p = some y → σ * x ≤ σ * y := by
  induction l with
  | nil => intro acc _; exact ⟨by simp [cumsum64], by simp [cumsum64]⟩
  | cons o l ih =>
    intro acc hacc
    have ih := ih fun p hp => hl p (List.mem_cons_of_mem _ hp)
    obtain ⟨s, hsd, hs⟩ : ∃ s, cumsum64 acc (o :: l) = s :: cumsum64 s l ∧
        ∀ v, s = some v → Double v ∧ ∃ a, acc = some a ∧ σ * a ≤ σ * v ∧ 0 ≤ σ * v := by
      cases acc with
      | none => exact ⟨none, by cases o <;> rfl, by simp⟩
      | some a =>
        cases o with
        | none => exact ⟨none, rfl, by simp⟩
        | some b =>
          refine ⟨some (fl64 (a + b)), rfl, fun v hv => ?_⟩
          obtain rfl := Option.some.inj hv
          obtain ⟨d, p⟩ := hacc a rfl
          have hb := hl _ (List.mem_cons_self ..) b rfl
          have : σ * a ≤ σ * fl64 (a + b) := by
            rcases hσ with rfl | rfl
            · rw [one_mul] at hb ⊢
              rw [one_mul]
              exact le_fl64 _ _ d (by linarith)
            · have := fl64_le a (a + b) d (by linarith)
              linarith
          exact ⟨double_fl64 _, a, rfl, this, p.trans this⟩
    rw [hsd]
    obtain ⟨i1, i2⟩ := ih s fun a ha => ⟨(hs a ha).1, (hs a ha).2.choose_spec.2.2⟩
    refine ⟨?_, ?_⟩
    · intro p hp x hx
      rcases List.mem_cons.1 hp with rfl | hp
      · exact (hs x hx).2
      · obtain ⟨v, hv, h1, h2⟩ := i1 p hp x hx
        obtain ⟨-, a, ha, h3, -⟩ := hs v hv
        exact ⟨a, ha, h3.trans h1, h2⟩
    · rw [List.pairwise_cons]
      refine ⟨fun p hp x y hx hy => ?_, i2⟩
      obtain ⟨v, hv, h1, -⟩ := i1 p hp y hy
      rw [hx] at hv
      obtain rfl := Option.some.inj hv
      exact h1

theorem sortedNaN_mirror (t : List (Option ℚ)) (h0 : ∀ o ∈ t, ∀ x, o = some x → 0 ≤ x) (hs : SortedNaN t) : SortedNaN (mirror t) := by
  have hsub : (slice t 1 10).Sublist t := by
    unfold slice; exact (List.drop_sublist _ _).trans (List.take_sublist _ _)
  unfold mirror negO SortedNaN
  rw [List.pairwise_append, List.pairwise_reverse, List.pairwise_map]
  refine ⟨?_, hs, ?_⟩
  · refine List.Pairwise.imp (fun {a b} h x y hx hy => ?_) (hs.sublist hsub)
    obtain ⟨x', hx', rfl⟩ := Option.map_eq_some_iff.1 hx
    obtain ⟨y', hy', rfl⟩ := Option.map_eq_some_iff.1 hy
    exact neg_le_neg (h _ _ hy' hx')
  · intro a ha b hb x y hx hy
    rw [List.mem_reverse, List.mem_map] at ha
    obtain ⟨o, ho, rfl⟩ := ha
    obtain ⟨x', hx', rfl⟩ := Option.map_eq_some_iff.1 hx
    have h1 := h0 _ (hsub.subset ho) _ hx'
    have h2 := h0 _ hb _ hy
    linarith

theorem sortedNaN_sub (t u : List (Option ℚ)) (h : u.Sublist t) (hs : SortedNaN t) : SortedNaN u := List.Pairwise.sublist h hs

theorem zip3_map {α β γ δ ε : Type} (L : List α) (f : α → β) (g : α → γ) (h : α → δ) (F : β × γ × δ → ε) :
    (List.zip (L.map f) (List.zip (L.map g) (L.map h))).map F = L.map fun l => F (f l, g l, h l) := by
  induction L with
  | nil => rfl
  | cons a L ih => simp only [List.map_cons, List.zip_cons_cons, ih]

/-- Delay times of all layers, with their sign. -/
theorem delayTimes64_ok (pw sq sqr : ℚ → ℚ) (m : SimpleModel ℚ) (layers : List (Layer ℚ))
    (hvp : m.vp = layers.map Layer.vp) (hvs : m.vs = layers.map Layer.vs) (hdz : m.dz = layers.map Layer.dz)
    (σ : ℚ) (hσ : σ = 1 ∨ σ = -1) (phase : Str) (hne : upper phase ≠ [])
    (hterm : ∀ s, ∀ l ∈ layers, ∀ b, layerDelay64 (upper phase) (if (upper (upper phase)).contains 'P' then vslow64 pw sq sqr l.vp s else some 0)
      (if (upper (upper phase)).contains 'S' then vslow64 pw sq sqr l.vs s else some 0) l.dz = some b → 0 ≤ σ * b) (s : ℚ) :
    ∃ t, delayTimes64 pw sq sqr m s phase = .ok t ∧ t.length = layers.length ∧ (∀ o ∈ t, ∀ x, o = some x → 0 ≤ σ * x) ∧
      t.Pairwise fun o p => ∀ x y, o = some x → p = some y → σ * x ≤ σ * y := by
  unfold delayTimes64 vertSlow64
  simp only
  rw [if_neg hne, hvp, hvs, hdz, List.map_map, List.map_map, zip3_map]
  obtain ⟨h1, h2⟩ := cumsum64_sorted σ hσ (layers.map fun l => layerDelay64 (upper phase)
      (if (upper (upper phase)).contains 'P' then vslow64 pw sq sqr l.vp s else some 0)
      (if (upper (upper phase)).contains 'S' then vslow64 pw sq sqr l.vs s else some 0) l.dz) (by
    intro o ho b hb
    obtain ⟨l, hl, rfl⟩ := List.mem_map.1 ho
    exact hterm s l hl b hb) (some 0) (by
    rintro a ha
    obtain rfl := Option.some.inj ha
    exact ⟨double_zero, by simp⟩)
  refine ⟨_, rfl, ?_, fun o ho x hx => ?_, h2⟩
  · have : ∀ (l : List (Option ℚ)) acc, (cumsum64 acc l).length = l.length := by
      intro l
      induction l with
      | nil => intro acc; rfl
      | cons a l ih => intro acc; simp only [cumsum64, List.length_cons, ih]
    rw [this, List.length_map]
  · obtain ⟨_, _, _, h⟩ := h1 o ho x hx
    exact h

/-- **C215** (delay times).  Delay times of phases which start with P are not negative and do not decrease with depth in double precision. -/
theorem C215_delays (pw sq sqr : ℚ → ℚ) (hlib : Library pw sq) (m : SimpleModel ℚ) (layers : List (Layer ℚ))
    (hvp : m.vp = layers.map Layer.vp) (hvs : m.vs = layers.map Layer.vs) (hdz : m.dz = layers.map Layer.dz)
    (hv : ∀ l ∈ layers, 0 < l.vs ∧ l.vs ≤ l.vp ∧ 0 ≤ l.dz) (phase : Str) (hfirst : (upper phase).head? = some 'P')
    (h2 : 2 ≤ (upper phase).count 'P' + (upper phase).count 'S') (s : ℚ) :
    ∃ t, delayTimes64 pw sq sqr m s phase = .ok t ∧ t.length = layers.length ∧ (∀ o ∈ t, ∀ x, o = some x → 0 ≤ x) ∧ SortedNaN t := by
  have hP : 'P' ∈ upper phase := List.mem_of_mem_head? hfirst
  have hP1 : 1 ≤ (upper phase).count 'P' := List.one_le_count_iff.2 hP
  obtain ⟨t, ht, h1, h2, h3⟩ := delayTimes64_ok pw sq sqr m layers hvp hvs hdz 1 (.inl rfl) phase
    (by intro h; rw [h] at hP; simp at hP) (by
      intro s l hl b hb
      rw [one_mul]
      obtain ⟨v1, v2, v3⟩ := hv l hl
      rw [upper_idem, if_pos (by simpa using hP)] at hb
      cases hp : vslow64 pw sq sqr l.vp s with
      | none => rw [hp] at hb; simp [layerDelay64] at hb
      | some a =>
        obtain ⟨b', hb', hle⟩ := vslow64_le pw sq sqr hlib l.vp l.vs s a v1 v2 hp
        obtain ⟨ga, ga0⟩ := vslow64_good pw sq sqr hlib _ _ _ hp
        obtain ⟨gb, gb0⟩ := vslow64_good pw sq sqr hlib _ _ _ hb'
        rw [hp, hb'] at hb
        by_cases hS : 'S' ∈ upper phase
        · rw [if_pos (by simpa using hS)] at hb
          simp only [layerDelay64, hfirst, if_true] at hb
          obtain rfl := Option.some.inj hb
          exact layer_nonneg _ _ a b' l.dz ga gb ga0 gb0 (fun _ => hle) hP1 h2 v3
        · rw [if_neg (by simpa using hS)] at hb
          simp only [layerDelay64, hfirst, if_true] at hb
          obtain rfl := Option.some.inj hb
          refine layer_nonneg _ _ a 0 l.dz ga double_zero ga0 le_rfl (fun h => ?_) hP1 h2 v3
          exact absurd (List.one_le_count_iff.1 h) hS) s
  simp only [one_mul] at h2 h3
  exact ⟨t, ht, h1, h2, h3⟩

/-- **C215** (Sp).  Delay times of Sp are not positive and do not increase with depth in double precision. -/
theorem C215_sp (pw sq sqr : ℚ → ℚ) (hlib : Library pw sq) (m : SimpleModel ℚ) (layers : List (Layer ℚ))
    (hvp : m.vp = layers.map Layer.vp) (hvs : m.vs = layers.map Layer.vs) (hdz : m.dz = layers.map Layer.dz)
    (hv : ∀ l ∈ layers, 0 < l.vs ∧ l.vs ≤ l.vp ∧ 0 ≤ l.dz) (phase : Str) (hph : upper phase = "SP".toList) (s : ℚ) :
    ∃ t, delayTimes64 pw sq sqr m s phase = .ok t ∧ t.length = layers.length ∧ (∀ o ∈ negO t, ∀ x, o = some x → 0 ≤ x) ∧
      SortedNaN (negO t) := by
  obtain ⟨t, ht, h1, h2, h3⟩ := delayTimes64_ok pw sq sqr m layers hvp hvs hdz (-1) (.inr rfl) phase
    (by rw [hph]; decide) (by
      intro s l hl b hb
      obtain ⟨v1, v2, v3⟩ := hv l hl
      rw [upper_idem, hph, if_pos (by decide), if_pos (by decide)] at hb
      cases hp : vslow64 pw sq sqr l.vp s with
      | none => rw [hp] at hb; simp [layerDelay64] at hb
      | some a =>
        obtain ⟨b', hb', hle⟩ := vslow64_le pw sq sqr hlib l.vp l.vs s a v1 v2 hp
        obtain ⟨ga, ga0⟩ := vslow64_good pw sq sqr hlib _ _ _ hp
        obtain ⟨gb, gb0⟩ := vslow64_good pw sq sqr hlib _ _ _ hb'
        rw [hp, hb'] at hb
        have := layer_nonpos 1 1 a b' l.dz ga gb ga0 gb0 hle le_rfl le_rfl v3
        have e : fl64 (fl64 (fl64 (fl64 (a * ((1 : ℕ) : ℚ)) + fl64 (b' * ((1 : ℕ) : ℚ))) - fl64 (2 * b')) * l.dz) = b := Option.some.inj hb
        rw [e] at this
        linarith) s
  refine ⟨t, ht, h1, ?_, ?_⟩
  · intro o ho x hx
    obtain ⟨p, hp, rfl⟩ := List.mem_map.1 ho
    obtain ⟨y, hy, rfl⟩ := Option.map_eq_some_iff.1 hx
    have := h2 p hp y hy
    linarith
  · unfold SortedNaN negO
    rw [List.pairwise_map]
    refine h3.imp fun {a b} h x y hx hy => ?_
    obtain ⟨x', hx', rfl⟩ := Option.map_eq_some_iff.1 hx
    obtain ⟨y', hy', rfl⟩ := Option.map_eq_some_iff.1 hy
    have := h _ _ hx' hy'
    linarith

theorem sliceTo_sub {α : Type} (t : List α) (i : ℤ) : (sliceTo t i).Sublist t := List.take_sublist _ _

/-- **C215.**  Both tables of `stretch_delay_times` are sorted in double precision, for Sp and for all phases which start with P, at all
slownesses, also if some layers are not reached. -/
theorem C215_tables (pw sq sqr : ℚ → ℚ) (hlib : Library pw sq) (m : SimpleModel ℚ) (layers : List (Layer ℚ))
    (hvp : m.vp = layers.map Layer.vp) (hvs : m.vs = layers.map Layer.vs) (hdz : m.dz = layers.map Layer.dz)
    (hv : ∀ l ∈ layers, 0 < l.vs ∧ l.vs ≤ l.vp ∧ 0 ≤ l.dz) (phase : Str) (heven : phase.length % 2 = 0)
    (hph : upper phase = "SP".toList ∨ (upper phase).head? = some 'P' ∧ 2 ≤ (upper phase).count 'P' + (upper phase).count 'S') (s ref : ℚ) :
    ∃ t0 t1, stretch64 pw sq sqr m s phase ref = .ok (t0, t1) ∧ t0.length = t1.length ∧ SortedNaN t0 ∧ SortedNaN t1 := by
  have key : ∀ s, ∃ t, delayTimes64 pw sq sqr m s (upper phase) = .ok t ∧ t.length = layers.length ∧
      (∀ o ∈ (if (upper phase).head? = some 'S' then negO t else t), ∀ x, o = some x → 0 ≤ x) ∧
      SortedNaN (if (upper phase).head? = some 'S' then negO t else t) := by
    intro s
    rcases hph with h | ⟨h1, h2⟩
    · obtain ⟨t, a, b, c, d⟩ := C215_sp pw sq sqr hlib m layers hvp hvs hdz hv (upper phase) (by rw [upper_idem, h]) s
      refine ⟨t, a, b, ?_, ?_⟩
      · rw [h, if_pos (by decide)]; exact c
      · rw [h, if_pos (by decide)]; exact d
    · obtain ⟨t, a, b, c, d⟩ := C215_delays pw sq sqr hlib m layers hvp hvs hdz hv (upper phase) (by rw [upper_idem, h1])
        (by rw [upper_idem]; exact h2) s
      refine ⟨t, a, b, ?_, ?_⟩
      · rw [h1, if_neg (by decide)]; exact c
      · rw [h1, if_neg (by decide)]; exact d
  obtain ⟨t, ht, hl, h0, hs⟩ := key s
  obtain ⟨r, hr, hlr, h0r, hsr⟩ := key ref
  unfold stretch64
  rw [if_neg (by omega)]
  simp only [ht, hr, bind, Except.bind]
  have hll : ∀ t : List (Option ℚ), (if (upper phase).head? = some 'S' then negO t else t).length = t.length := by
    intro t
    split
    · simp [negO]
    · rfl
  have e1 := hll t
  have e2 := hll r
  rw [hl] at e1
  rw [hlr] at e2
  generalize (if (upper phase).head? = some 'S' then negO t else t) = t' at *
  generalize (if (upper phase).head? = some 'S' then negO r else r) = r' at *
  have hm : ∀ (u : List (Option ℚ)) (i : ℤ), (∀ o ∈ u, ∀ x, o = some x → 0 ≤ x) → SortedNaN u → SortedNaN (mirror (sliceTo u i)) :=
    fun u i g0 gs => sortedNaN_mirror _ (fun o ho => g0 o ((sliceTo_sub u i).subset ho)) (sortedNaN_sub _ _ (sliceTo_sub u i) gs)
  refine ⟨_, _, rfl, ?_, hm _ _ h0 hs, hm _ _ h0r hsr⟩
  simp [mirror, negO, slice, sliceTo, clampIdx, e1, e2]

/-- **C215** (no NaN).  If the first layer is reached, the table for the slowness of the trace has no NaN. -/
theorem C215_reached (pw sq sqr : ℚ → ℚ) (m : SimpleModel ℚ) (phase : Str) (s ref : ℚ) (t : List (Option ℚ)) (x : ℚ)
    (ht : delayTimes64 pw sq sqr m s (upper phase) = .ok t) (h0 : t.head? = some (some x)) (t0 t1 : List (Option ℚ))
    (h : stretch64 pw sq sqr m s phase ref = .ok (t0, t1)) : none ∉ t0 := by
  unfold stretch64 at h
  split at h
  · simp at h
  cases hr : delayTimes64 pw sq sqr m ref (upper phase) with
  | error e => simp [hr, bind, Except.bind] at h
  | ok r =>
    simp only [hr, ht, bind, Except.bind] at h
    have hh : ∃ y, (if (upper phase).head? = some 'S' then negO t else t).head? = some (some y) := by
      split
      · exact ⟨-x, by simp [negO, h0]⟩
      · exact ⟨x, h0⟩
    generalize (if (upper phase).head? = some 'S' then negO t else t) = u at h hh
    obtain ⟨y, hy⟩ := hh
    have h := (Prod.mk.inj (Except.ok.inj h)).1
    have key : ∀ i : ℤ, i = (match firstNaN u with | some i => (i : ℤ) - 1 | none => u.length) → none ∉ sliceTo u i := by
      intro i hi hn
      cases hf : firstNaN u with
      | none =>
        unfold firstNaN at hf
        rw [List.findIdx?_eq_none_iff] at hf
        have := hf none ((sliceTo_sub u i).subset hn)
        simp at this
      | some k =>
        rw [hf] at hi
        unfold firstNaN at hf
        rw [List.findIdx?_eq_some_iff_getElem] at hf
        obtain ⟨hk, hk1, hk2⟩ := hf
        have hk0 : k ≠ 0 := by
          rintro rfl
          rw [List.head?_eq_getElem?, List.getElem?_eq_getElem hk] at hy
          rw [Option.some.inj hy] at hk1
          simp at hk1
        simp only at hi
        unfold sliceTo clampIdx at hn
        rw [if_neg (by omega)] at hn
        obtain ⟨j, hj, hjn⟩ := List.mem_iff_getElem.1 hn
        rw [List.length_take] at hj
        rw [List.getElem_take] at hjn
        have := hk2 j (by omega)
        rw [hjn] at this
        simp at this
    have hkey := key _ rfl
    rw [← h]
    intro hn
    unfold mirror negO at hn
    rcases List.mem_append.1 hn with hn | hn
    · rw [List.mem_reverse, List.mem_map] at hn
      obtain ⟨o, ho, e⟩ := hn
      have e : o = none := by simpa using e
      rw [e] at ho
      exact hkey (((List.drop_sublist _ _).trans (List.take_sublist _ _)).subset ho)
    · exact hkey hn

/-! ## Cases -/

/-- A root calculated with integers: it has the properties needed. -/
theorem library_sqrt : Library (fun v => fl64 (1 / v ^ 2)) fun x => fl64 ((Nat.sqrt ⌊x * 2 ^ 240⌋.toNat : ℚ) / 2 ^ 120) where
  pw_anti a b ha hab := fl64_mono _ _ (one_div_le_one_div_of_le (pow_pos ha 2) (pow_le_pow_left₀ ha.le hab 2))
  sq_double _ _ := double_fl64 _
  sq_nonneg _ _ := le_fl64 _ _ double_zero (by positivity)
  sq_mono x y _ hxy := by
    refine fl64_mono _ _ (div_le_div_of_nonneg_right ?_ (by positivity))
    have h1 : ⌊x * 2 ^ 240⌋ ≤ ⌊y * 2 ^ 240⌋ := Int.floor_le_floor (mul_le_mul_of_nonneg_right hxy (by positivity))
    exact_mod_cast Nat.sqrt_le_sqrt (Int.toNat_le_toNat h1)

/-- Three layers and a multiple, whatever the square of the slowness is. -/
example (sqr : ℚ → ℚ) : let m : SimpleModel ℚ := ⟨[0, 20, 35], [20, 15, 40], [58 / 10, 65 / 10, 8], [336 / 100, 375 / 100, 447 / 100], []⟩
    ∃ t0 t1, stretch64 (fun v => fl64 (1 / v ^ 2)) (fun x => fl64 ((Nat.sqrt ⌊x * 2 ^ 240⌋.toNat : ℚ) / 2 ^ 120)) sqr m 7 "Ppps".toList (64 / 10)
      = .ok (t0, t1) ∧ t0.length = t1.length ∧ SortedNaN t0 ∧ SortedNaN t1 :=
  C215_tables _ _ sqr library_sqrt _ [⟨58 / 10, 336 / 100, 20⟩, ⟨65 / 10, 375 / 100, 15⟩, ⟨8, 447 / 100, 40⟩] (by rfl) (by rfl) (by rfl)
    (by decide +kernel) _ (by decide) (.inr ⟨by decide, by decide⟩) _ _

/-- A computed table; the "root" of the third layer is NaN, so that this layer and the one before are dropped. -/
example : let m : SimpleModel ℚ := ⟨[0, 1, 2, 3], [1, 1, 1, 1], [1, 2, 3, 9], [1 / 2, 1, 1, 1], []⟩
    stretch64 (fun v => fl64 (1 / v ^ 2)) (fun x => x) (fun _ => 1 / 16) m 7 "Ps".toList 7
      = .ok ([some (-15 / 4), some 3, some (15 / 4)], [some (-15 / 4), some 3, some (15 / 4)]) := by decide +kernel

end Verif.Props
