import Verif.Model.Simple
import Verif.Spec.Simple
import Mathlib.Algebra.Order.BigOperators.Group.List
import Mathlib.Tactic.NormNum
import Mathlib.Tactic.Positivity

/-!
# Properties of the velocity model and the delay times: C27, C28, C29
-/

set_option linter.unusedSimpArgs false
set_option linter.unusedSectionVars false

namespace Verif.Props
open Verif.Py Verif.Model.Simple Verif.Spec

section interpolate
variable {K : Type} [Field K]

/-- Position of knot `i` in the refined model: `n[1]+1 + ... + n[i]+1`. -/
def knotPos (n : List Int) (i : Nat) : Nat := ((n.tail.take i).map fun m => m.toNat + 1).sum

theorem linspaceOpen_length (a b : K) (m : Nat) : (linspaceOpen a b m).length = m := by
  simp [linspaceOpen]

/-- **C27, knots.** With at least one depth and a non-negative support number for each interval, the
refinement succeeds, has `1 + sum (n[i+1]+1)` points, and point `knotPos i + k` is
the linear interpolation between knots `i` and `i+1`; for `k = 0` it is knot `i`. -/
theorem C27_knots (val : List K) (n : List Int) (hne : val ≠ []) (hn : val.length ≤ n.length)
    (hpos : ∀ m ∈ n.tail, 0 ≤ m) :
    ∃ r, interpolateN val n = .ok r ∧ r.length = 1 + knotPos n (val.length - 1) ∧
      val.Sublist r ∧
      (∀ i < val.length, r.getD (knotPos n i) 0 = val.getD i 0) ∧
      (∀ i, i + 1 < val.length → ∀ k < (n.getD (i + 1) 0).toNat + 1,
        r.getD (knotPos n i + k) 0 = val.getD i 0 +
          (k : K) * ((val.getD (i + 1) 0 - val.getD i 0) / (((n.getD (i + 1) 0).toNat + 1 : Nat) : K))) := by
  unfold interpolateN knotPos
  have hn' : val.length ≤ n.tail.length + 1 := by rw [List.length_tail]; omega
  have hget : ∀ i, n.getD (i + 1) 0 = n.tail.getD i 0 := by
    intro i; cases n <;> simp
  simp only [hget]
  generalize n.tail = ns at hpos hn'
  clear hget hn
  induction val generalizing ns with
  | nil => exact absurd rfl hne
  | cons a val ih =>
    cases val with
    | nil =>
      refine ⟨[a], by simp [interpolateGo], by simp, by simp, ?_, ?_⟩
      · intro i hi
        have : i = 0 := by simpa using hi
        subst this; simp
      · intro i hi; simp at hi
    | cons b val =>
      cases ns with
      | nil => simp at hn'
      | cons m ms =>
        have hm : 0 ≤ m := hpos m (by simp)
        obtain ⟨r, hr, hl, hsub, hk, hs⟩ := ih (by simp) ms (fun x hx => hpos x (by simp [hx]))
          (by simpa using hn')
        have hmt : (m + 1).toNat = m.toNat + 1 := by omega
        have hok : interpolateGo (a :: b :: val) (m :: ms)
            = .ok (linspaceOpen a b (m.toNat + 1) ++ r) := by
          unfold interpolateGo
          rw [if_neg (by omega), hr]
          simp only [hmt]
        refine ⟨linspaceOpen a b (m.toNat + 1) ++ r, hok, ?_, ?_, ?_, ?_⟩
        · rw [List.length_append, linspaceOpen_length, hl]
          simp
          omega
        · have h1 : linspaceOpen a b (m.toNat + 1)
              = a :: (linspaceOpen a b (m.toNat + 1)).tail := by
            simp [linspaceOpen, List.range_succ_eq_map]
          rw [h1, List.cons_append]
          exact List.Sublist.cons_cons a (hsub.trans (List.sublist_append_right _ _))
        · intro i hi
          cases i with
          | zero => simp [linspaceOpen, List.range_succ_eq_map]
          | succ i =>
            have := hk i (by simpa using hi)
            rw [List.take_succ_cons, List.map_cons, List.sum_cons, List.getD_append_right _ _ _ _
              (by rw [linspaceOpen_length]; omega), linspaceOpen_length,
              Nat.add_sub_cancel_left, this]
            simp
        · intro i hi k hk'
          cases i with
          | zero =>
            simp only [List.take_zero, List.map_nil, List.sum_nil, Nat.zero_add]
            rw [List.getD_append _ _ _ _ (by rw [linspaceOpen_length]; simpa using hk')]
            simp only [List.getD_cons_zero, List.getD_cons_succ] at hk' ⊢
            simp [linspaceOpen, List.getD_eq_getElem?_getD, List.getElem?_range hk']
          | succ i =>
            have := hs i (by simpa using hi) k (by simpa using hk')
            rw [List.take_succ_cons, List.map_cons, List.sum_cons, List.getD_append_right _ _ _ _
              (by rw [linspaceOpen_length]; omega), linspaceOpen_length, Nat.add_assoc,
              Nat.add_sub_cancel_left, this]
            simp

/-- The refinement fails if a support number is missing (`IndexError`) or if there is no depth. -/
theorem C27_missing_number (val : List K) (n : List Int) (hn : n.length < val.length)
    (hpos : ∀ m ∈ n.tail, 0 ≤ m) (hv : 2 ≤ val.length) :
    interpolateN val n = .error .indexError := by
  unfold interpolateN
  have hn' : n.tail.length + 1 < val.length := by rw [List.length_tail]; omega
  generalize n.tail = ns at hpos hn'
  clear hn hv
  induction val generalizing ns with
  | nil => simp at hn'
  | cons a val ih =>
    cases val with
    | nil => simp at hn'
    | cons b val =>
      cases ns with
      | nil => rfl
      | cons m ms =>
        have hm : 0 ≤ m := hpos m (by simp)
        have := ih ms (fun x hx => hpos x (by simp [hx])) (by simpa using hn')
        unfold interpolateGo
        rw [if_neg (by omega), this]

variable [LinearOrder K] [IsStrictOrderedRing K]

/-- **C27, monotonicity.** A non-decreasing depth axis stays non-decreasing. -/
theorem C27_monotone (val : List K) (n : List Int) (r : List K) (h : interpolateN val n = .ok r)
    (hmono : val.Pairwise (· ≤ ·)) : r.Pairwise (· ≤ ·) := by
  unfold interpolateN at h
  generalize n.tail = ns at h
  suffices H : r.Pairwise (· ≤ ·) ∧ ∀ x ∈ r, ∀ a ∈ val.head?, a ≤ x from H.1
  induction val generalizing ns r with
  | nil => simp [interpolateGo] at h
  | cons a val ih =>
    cases val with
    | nil =>
      simp [interpolateGo] at h
      subst h; simp
    | cons b val =>
      cases ns with
      | nil => simp [interpolateGo] at h
      | cons m ms =>
        unfold interpolateGo at h
        split at h
        · simp at h
        · cases hr : interpolateGo (b :: val) ms with
          | error e => rw [hr] at h; simp at h
          | ok r' =>
            rw [hr] at h
            simp only [Except.ok.injEq] at h
            subst h
            rw [List.pairwise_cons] at hmono
            obtain ⟨i1, i2⟩ := ih r' hmono.2 ms hr
            have hab : a ≤ b := hmono.1 b (by simp)
            have hlin : ∀ x ∈ linspaceOpen a b (m + 1).toNat, a ≤ x ∧ x ≤ b := by
              intro x hx
              simp only [linspaceOpen, List.mem_map, List.mem_range] at hx
              obtain ⟨k, hk, rfl⟩ := hx
              have hpos : (0 : K) < ((m + 1).toNat : K) := by
                exact_mod_cast (by omega : 0 < (m + 1).toNat)
              have hkk : (k : K) ≤ ((m + 1).toNat : K) := by exact_mod_cast hk.le
              have hk0 : (0 : K) ≤ k := by positivity
              have hd : 0 ≤ (b - a) / ((m + 1).toNat : K) := div_nonneg (by linarith) hpos.le
              have h1 : (k : K) * ((b - a) / ((m + 1).toNat : K))
                  ≤ ((m + 1).toNat : K) * ((b - a) / ((m + 1).toNat : K)) :=
                mul_le_mul_of_nonneg_right hkk hd
              rw [mul_div_cancel₀ _ hpos.ne'] at h1
              have h2 := mul_nonneg hk0 hd
              constructor <;> linarith
            refine ⟨?_, ?_⟩
            · rw [List.pairwise_append]
              refine ⟨?_, i1, ?_⟩
              · rw [linspaceOpen, List.pairwise_map]
                refine List.Pairwise.imp ?_ (List.pairwise_lt_range (n := (m + 1).toNat))
                intro i j hij
                have hd : 0 ≤ (b - a) / ((m + 1).toNat : K) := div_nonneg (by linarith) (by positivity)
                have : (i : K) ≤ j := by exact_mod_cast hij.le
                have := mul_le_mul_of_nonneg_right this hd
                linarith
              · intro x hx y hy
                exact le_trans (hlin x hx).2 (i2 y hy b (by simp))
            · intro x hx a' ha'
              simp only [List.head?_cons, Option.mem_def, Option.some.injEq] at ha'
              subst ha'
              rcases List.mem_append.1 hx with hx | hx
              · exact (hlin x hx).1
              · exact le_trans hab (i2 x hx b (by simp))

example : interpolateN ([0, 0, 10, 20] : List ℚ) [0, 0, 4, 1] = .ok [0, 0, 2, 4, 6, 8, 10, 15, 20] := by
  decide +kernel

theorem interpolateGo_length_eq {K L : Type} [Field K] [Field L] (a : List K) (b : List L) (ns : List Int)
    (h : a.length = b.length) (ra : List K) (rb : List L) (ha : interpolateGo a ns = .ok ra)
    (hb : interpolateGo b ns = .ok rb) : ra.length = rb.length := by
  induction a generalizing b ns ra rb with
  | nil => simp [interpolateGo] at ha
  | cons x a ih =>
    cases b with
    | nil => simp at h
    | cons y b =>
      cases a with
      | nil =>
        cases b with
        | nil => simp [interpolateGo] at ha hb; subst ha; subst hb; rfl
        | cons _ _ => simp at h
      | cons x2 a =>
        cases b with
        | nil => simp at h
        | cons y2 b =>
          cases ns with
          | nil => simp [interpolateGo] at ha
          | cons m ms =>
            unfold interpolateGo at ha hb
            split at ha
            · simp at ha
            · rename_i hm
              rw [if_neg hm] at hb
              cases hra : interpolateGo (x2 :: a) ms with
              | error e => rw [hra] at ha; simp at ha
              | ok ra' =>
                cases hrb : interpolateGo (y2 :: b) ms with
                | error e => rw [hrb] at hb; simp at hb
                | ok rb' =>
                  rw [hra] at ha; rw [hrb] at hb
                  simp only [Except.ok.injEq] at ha hb
                  subst ha; subst hb
                  have := ih (y2 :: b) ms (by simpa using h) ra' rb' hra hrb
                  simp [linspaceOpen_length, this]

theorem diff_length {K : Type} [Field K] (l : List K) : (diff l).length = l.length - 1 := by
  simp [diff]

/-- Every model made by the constructor consists of layers: `vp`, `vs`, `dz` have the same length
(one less than the number of depths), and the cache is empty. -/
theorem C28_layers {K : Type} [Field K] (z vp vs : List K) (n : Option (List Int))
    (m : SimpleModel K) (h : SimpleModel.init z vp vs n = .ok m) :
    ∃ layers : List (Layer K), m.vp = layers.map Layer.vp ∧ m.vs = layers.map Layer.vs ∧
      m.dz = layers.map Layer.dz ∧ m.z.length = layers.length ∧ m.tRef = [] := by
  have key : ∀ z vp vs : List K, z.length = vp.length → vp.length = vs.length →
      ∃ layers : List (Layer K), vp.dropLast = layers.map Layer.vp ∧
        vs.dropLast = layers.map Layer.vs ∧ diff z = layers.map Layer.dz ∧
        z.dropLast.length = layers.length := by
    intro z vp vs h1 h2
    refine ⟨(List.range (z.length - 1)).map fun i =>
      ⟨vp.dropLast.getD i 0, vs.dropLast.getD i 0, (diff z).getD i 0⟩, ?_, ?_, ?_, ?_⟩
    · apply List.ext_getElem
      · simp [h1]
      · intro i hi hi'
        simp only [List.getElem_map, List.getElem_range, List.getD_eq_getElem _ _ hi]
    · apply List.ext_getElem
      · simp [h1, h2]
      · intro i hi hi'
        simp only [List.getElem_map, List.getElem_range, List.getD_eq_getElem _ _ hi]
    · apply List.ext_getElem
      · simp [diff_length]
      · intro i hi hi'
        simp only [List.getElem_map, List.getElem_range, List.getD_eq_getElem _ _ hi]
    · simp
  unfold SimpleModel.init at h
  by_cases hl : z.length = vp.length ∧ vp.length = vs.length
  · simp only [hl, and_self, not_true_eq_false, if_false] at h
    cases n with
    | none =>
      simp only [bind, Except.bind, pure, Except.pure, Except.ok.injEq] at h
      subst h
      obtain ⟨ls, k1, k2, k3, k4⟩ := key z vp vs hl.1 hl.2
      exact ⟨ls, k1, k2, k3, k4, rfl⟩
    | some n =>
      simp only [bind, Except.bind, pure, Except.pure] at h
      cases hz : interpolateN z n with
      | error e => simp [hz] at h
      | ok z' =>
        cases hvp : interpolateN vp n with
        | error e => simp [hz, hvp] at h
        | ok vp' =>
          cases hvs : interpolateN vs n with
          | error e => simp [hz, hvp, hvs] at h
          | ok vs' =>
            simp only [hz, hvp, hvs, Except.ok.injEq] at h
            subst h
            obtain ⟨ls, k1, k2, k3, k4⟩ := key z' vp' vs'
              (interpolateGo_length_eq _ _ _ hl.1 _ _ hz hvp)
              (interpolateGo_length_eq _ _ _ hl.2 _ _ hvp hvs)
            exact ⟨ls, k1, k2, k3, k4, rfl⟩
  · rw [if_pos hl] at h
    simp [bind, Except.bind, throw, throwThe, MonadExceptOf.throw] at h

end interpolate

section delay
variable {K : Type} [Field K] [LinearOrder K] (sqrt : K → K)

theorem cumsumO_some (a : K) (l : List K) :
    cumsumO (some a) (l.map some) =
      (List.range l.length).map fun k => some (a + (l.take (k + 1)).sum) := by
  induction l generalizing a with
  | nil => simp [cumsumO]
  | cons x l ih =>
    simp only [List.map_cons, cumsumO, List.length_cons, List.range_succ_eq_map, ih]
    simp [Function.comp_def, add_assoc]

theorem vslow_some (v s : K) (h : (s / (1112 / 10)) ^ 2 ≤ 1 / v ^ 2) [IsStrictOrderedRing K] :
    vslow sqrt v s = some (qSpec sqrt v s) := by
  unfold vslow qSpec deg2km
  have : (v⁻¹) ^ 2 = 1 / v ^ 2 := by rw [inv_pow, one_div]
  simp only [this]
  rw [if_neg (not_lt.2 (sub_nonneg.2 h))]

variable [IsStrictOrderedRing K]

/-- **C28.** The delay times are the sums over the layers of
`(#P * qp + #S * qs - 2 * q_first) * dz`. -/
theorem C28_delay_times (m : SimpleModel K) (layers : List (Layer K))
    (hvp : m.vp = layers.map Layer.vp) (hvs : m.vs = layers.map Layer.vs)
    (hdz : m.dz = layers.map Layer.dz) (s : K) (phase : Str) (hne : phase ≠ [])
    (hletters : ∀ c ∈ upper phase, c = 'P' ∨ c = 'S') (hprop : Propagates layers s) :
    delayTimes sqrt m s phase = .ok ((List.range layers.length).map fun k =>
      some (delaySpec sqrt ((upper phase).count 'P') ((upper phase).count 'S')
        ((upper phase).head? = some 'P') layers s k)) := by
  have hune : upper phase ≠ [] := by
    intro h; apply hne; unfold upper at h; simpa using h
  unfold delayTimes
  simp only [hune, if_false]
  have hlay : ((List.zip (vertSlow sqrt 'P' m.vp s (upper phase))
      (List.zip (vertSlow sqrt 'S' m.vs s (upper phase)) m.dz)).map
        fun x => layerDelay (upper phase) x.1 x.2.1 x.2.2)
      = (layers.map fun l => (((upper phase).count 'P' : K) * qSpec sqrt l.vp s
          + ((upper phase).count 'S' : K) * qSpec sqrt l.vs s
          - 2 * (if (decide ((upper phase).head? = some 'P')) = true then qSpec sqrt l.vp s
              else qSpec sqrt l.vs s)) * l.dz).map some := by
    rw [hvp, hvs, hdz]
    unfold vertSlow
    rw [List.map_map, List.map_map, List.zip_map', List.zip_map', List.map_map, List.map_map]
    apply List.map_congr_left
    intro l hl
    obtain ⟨h1, h2⟩ := hprop l hl
    simp only [Function.comp, upper_idem, vslow_some sqrt _ _ h1, vslow_some sqrt _ _ h2]
    obtain ⟨c, r, hcr⟩ := List.exists_cons_of_ne_nil hune
    have hhead : (upper phase).head? = some c := by rw [hcr]; rfl
    by_cases hP : (upper phase).contains 'P' = true
    · by_cases hS : (upper phase).contains 'S' = true
      · simp only [hP, hS, if_true, layerDelay, Option.some.injEq, decide_eq_true_eq]
        ring
      · have hS0 : (upper phase).count 'S' = 0 := by
          rw [List.count_eq_zero]; simpa using hS
        have hc : c = 'P' := by
          rcases hletters c (by rw [hcr]; simp) with h | h
          · exact h
          · subst h; exact absurd (by rw [hcr]; simp) hS
        simp only [hP, hS, if_true, layerDelay, hhead, hc, hS0, Option.some.injEq]
        simp
        left; ring
    · have hP0 : (upper phase).count 'P' = 0 := by
        rw [List.count_eq_zero]; simpa using hP
      have hc : c = 'S' := by
        rcases hletters c (by rw [hcr]; simp) with h | h
        · subst h; exact absurd (by rw [hcr]; simp) hP
        · exact h
      have hS : (upper phase).contains 'S' = true := by rw [hcr, hc]; simp
      simp only [hP, hS, if_true, layerDelay, hhead, hc, hP0, Option.some.injEq]
      simp
      left; ring
  rw [hlay, cumsumO_some]
  simp only [List.length_map, Except.ok.injEq]
  apply List.map_congr_left
  intro k _
  rw [zero_add, ← List.map_take]
  rfl

/-- **C28, instances.** The textbook formulas for the most common phases, layer by layer. -/
theorem C28_common_phases (layers : List (Layer K)) (s : K) (k : Nat) :
    let q := fun v => qSpec sqrt v s
    let acc := fun (f : Layer K → K) => ((layers.take (k + 1)).map fun l => f l * l.dz).sum
    let spec := fun (phase : Str) => delaySpec sqrt ((upper phase).count 'P')
      ((upper phase).count 'S') ((upper phase).head? = some 'P') layers s k
    spec "Ps".toList = acc (fun l => q l.vs - q l.vp) ∧
    spec "Sp".toList = - acc (fun l => q l.vs - q l.vp) ∧
    spec "Ppps".toList = acc (fun l => q l.vp + q l.vs) ∧
    spec "Ppss".toList = acc (fun l => 2 * q l.vs) ∧
    spec "Pppp".toList = acc (fun l => 2 * q l.vp) ∧
    spec "Psss".toList = acc (fun l => 3 * q l.vs - q l.vp) := by
  have key : ∀ (nP nS : Nat) (b : Bool) (f : Layer K → K),
      (∀ l, (nP : K) * qSpec sqrt l.vp s + (nS : K) * qSpec sqrt l.vs s
        - 2 * (if b then qSpec sqrt l.vp s else qSpec sqrt l.vs s) = f l) →
      delaySpec sqrt nP nS b layers s k = ((layers.take (k + 1)).map fun l => f l * l.dz).sum := by
    intro nP nS b f h
    unfold delaySpec
    congr 1; apply List.map_congr_left; intro l _; rw [h l]
  refine ⟨?_, ?_, ?_, ?_, ?_, ?_⟩
  · simp only [show (upper "Ps".toList).count 'P' = 1 by decide,
      show (upper "Ps".toList).count 'S' = 1 by decide,
      show decide ((upper "Ps".toList).head? = some 'P') = true by decide]
    exact key _ _ _ _ (fun l => by push_cast; simp; try ring)
  · simp only [show (upper "Sp".toList).count 'P' = 1 by decide,
      show (upper "Sp".toList).count 'S' = 1 by decide,
      show decide ((upper "Sp".toList).head? = some 'P') = false by decide]
    rw [key 1 1 false (fun l => -(qSpec sqrt l.vs s - qSpec sqrt l.vp s))
      (fun l => by push_cast; simp; ring)]
    generalize layers.take (k + 1) = ls
    induction ls with
    | nil => simp
    | cons l ls ih => simp only [List.map_cons, List.sum_cons, ih]; ring
  · simp only [show (upper "Ppps".toList).count 'P' = 3 by decide,
      show (upper "Ppps".toList).count 'S' = 1 by decide,
      show decide ((upper "Ppps".toList).head? = some 'P') = true by decide]
    exact key _ _ _ _ (fun l => by push_cast; simp; try ring)
  · simp only [show (upper "Ppss".toList).count 'P' = 2 by decide,
      show (upper "Ppss".toList).count 'S' = 2 by decide,
      show decide ((upper "Ppss".toList).head? = some 'P') = true by decide]
    exact key _ _ _ _ (fun l => by push_cast; simp; try ring)
  · simp only [show (upper "Pppp".toList).count 'P' = 4 by decide,
      show (upper "Pppp".toList).count 'S' = 0 by decide,
      show decide ((upper "Pppp".toList).head? = some 'P') = true by decide]
    exact key _ _ _ _ (fun l => by push_cast; simp; try ring)
  · simp only [show (upper "Psss".toList).count 'P' = 1 by decide,
      show (upper "Psss".toList).count 'S' = 3 by decide,
      show decide ((upper "Psss".toList).head? = some 'P') = true by decide]
    exact key _ _ _ _ (fun l => by push_cast; simp; try ring)

/-- **C28, letters.** Only the letters of the phase count, not their case, nor their order after the
first one. -/
theorem C28_only_letters (m : SimpleModel K) (s : K) (p q : Str)
    (hperm : (upper p).Perm (upper q)) (hhead : (upper p).head? = (upper q).head?) :
    delayTimes sqrt m s p = delayTimes sqrt m s q := by
  have hnil : upper p = [] ↔ upper q = [] := by
    constructor
    · intro h; rw [h] at hperm; exact hperm.nil_eq.symm
    · intro h; rw [h] at hperm; exact hperm.eq_nil
  have hcont : ∀ c, (upper p).contains c = (upper q).contains c := by
    intro c
    rw [Bool.eq_iff_iff, List.contains_iff_mem, List.contains_iff_mem, hperm.mem_iff]
  unfold delayTimes vertSlow
  simp only [hnil, upper_idem, hcont]
  have : ∀ a b d, layerDelay (upper p) a b d = layerDelay (upper q) a b (d : K) := by
    intro a b d
    unfold layerDelay
    rw [hperm.count_eq, hperm.count_eq, hhead]
  simp only [this]

theorem delaySpec_term_nonneg (hs : SqrtMono sqrt) (l : Layer K) (s : K)
    (hv : 0 < l.vs ∧ l.vs ≤ l.vp ∧ 0 ≤ l.dz)
    (hp : (s / (1112 / 10)) ^ 2 ≤ 1 / l.vp ^ 2) (nP nS : Nat) (hP : 1 ≤ nP) (hS : 1 ≤ nS) :
    0 ≤ ((nP : K) * qSpec sqrt l.vp s + (nS : K) * qSpec sqrt l.vs s
      - 2 * qSpec sqrt l.vp s) * l.dz := by
  have hvp : 0 < l.vp := lt_of_lt_of_le hv.1 hv.2.1
  have hle : 1 / l.vp ^ 2 ≤ 1 / l.vs ^ 2 :=
    one_div_le_one_div_of_le (pow_pos hv.1 2) (pow_le_pow_left₀ hv.1.le hv.2.1 2)
  have h0 : 0 ≤ 1 / l.vp ^ 2 - (s / (1112 / 10)) ^ 2 := by linarith
  obtain ⟨q0, q1⟩ := hs _ (1 / l.vs ^ 2 - (s / (1112 / 10)) ^ 2) h0 (by linarith)
  change 0 ≤ qSpec sqrt l.vp s at q0
  change qSpec sqrt l.vp s ≤ qSpec sqrt l.vs s at q1
  apply mul_nonneg _ hv.2.2
  have hP' : (1 : K) ≤ nP := by exact_mod_cast hP
  have hS' : (1 : K) ≤ nS := by exact_mod_cast hS
  have h1 := mul_le_mul_of_nonneg_right hP' q0
  have h2 := mul_le_mul_of_nonneg_right hS' (le_trans q0 q1)
  linarith

/-- **C29.** Delay times of every phase that starts with P and contains an S are non-negative and
non-decreasing with depth. -/
theorem C29_nonneg_monotone (hs : SqrtMono sqrt) (m : SimpleModel K) (layers : List (Layer K))
    (hvp : m.vp = layers.map Layer.vp) (hvs : m.vs = layers.map Layer.vs)
    (hdz : m.dz = layers.map Layer.dz) (s : K) (phase : Str)
    (hletters : ∀ c ∈ upper phase, c = 'P' ∨ c = 'S') (hfirst : (upper phase).head? = some 'P')
    (hS : 'S' ∈ upper phase) (hprop : Propagates layers s)
    (hv : ∀ l ∈ layers, 0 < l.vs ∧ l.vs ≤ l.vp ∧ 0 ≤ l.dz) :
    ∃ t : List K, delayTimes sqrt m s phase = .ok (t.map some) ∧ t.length = layers.length ∧
      (∀ x ∈ t, 0 ≤ x) ∧ t.Pairwise (· ≤ ·) := by
  have hne : phase ≠ [] := by rintro rfl; simp at hS
  have hP1 : 1 ≤ (upper phase).count 'P' := List.one_le_count_iff.2 (List.mem_of_mem_head? hfirst)
  have hS1 : 1 ≤ (upper phase).count 'S' := List.one_le_count_iff.2 hS
  rw [C28_delay_times sqrt m layers hvp hvs hdz s phase hne hletters hprop]
  have hterm : ∀ l ∈ layers, 0 ≤ (((upper phase).count 'P' : K) * qSpec sqrt l.vp s
      + ((upper phase).count 'S' : K) * qSpec sqrt l.vs s
      - 2 * (if (decide ((upper phase).head? = some 'P')) = true then qSpec sqrt l.vp s
              else qSpec sqrt l.vs s)) * l.dz := by
    intro l hl
    have := delaySpec_term_nonneg sqrt hs l s (hv l hl) (hprop l hl).1 _ _ hP1 hS1
    simpa [hfirst] using this
  have hmono : ∀ i j, i ≤ j → delaySpec sqrt ((upper phase).count 'P') ((upper phase).count 'S')
        ((upper phase).head? = some 'P') layers s i
      ≤ delaySpec sqrt ((upper phase).count 'P') ((upper phase).count 'S')
        ((upper phase).head? = some 'P') layers s j := by
    intro i j hij
    unfold delaySpec
    have : layers.take (j + 1) = layers.take (i + 1) ++ (layers.take (j + 1)).drop (i + 1) := by
      conv_lhs => rw [← List.take_append_drop (i + 1) (layers.take (j + 1))]
      rw [List.take_take, min_eq_left (by omega)]
    rw [this, List.map_append, List.sum_append]
    apply le_add_of_nonneg_right
    apply List.sum_nonneg
    intro x hx
    obtain ⟨l, hl, rfl⟩ := List.mem_map.1 hx
    exact hterm l (List.mem_of_mem_take (List.mem_of_mem_drop hl))
  refine ⟨(List.range layers.length).map fun k =>
    delaySpec sqrt ((upper phase).count 'P') ((upper phase).count 'S')
        ((upper phase).head? = some 'P') layers s k, by simp [List.map_map, Function.comp_def], by simp, ?_, ?_⟩
  · intro x hx
    obtain ⟨k, _, rfl⟩ := List.mem_map.1 hx
    unfold delaySpec
    apply List.sum_nonneg
    intro x hx
    obtain ⟨l, hl, rfl⟩ := List.mem_map.1 hx
    exact hterm l (List.mem_of_mem_take hl)
  · rw [List.pairwise_map]
    exact List.Pairwise.imp (fun h => hmono _ _ (le_of_lt h)) List.pairwise_lt_range

/-- The table `mirror` builds from NaN-free delay times. -/
def mirrorK (t : List K) : List K := ((slice t 1 10).map fun x => -x).reverse ++ t

theorem mirror_some (t : List K) : mirror (t.map some) = (mirrorK t).map some := by
  unfold mirror mirrorK negO slice clampIdx
  simp [List.map_drop, List.map_take, Function.comp_def]

theorem mirrorK_sorted (t : List K) (h0 : ∀ x ∈ t, 0 ≤ x) (hs : t.Pairwise (· ≤ ·)) :
    (mirrorK t).Pairwise (· ≤ ·) := by
  have hsub : (slice t 1 10).Sublist t := by
    unfold slice; exact (List.drop_sublist _ _).trans (List.take_sublist _ _)
  unfold mirrorK
  rw [List.pairwise_append, List.pairwise_reverse, List.pairwise_map]
  refine ⟨?_, hs, ?_⟩
  · exact List.Pairwise.imp (fun h => neg_le_neg h) (hs.sublist hsub)
  · intro a ha b hb
    rw [List.mem_reverse, List.mem_map] at ha
    obtain ⟨x, hx, rfl⟩ := ha
    have := h0 x (hsub.subset hx)
    have := h0 b hb
    linarith

theorem firstNaN_some (t : List K) : firstNaN (t.map some) = none := by
  unfold firstNaN
  rw [List.findIdx?_eq_none_iff]
  intro x hx
  obtain ⟨y, _, rfl⟩ := List.mem_map.1 hx
  rfl

theorem sliceTo_length {α : Type} (t : List α) : sliceTo t (t.length : Int) = t := by
  unfold sliceTo clampIdx
  rw [if_neg (by omega)]
  simp

/-- **C29, tables.** On a fresh model both time axes returned by `stretch_delay_times` are free of NaN,
equally long and sorted. -/
theorem C29_tables_sorted (hs : SqrtMono sqrt) (m : SimpleModel K) (layers : List (Layer K))
    (hvp : m.vp = layers.map Layer.vp) (hvs : m.vs = layers.map Layer.vs)
    (hdz : m.dz = layers.map Layer.dz) (hfresh : m.tRef = []) (s ref : K) (phase : Str)
    (heven : phase.length % 2 = 0)
    (hletters : ∀ c ∈ upper phase, c = 'P' ∨ c = 'S') (hfirst : (upper phase).head? = some 'P')
    (hS : 'S' ∈ upper phase) (hprop : Propagates layers s) (hpropr : Propagates layers ref)
    (hv : ∀ l ∈ layers, 0 < l.vs ∧ l.vs ≤ l.vp ∧ 0 ≤ l.dz) :
    ∃ t0 t1 : List K, (stretch sqrt m s phase ref).2 = .ok (t0.map some, t1.map some) ∧
      t0.length = t1.length ∧ t0.Pairwise (· ≤ ·) ∧ t1.Pairwise (· ≤ ·) := by
  obtain ⟨t, ht, hl, h0, hsort⟩ := C29_nonneg_monotone sqrt hs m layers hvp hvs hdz s phase hletters
    hfirst hS hprop hv
  obtain ⟨r, hr, hlr, h0r, hsortr⟩ := C29_nonneg_monotone sqrt hs m layers hvp hvs hdz ref phase
    hletters hfirst hS hpropr hv
  have hup : ∀ x, delayTimes sqrt m x (upper phase) = delayTimes sqrt m x phase := fun x =>
    C28_only_letters sqrt m x _ _ (by rw [upper_idem]) (by rw [upper_idem])
  refine ⟨mirrorK t, mirrorK r, ?_, ?_, mirrorK_sorted t h0 hsort, mirrorK_sorted r h0r hsortr⟩
  · unfold stretch
    rw [if_neg (by omega)]
    simp only [hfresh, lookupRef, List.find?_nil, Option.map_none, hup, hr, ht, hfirst,
      Option.some.injEq, show ('P' : Char) ≠ 'S' by decide, if_false, firstNaN_some,
      List.length_map]
    rw [show ((t.length : Int)) = ((t.map some).length : Int) by simp, sliceTo_length,
      show ((t.map some).length : Int) = ((r.map some).length : Int) by simp [hl, hlr],
      sliceTo_length, mirror_some, mirror_some]
  · simp [mirrorK, slice, clampIdx, hl, hlr]

end delay
end Verif.Props
