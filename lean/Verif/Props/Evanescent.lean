import Verif.Props.Models
import Verif.Spec.Evanescent

/-!
# Evanescent layers cut the model: C175
-/

set_option linter.unusedSimpArgs false
set_option linter.unusedSectionVars false

namespace Verif.Props
open Verif.Py Verif.Spec Verif.Model Verif.Model.Simple

section evanescent
variable {K : Type} [Field K] [LinearOrder K] [IsStrictOrderedRing K] (sqrt : K → K)

theorem cumsumO_take (acc : Option K) (l : List (Option K)) (k : ℕ) :
    cumsumO acc (l.take k) = (cumsumO acc l).take k := by
  induction l generalizing acc k with
  | nil => simp [cumsumO]
  | cons x l ih =>
    cases k with
    | zero => simp [cumsumO]
    | succ k => simp only [List.take_succ_cons, cumsumO, ih]

/-- The delay times of the uppermost layers do not depend on the layers below. -/
theorem delayTimes_topOf (m : SimpleModel K) (k : ℕ) (s : K) (phase : Str) :
    delayTimes sqrt (topOf m k) s phase = (delayTimes sqrt m s phase).map (·.take k) := by
  unfold delayTimes topOf vertSlow
  simp only
  split
  · rfl
  · simp only [Except.map, ← cumsumO_take, ← List.map_take]
    congr 3
    simp only [List.zip, List.take_zipWith, List.map_take]

theorem vslow_none_iff (v s : K) : vslow sqrt v s = none ↔ Evanescent v s := by
  unfold vslow Evanescent deg2km
  simp only [inv_pow, one_div, ite_eq_left_iff, reduceCtorEq, imp_false, not_not, sub_neg]

/-- The first NaN in the delay times is the first layer in which a wave of the phase does not exist. -/
theorem firstNaN_delay (m : SimpleModel K) (layers : List (Layer K))
    (hvp : m.vp = layers.map Layer.vp) (hvs : m.vs = layers.map Layer.vs)
    (hdz : m.dz = layers.map Layer.dz) (s : K) (phase : Str) (t : List (Option K))
    (ht : delayTimes sqrt m s phase = .ok t) :
    t.length = layers.length ∧ ∀ i : ℕ, t[i]? = some none ↔
      i < layers.length ∧ ∃ j ≤ i, ∃ l, layers[j]? = some l ∧ Blocked (upper phase) s l := by
  unfold delayTimes at ht
  simp only at ht
  split at ht
  · cases ht
  simp only [Except.ok.injEq] at ht
  subst ht
  have hlen : ((List.zip (vertSlow sqrt 'P' m.vp s (upper phase))
      (List.zip (vertSlow sqrt 'S' m.vs s (upper phase)) m.dz)).map
        fun x => layerDelay (upper phase) x.1 x.2.1 x.2.2).length = layers.length := by
    simp [vertSlow, hvp, hvs, hdz]
  refine ⟨by rw [cumsumO_length, hlen], fun i => ?_⟩
  rw [cumsumO_getElem_none, hlen]
  simp only [reduceCtorEq, false_or]
  refine and_congr_right fun _ => exists_congr fun j => and_congr_right fun _ => ?_
  simp only [hvp, hvs, hdz, vertSlow, List.map_map, List.zip_map', List.getElem?_map, Option.map_eq_some_iff,
    Function.comp_def, upper_idem]
  refine exists_congr fun l => and_congr_right fun _ => ?_
  unfold Blocked
  rw [← vslow_none_iff sqrt, ← vslow_none_iff sqrt]
  unfold layerDelay
  by_cases hP : 'P' ∈ upper phase <;> by_cases hS : 'S' ∈ upper phase <;>
    cases h1 : vslow sqrt l.vp s <;> cases h2 : vslow sqrt l.vs s <;> simp [hP, hS, h1, h2]

/-- `a[:k]` for `0 ≤ k`. -/
theorem sliceTo_nat {α : Type} (l : List α) (k : ℕ) : sliceTo l (k : ℤ) = l.take k := by
  unfold sliceTo clampIdx
  rw [if_neg (by omega)]
  simp [List.take_eq_take_iff]

/-- The two tables for given delay times: sign, cut and mirrored part (lines 141-151). -/
def tablesOf (phase : Str) (t tref : List (Option K)) : List (Option K) × List (Option K) :=
  let tref := if phase.head? = some 'S' then negO tref else tref
  let t := if phase.head? = some 'S' then negO t else t
  let index : Int := match firstNaN t with
    | some i => (i : Int) - 1
    | none => t.length
  (mirror (sliceTo t index), mirror (sliceTo tref index))

theorem stretch_fresh (m : SimpleModel K) (hfresh : m.tRef = []) (s ref : K) (phase : Str) :
    (stretch sqrt m s phase ref).2 = if phase.length % 2 = 1 then .error .valueError else
      match delayTimes sqrt m ref (upper phase), delayTimes sqrt m s (upper phase) with
      | .ok tref, .ok t => .ok (tablesOf (upper phase) t tref)
      | .error e, _ => .error e
      | .ok _, .error e => .error e := by
  unfold stretch
  split
  · rfl
  · simp only [hfresh, lookupRef, List.find?_nil, Option.map_none]
    cases delayTimes sqrt m ref (upper phase) with
    | error e => rfl
    | ok tref =>
      cases delayTimes sqrt m s (upper phase) with
      | error e => rfl
      | ok t => rfl

theorem negO_take (l : List (Option K)) (k : ℕ) : negO (l.take k) = (negO l).take k := by
  unfold negO
  rw [List.map_take]

/-- **C175.** If `f > 0` is the first layer in which a wave of the phase does not exist for the slowness `s`, the time
tables are those of the model which ends with layer `f - 2`. -/
theorem C175_tables (m : SimpleModel K) (layers : List (Layer K))
    (hvp : m.vp = layers.map Layer.vp) (hvs : m.vs = layers.map Layer.vs)
    (hdz : m.dz = layers.map Layer.dz) (hfresh : m.tRef = []) (s ref : K) (phase : Str) (f : ℕ) (hf : 0 < f)
    (l : Layer K) (hl : layers[f]? = some l) (hb : Blocked (upper phase) s l)
    (hmin : ∀ j < f, ∀ l', layers[j]? = some l' → ¬ Blocked (upper phase) s l') :
    (stretch sqrt m s phase ref).2 = (stretch sqrt (topOf m (f - 1)) s phase ref).2 := by
  rw [stretch_fresh sqrt m hfresh, stretch_fresh sqrt (topOf m (f - 1)) rfl, delayTimes_topOf, delayTimes_topOf]
  split
  · rfl
  cases hr : delayTimes sqrt m ref (upper phase) with
  | error e => rfl
  | ok tref =>
    cases ht : delayTimes sqrt m s (upper phase) with
    | error e => rfl
    | ok t =>
      simp only [Except.map, Except.ok.injEq]
      obtain ⟨n1, n2⟩ := firstNaN_delay sqrt m layers hvp hvs hdz s _ t ht
      obtain ⟨r1, -⟩ := firstNaN_delay sqrt m layers hvp hvs hdz ref _ tref hr
      rw [upper_idem] at n2
      have hfl : f < layers.length := (List.getElem?_eq_some_iff.1 hl).1
      -- signs do not matter
      have key : ∀ T R : List (Option K), T.length = layers.length → R.length = layers.length →
          (∀ i : ℕ, T[i]? = some none ↔ t[i]? = some none) →
          (mirror (sliceTo T (match firstNaN T with | some i => (i : Int) - 1 | none => T.length)),
            mirror (sliceTo R (match firstNaN T with | some i => (i : Int) - 1 | none => T.length))) =
          (mirror (sliceTo (T.take (f - 1)) (match firstNaN (T.take (f - 1)) with
              | some i => (i : Int) - 1 | none => (T.take (f - 1)).length)),
            mirror (sliceTo (R.take (f - 1)) (match firstNaN (T.take (f - 1)) with
              | some i => (i : Int) - 1 | none => (T.take (f - 1)).length))) := by
        intro T R hT hR hTt
        have h1 : firstNaN T = some f := by
          unfold firstNaN
          rw [List.findIdx?_eq_some_iff_getElem]
          have : T[f]? = some none := (hTt f).2 ((n2 f).2 ⟨hfl, f, le_rfl, l, hl, hb⟩)
          refine ⟨by rw [hT]; exact hfl, ?_, fun j hj => ?_⟩
          · rw [List.getElem?_eq_getElem (by rw [hT]; exact hfl)] at this
            rw [Option.some.inj this]; rfl
          · intro hcon
            have h2 : T[j]? = some none := by
              rw [List.getElem?_eq_getElem (by omega)]
              simpa using hcon
            obtain ⟨-, i, hi, l', hl', hb'⟩ := (n2 j).1 ((hTt j).1 h2)
            exact hmin i (by omega) l' hl' hb'
        have h2 : firstNaN (T.take (f - 1)) = none := by
          unfold firstNaN
          rw [List.findIdx?_eq_none_iff]
          intro x hx
          obtain ⟨j, hj, hjx⟩ := List.mem_iff_getElem.1 hx
          rw [List.getElem_take] at hjx
          simp only [List.length_take] at hj
          by_contra hcon
          have h3 : T[j]? = some none := by
            rw [List.getElem?_eq_getElem (by omega), hjx]
            simpa using hcon
          obtain ⟨-, i, hi, l', hl', hb'⟩ := (n2 j).1 ((hTt j).1 h3)
          exact hmin i (by omega) l' hl' hb'
        rw [h1, h2]
        simp only
        have e : (f : ℤ) - 1 = ((f - 1 : ℕ) : ℤ) := by omega
        rw [e, sliceTo_nat, sliceTo_nat, sliceTo_nat, sliceTo_nat, List.length_take, List.take_take, List.take_take]
        have e2 : min (min (f - 1) T.length) (f - 1) = f - 1 := by omega
        rw [e2]
      unfold tablesOf
      split
      · simp only [negO_take]
        exact key (negO t) (negO tref) (by simp [negO, n1]) (by simp [negO, r1]) (fun i => negO_getElem_none t i)
      · exact key t tref n1 r1 (fun i => Iff.rfl)

theorem evanescent_mono (v w s : K) (hv : 0 < v) (hvw : v ≤ w) (h : Evanescent v s) : Evanescent w s :=
  lt_of_le_of_lt (one_div_le_one_div_of_le (pow_pos hv 2) (pow_le_pow_left₀ hv.le hvw 2)) h

variable [FloorRing K] (find : List K → K → Nat)

/-- **C175, correction.** The move out correction of a trace with this slowness is the one with the model which ends
with layer `f - 2`. -/
theorem C175_moveout (nanCase : Trace K → Res (List K)) (m : SimpleModel K) (layers : List (Layer K))
    (hvp : m.vp = layers.map Layer.vp) (hvs : m.vs = layers.map Layer.vs)
    (hdz : m.dz = layers.map Layer.dz) (hfresh : m.tRef = []) (s ref : K) (phase : Str) (f : ℕ) (hf : 0 < f)
    (l : Layer K) (hl : layers[f]? = some l) (hb : Blocked (upper phase) s l)
    (hmin : ∀ j < f, ∀ l', layers[j]? = some l' → ¬ Blocked (upper phase) s l')
    (tr : Trace K) (hslow : tr.getNum "slowness" = some s) :
    (moveoutStep sqrt find nanCase phase ref m tr).2 =
      (moveoutStep sqrt find nanCase phase ref (topOf m (f - 1)) tr).2 := by
  have hst := C175_tables sqrt m layers hvp hvs hdz hfresh s ref phase f hf l hl hb hmin
  unfold moveoutStep
  cases tr.getTime "onset" with
  | none => rfl
  | some onset =>
    simp only [hslow]
    split
    · rfl
    · rcases h1 : stretch sqrt m s phase ref with ⟨m1, r1⟩
      rcases h2 : stretch sqrt (topOf m (f - 1)) s phase ref with ⟨m2, r2⟩
      rw [h1, h2] at hst
      simp only at hst
      subst hst
      cases r1 with
      | error e => rfl
      | ok p =>
        obtain ⟨t0, t1⟩ := p
        simp only
        have key : ∀ r : Res (List K), (match r with
            | .error e => (m1, (.error e : Res (Trace K)))
            | .ok d => (m1, .ok { tr with data := d })).2 = (match r with
            | .error e => (m2, (.error e : Res (Trace K)))
            | .ok d => (m2, .ok { tr with data := d })).2 := fun r => by cases r <;> rfl
        exact key _

/-- The part of the model that is used for slowness `s`: at least the layers down to the last but one layer that is reached. -/
theorem usable (nanCase : Trace K → Res (List K)) (m : SimpleModel K) (layers : List (Layer K))
    (hvp : m.vp = layers.map Layer.vp) (hvs : m.vs = layers.map Layer.vs)
    (hdz : m.dz = layers.map Layer.dz) (hz : m.z.length ≤ layers.length) (hfresh : m.tRef = []) (s ref : K)
    (hv : ∀ l ∈ layers, 0 < l.vs ∧ l.vs < l.vp ∧ 0 ≤ l.dz)
    (h0 : ∀ l, layers.head? = some l → ¬ Evanescent l.vp s) :
    ∃ N ≤ layers.length, Propagates (layers.take N) s ∧
      (∀ n ≤ layers.length, (∀ l ∈ layers.take (n + 1), ¬ Evanescent l.vp s) → n ≤ N) ∧
      ∀ (phase : Str), 'P' ∈ upper phase → ∀ tr : Trace K, tr.getNum "slowness" = some s →
        (moveoutStep sqrt find nanCase phase ref m tr).2 = (moveoutStep sqrt find nanCase phase ref (topOf m N) tr).2 := by
  classical
  have hblocked : ∀ phase : Str, 'P' ∈ upper phase → ∀ l ∈ layers, (Blocked (upper phase) s l ↔ Evanescent l.vp s) := by
    intro phase hfirst l hl
    obtain ⟨v1, v2, -⟩ := hv l hl
    constructor
    · rintro (⟨-, h⟩ | ⟨-, h⟩)
      · exact h
      · exact evanescent_mono _ _ s v1 v2.le h
    · exact fun h => .inl ⟨hfirst, h⟩
  have hprop : ∀ l ∈ layers, ¬ Evanescent l.vp s →
      (s / (1112 / 10)) ^ 2 ≤ 1 / l.vp ^ 2 ∧ (s / (1112 / 10)) ^ 2 ≤ 1 / l.vs ^ 2 := by
    intro l hl h
    obtain ⟨v1, v2, -⟩ := hv l hl
    exact ⟨not_lt.1 h, not_lt.1 fun h2 => h (evanescent_mono _ _ s v1 v2.le h2)⟩
  by_cases hex : ∃ f : ℕ, ∃ l : Layer K, layers[f]? = some l ∧ Evanescent l.vp s
  · obtain ⟨l, hl, hb⟩ := Nat.find_spec hex
    have hmin : ∀ j < Nat.find hex, ∀ l', layers[j]? = some l' → ¬ Evanescent l'.vp s :=
      fun j hj l' hl' hcon => Nat.find_min hex hj ⟨l', hl', hcon⟩
    generalize Nat.find hex = f at hl hmin
    have hfl : f < layers.length := (List.getElem?_eq_some_iff.1 hl).1
    have hf : 0 < f := by
      rcases Nat.eq_zero_or_pos f with rfl | h
      · exact absurd hb (h0 l (by rw [List.head?_eq_getElem?]; exact hl))
      · exact h
    refine ⟨f - 1, by omega, ?_, ?_, ?_⟩
    · intro l' hl'
      refine hprop l' (List.mem_of_mem_take hl') ?_
      obtain ⟨j, hj, rfl⟩ := List.mem_iff_getElem.1 hl'
      simp only [List.length_take] at hj
      rw [List.getElem_take]
      exact hmin j (by omega) _ (List.getElem?_eq_getElem (by omega))
    · intro n hn hfree
      by_contra hcon
      refine hfree l ?_ hb
      rw [List.mem_iff_getElem?]
      exact ⟨f, by rw [List.getElem?_take, if_pos (by omega), hl]⟩
    · intro phase hfirst tr hslow
      exact C175_moveout sqrt find nanCase m layers hvp hvs hdz hfresh s ref phase f hf l hl
        ((hblocked phase hfirst l (List.mem_of_getElem? hl)).2 hb)
        (fun j hj l' hl' hcon => hmin j hj l' hl' ((hblocked phase hfirst l' (List.mem_of_getElem? hl')).1 hcon)) tr hslow
  · have hall : ∀ l ∈ layers, ¬ Evanescent l.vp s := by
      intro l hl hcon
      obtain ⟨j, hj⟩ := List.mem_iff_getElem?.1 hl
      exact hex ⟨j, l, hj, hcon⟩
    refine ⟨layers.length, le_rfl, ?_, fun n hn _ => hn, ?_⟩
    · rw [List.take_length]
      exact fun l hl => hprop l hl (hall l hl)
    · intro _ _ tr _
      have : topOf m layers.length = m := by
        unfold topOf
        rw [List.take_of_length_le hz, List.take_of_length_le (by simp [hdz]), List.take_of_length_le (by simp [hvp]),
          List.take_of_length_le (by simp [hvs]), ← hfresh]
      rw [this]

/-- **C175, conversions.** A conversion in a depth that is reached by the rays is moved to the reference delay, also if the
rays do not exist further down: `n` layers and the one below are reached, the conversion is above the bottom of these
layers. -/
theorem C175_conversion (hf : FindSpec find) (hs : SqrtStrict sqrt)
    (nanCase : Trace K → Res (List K)) (m : SimpleModel K) (layers : List (Layer K))
    (hvp : m.vp = layers.map Layer.vp) (hvs : m.vs = layers.map Layer.vs)
    (hdz : m.dz = layers.map Layer.dz) (hz : m.z.length ≤ layers.length) (hfresh : m.tRef = []) (s ref : K) (phase : Str)
    (heven : phase.length % 2 = 0)
    (hletters : ∀ c ∈ upper phase, c = 'P' ∨ c = 'S') (hfirst : (upper phase).head? = some 'P')
    (hS : 'S' ∈ upper phase) (hpropr : Propagates layers ref)
    (hv : ∀ l ∈ layers, 0 < l.vs ∧ l.vs < l.vp ∧ 0 ≤ l.dz)
    (n : ℕ) (hn : n ≤ layers.length) (hreach : ∀ l ∈ layers.take (n + 1), ¬ Evanescent l.vp s)
    (tr : Trace K) (onset : K) (hsr : 0 < tr.sr) (hon : tr.getTime "onset" = some onset)
    (h1 : tr.start ≤ onset) (h2 : onset ≤ tr.endtime) (h3 : index0 tr onset + 2 ≤ tr.npts)
    (hslow : tr.getNum "slowness" = some s)
    (delay : K → Nat → K)
    (hdelay : delay = fun x k => delaySpec sqrt ((upper phase).count 'P') ((upper phase).count 'S')
      true layers x k)
    (hδ : tr.delta ≤ delay s (min 9 (n - 1))) (hn0 : 0 < n) :
    ∃ tr', (moveoutStep sqrt find nanCase phase ref m tr).2 = .ok tr' ∧ tr' = { tr with data := tr'.data } ∧
      ∀ j < n, 0 < delay s j → delay s j < delay s (n - 1) →
      ∀ k k' : ℕ, k < tr.data.length → k' < tr.data.length → tr.start + (k : K) / tr.sr - onset = delay s j →
        tr.start + (k' : K) / tr.sr - onset = delay ref j → tr'.data[k']? = tr.data[k]? := by
  have hfP : 'P' ∈ upper phase := List.mem_of_mem_head? hfirst
  obtain ⟨N, hN, hprop, hreached, heq⟩ := usable sqrt find nanCase m layers hvp hvs hdz hz hfresh s ref hv
    (fun l hl => hreach l (by
      cases layers with
      | nil => simp at hl
      | cons a ls => simp only [List.head?_cons, Option.some.injEq] at hl; subst hl; simp))
  have hnN := hreached n hn hreach
  rw [heq phase hfP tr hslow]
  have htop : ∀ x, Propagates layers x → Propagates (layers.take N) x := fun x hx l hl => hx l (List.mem_of_mem_take hl)
  have hvN : ∀ l ∈ layers.take N, 0 < l.vs ∧ l.vs < l.vp ∧ 0 ≤ l.dz := fun l hl => hv l (List.mem_of_mem_take hl)
  have hlen : (layers.take N).length = N := by simp [hN]
  have e1 : (topOf m N).vp = (layers.take N).map Layer.vp := by simp [topOf, hvp, List.map_take]
  have e2 : (topOf m N).vs = (layers.take N).map Layer.vs := by simp [topOf, hvs, List.map_take]
  have e3 : (topOf m N).dz = (layers.take N).map Layer.dz := by simp [topOf, hdz, List.map_take]
  obtain ⟨tr', htr', hsame⟩ := step_succeeds sqrt find nanCase (topOf m N) (layers.take N) e1 e2 e3 rfl phase ref heven
    hletters hfirst (htop ref hpropr) (by intro hcon; rw [hcon] at hlen; simp at hlen; omega) tr
    ⟨hsr, onset, s, hon, h1, h2, h3, hslow, hprop⟩
  refine ⟨tr', htr', hsame, fun j hj hpos hlast k k' hk hk' hkt hkt' => ?_⟩
  -- delays of the upper part
  have hd : ∀ x, ∀ k < N, delaySpec sqrt ((upper phase).count 'P') ((upper phase).count 'S') true (layers.take N) x k
      = delay x k := by
    intro x k hk
    rw [hdelay]
    simp only [delaySpec, List.take_take]
    rw [min_eq_left (by omega)]
  have hmono : ∀ i j, i ≤ j → j < N → delay s i ≤ delay s j := by
    intro i j hij hj
    have := (delayList_facts sqrt hs (layers.take N) s ref phase hfirst hS hprop (htop ref hpropr) hvN).2.2.2.2 i j hij
      (by simp [delayList, hN]; omega)
    simp only [delayList] at this
    rw [getD_map_range _ (by omega), getD_map_range _ (by omega)] at this
    simp only [hfirst, decide_true] at this
    rwa [hd s i (by omega), hd s j (by omega)] at this
  refine C36_conversion_partial sqrt find hf hs nanCase (topOf m N) (layers.take N) e1 e2 e3 rfl s ref phase heven hletters
    hfirst hS hprop (htop ref hpropr) hvN tr tr' onset hsr hon hslow htr' j (by omega)
    (fun x k => delaySpec sqrt ((upper phase).count 'P') ((upper phase).count 'S') true (layers.take N) x k) rfl
    ?_ ?_ ?_ k k' hk hk' ?_ ?_
  · rw [hd s j (by omega)]; exact hpos
  · rw [hd s j (by omega), hlen, hd s (N - 1) (by omega)]
    exact lt_of_lt_of_le hlast (hmono _ _ (by omega) (by omega))
  · rw [hlen, hd s _ (by omega)]
    exact hδ.trans (hmono _ _ (by omega) (by omega))
  · rw [hd s j (by omega)]; exact hkt
  · rw [hd ref j (by omega)]; exact hkt'

end evanescent

/-- Four layers, the third with 8 km/s: for the horizontal slowness 1/7 s/km only the first of them is used, whatever the
reference is. -/
example (sqrt : ℚ → ℚ) (ref : ℚ) :
    (stretch sqrt ⟨[0, 1, 2, 3], [1, 1, 1, 1], [6, 6, 8, 6], [4, 4, 5, 4], []⟩ (1112 / 70) "Ps".toList ref).2 =
      (stretch sqrt ⟨[0], [1], [6], [4], []⟩ (1112 / 70) "Ps".toList ref).2 := by
  refine C175_tables sqrt _ [⟨6, 4, 1⟩, ⟨6, 4, 1⟩, ⟨8, 5, 1⟩, ⟨6, 4, 1⟩] rfl rfl rfl rfl _ ref _ 2 (by norm_num) ⟨8, 5, 1⟩ rfl ?_ ?_
  · exact .inl ⟨by decide, by unfold Evanescent; norm_num⟩
  · intro j hj l hl hb
    have : l = ⟨6, 4, 1⟩ := by
      rcases j with _ | _ | j
      · simpa using hl.symm
      · simpa using hl.symm
      · omega
    subst this
    rcases hb with ⟨-, hb⟩ | ⟨-, hb⟩ <;> (unfold Evanescent at hb; norm_num at hb)

end Verif.Props
