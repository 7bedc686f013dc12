import Verif.Props.TableError
import Verif.Props.DoubleInterp
import Mathlib.Data.Rat.Floor

/-!
# C223: move out in double precision is close to the exact one
-/

set_option linter.unusedSimpArgs false
set_option linter.unusedSectionVars false

namespace Verif.Spec

/-- Doubles as real numbers. -/
noncomputable def toReals (l : List ℚ) : List ℝ := l.map fun (q : ℚ) => (q : ℝ)

/-- A trace of doubles as a trace of real numbers (without the entries of the header which are not used). -/
noncomputable def realTrace (tr : Py.Trace ℚ) : Py.Trace ℝ :=
  ⟨tr.net, tr.sta, tr.loc, tr.cha, (tr.start : ℝ), (tr.sr : ℝ), toReals tr.data, []⟩

end Verif.Spec

namespace Verif.Props
open Verif.Py Verif.Model Verif.Model.Simple Verif.Model.DoubleInterp Verif.Spec

theorem toReals_getD (l : List ℚ) (i : ℕ) : (toReals l).getD i 0 = ((l.getD i 0 : ℚ) : ℝ) := by
  unfold toReals
  have := List.getD_map (l := l) (d := (0 : ℚ)) (n := i) (fun (q : ℚ) => (q : ℝ))
  simpa using this

theorem npFind_cast (k : List ℚ) (x : ℚ) : npFind (toReals k) (x : ℝ) = npFind k x := by
  induction k with
  | nil => rfl
  | cons a k ih =>
    cases k with
    | nil => rfl
    | cons b r =>
      unfold toReals at ih ⊢
      simp only [List.map_cons, npFind] at ih ⊢
      rw [ih]
      simp only [Rat.cast_lt]

/-- An exact interpolation of doubles is the same in real numbers. -/
theorem interp1_cast (find : List ℚ → ℚ → Nat) (hf : FindSpec find) (findR : List ℝ → ℝ → Nat) (hfR : FindSpec findR) (k f : List ℚ)
    (hne : k ≠ []) (hk : Increasing k) (left right : Option ℚ) (x : ℚ) :
    ((interp1 find k f left right x : ℚ) : ℝ) =
      interp1 findR (toReals k) (toReals f) (left.map fun (q : ℚ) => (q : ℝ)) (right.map fun (q : ℚ) => (q : ℝ)) (x : ℝ) := by
  have hkR : Increasing (toReals k) := by
    intro i j hij hj
    rw [toReals_getD, toReals_getD]
    exact_mod_cast hk i j hij (by simpa [toReals] using hj)
  rw [interp1_find_indep find npFind hf npFind_spec k f left right x hne hk,
    interp1_find_indep findR npFind hfR npFind_spec (toReals k) (toReals f) _ _ _ (by simpa [toReals] using hne) hkR]
  unfold interp1
  simp only [toReals_getD, npFind_cast, Rat.cast_lt, Rat.cast_inj]
  have hl : (toReals k).length = k.length := by simp [toReals]
  rw [hl]
  have o : ∀ (o : Option ℚ) (d : ℚ), (o.map fun (q : ℚ) => (q : ℝ)).getD (d : ℝ) = ((o.getD d : ℚ) : ℝ) := by
    intro o d; cases o <;> simp
  rw [o, o]
  split_ifs <;> push_cast <;> rfl

/-- One interpolation in double precision, with other times, values and points, against the exact one. -/
theorem interp64_real (find : List ℚ → ℚ → Nat) (hf : FindSpec find) (findR : List ℝ → ℝ → Nat) (hfR : FindSpec findR)
    (k f : List ℝ) (k' f' : List ℚ) (L e e' d : ℝ) (A : ℚ) (hA0 : 0 ≤ A) (hA : ∀ y ∈ f', |y| ≤ A) (hL : 0 ≤ L) (he : 0 ≤ e)
    (hlen : k.length = f.length) (hk2 : 2 ≤ k.length) (hk : ∀ i, i + 1 < k.length → 0 ≤ k.getD (i + 1) 0 - k.getD i 0)
    (hs : ∀ i, i + 1 < k.length → |f.getD (i + 1) 0 - f.getD i 0| ≤ L * (k.getD (i + 1) 0 - k.getD i 0))
    (hnk : NearTables e k (toReals k')) (hnf : NearTables e' f (toReals f')) (hk' : Increasing k') (left right : Option ℚ) (x : ℝ) (x' : ℚ)
    (hx : |(x' : ℝ) - x| ≤ d) (hl : left = none ∨ (k.getD 0 0 ≤ x ∧ k'.getD 0 0 ≤ x'))
    (hr : right = none ∨ (x ≤ k.getD (k.length - 1) 0 ↔ (x' : ℝ) ≤ (toReals k').getD (k.length - 1) 0)) :
    |((interp64 find k' f' left right x' : ℚ) : ℝ) -
        interp1 findR k f (left.map fun (q : ℚ) => (q : ℝ)) (right.map fun (q : ℚ) => (q : ℝ)) x| ≤ A / 2 ^ 49 + (e' + L * (2 * e + d)) := by
  have hlk : k'.length = k.length := by simpa [toReals] using hnk.1
  have hne : k' ≠ [] := by intro h; rw [h] at hlk; simp at hlk; omega
  have c1 := C213_interp find hf k' f' hne left right A hA0 hA x'
  have c1' : |((interp64 find k' f' left right x' : ℚ) : ℝ) - ((interp1 find k' f' left right x' : ℚ) : ℝ)| ≤ (A : ℝ) / 2 ^ 49 := by
    exact_mod_cast c1
  have c2 := interp1_cast find hf findR hfR k' f' hne hk' left right x'
  have c3 := C222_interp findR hfR k f (toReals k') (toReals f') L e e' d hL he hlen hk2 hk hs hnk hnf (by
      rw [toReals_getD, toReals_getD]
      exact_mod_cast hk' 0 (k.length - 1) (by omega) (by omega))
    (left.map fun (q : ℚ) => (q : ℝ)) (right.map fun (q : ℚ) => (q : ℝ)) x x' hx
    (hl.imp (fun h => by rw [h]; rfl) fun h => ⟨h.1, by rw [toReals_getD]; exact_mod_cast h.2⟩) (hr.imp (fun h => by rw [h]; rfl) id)
  rw [← c2] at c3
  have := abs_sub_le ((interp64 find k' f' left right x' : ℚ) : ℝ) ((interp1 find k' f' left right x' : ℚ) : ℝ)
    (interp1 findR k f (left.map fun (q : ℚ) => (q : ℝ)) (right.map fun (q : ℚ) => (q : ℝ)) x)
  linarith

theorem index0_real (tr : Trace ℚ) (onset : ℚ) : index0 (realTrace tr) (onset : ℝ) = index0 tr onset := by
  unfold index0 realTrace
  simp only
  rw [← Rat.floor_cast (α := ℝ) ((onset - tr.start) * tr.sr)]
  push_cast
  rfl

theorem realTrace_delta (tr : Trace ℚ) : (realTrace tr).delta = ((tr.delta : ℚ) : ℝ) := by
  simp [realTrace, Trace.delta]

theorem sliceFrom_real (l : List ℚ) (i : ℤ) : sliceFrom (toReals l) i = toReals (sliceFrom l i) := by
  unfold sliceFrom toReals
  rw [List.length_map, List.map_drop]

theorem sliceTo_real (l : List ℚ) (i : ℤ) : sliceTo (toReals l) i = toReals (sliceTo l i) := by
  unfold sliceTo toReals
  rw [List.length_map, List.map_take]

/-- **C223**.  The samples after move out in double precision, from tables of delay times `t0`, `t1` in double precision, against the exact
ones from the exact tables `u0`, `u1`. -/
theorem C223_moveout (find : List ℚ → ℚ → Nat) (hfind : FindSpec find) (findR : List ℝ → ℝ → Nat) (hfR : FindSpec findR) (tr : Trace ℚ)
    (onset : ℚ) (t0 t1 : List ℚ) (u0 u1 : List ℝ) (lo hi ε : ℝ) (T A D M : ℚ) (hlo : 0 < lo) (hhi : 0 ≤ hi) (hε : 0 ≤ ε) (hD : 0 ≤ D)
    (hlen : u0.length = u1.length) (h2 : 2 ≤ u0.length) (hs : Stretch lo hi u0 u1) (hn0 : NearTables ε u0 (toReals t0))
    (hn1 : NearTables ε u1 (toReals t1)) (hinc : Increasing t0) (hT0 : 0 ≤ T) (hT : ∀ y ∈ t1, |y| ≤ T)
    (a b : ℚ) (a' b' : ℝ) (ha : getItem t0 (-1) = .ok a) (hb : getItem t1 (-1) = .ok b) (ha' : getItem u0 (-1) = .ok a')
    (hb' : getItem u1 (-1) = .ok b') (hcmp : a > b ↔ a' > b') (i0 : ℤ) (hi0 : i0 = if a > b then index0 tr onset + 1 else index0 tr onset)
    (old : List ℚ) (hold : old = sliceFrom tr.data i0) (hol : old.length = tr.npts - i0.toNat) (ho2 : 2 ≤ old.length) (hδ : 0 < tr.delta)
    (hA0 : 0 ≤ A) (hA : ∀ y ∈ old, |y| ≤ A) (hdiff : ∀ i, i + 1 < old.length → |old.getD (i + 1) 0 - old.getD i 0| ≤ D)
    (hM1 : |tr.start - onset| ≤ M) (hM2 : |(i0 : ℚ) * tr.delta| ≤ M) (hM3 : ∀ k < tr.npts - i0.toNat, |(k : ℚ) * tr.delta| ≤ M)
    (hin : ∀ x ∈ timesFrom (realTrace tr) (onset : ℝ) i0, u0.getD 0 0 ≤ x ∧ x ≤ u0.getD (u0.length - 1) 0)
    (hin' : ∀ x ∈ sampleTimes64 i0 tr onset, t0.getD 0 0 ≤ x) (τ η : ℝ) (hτ : τ = 20 * M / 2 ^ 53)
    (hη : η = T / 2 ^ 49 + (ε + hi * (2 * ε + τ))) (hsmall : 2 * η ≤ lo * tr.delta) :
    ∃ newt data data64, moveoutP findR (realTrace tr) (onset : ℝ) u0 u1 = .ok (toReals (sliceTo tr.data i0) ++ data) ∧
      moveoutP64 find (index0 tr onset) tr onset t0 t1 = .ok (sliceTo tr.data i0 ++ data64) ∧
      interpAll findR (timesFrom (realTrace tr) (onset : ℝ) i0) u0 u1 (some 0) none = .ok newt ∧ newt.length = old.length ∧
      data.length = old.length ∧ data64.length = old.length ∧
      ∀ i < old.length, η + τ < |(timesFrom (realTrace tr) (onset : ℝ) i0).getD i 0 - newt.getD (old.length - 1) 0| →
        |((data64.getD i 0 : ℚ) : ℝ) - data.getD i 0| ≤ A / 2 ^ 49 + D * (2 * η + τ) / (lo * tr.delta) := by
  set t := timesFrom (realTrace tr) (onset : ℝ) i0 with ht
  set s := sampleTimes64 i0 tr onset with hsdef
  have hδR : (0 : ℝ) < (tr.delta : ℚ) := by exact_mod_cast hδ
  have hc : 0 < lo * (tr.delta : ℚ) := mul_pos hlo hδR
  have hDR : (0 : ℝ) ≤ (D : ℚ) := by exact_mod_cast hD
  have hM0 : 0 ≤ M := (abs_nonneg _).trans hM1
  have hM0R : (0 : ℝ) ≤ (M : ℚ) := by exact_mod_cast hM0
  have hTR : (0 : ℝ) ≤ (T : ℚ) := by exact_mod_cast hT0
  have hτ0 : 0 ≤ τ := by rw [hτ]; positivity
  have hη0 : 0 ≤ η := by rw [hη]; positivity
  have hnR : (realTrace tr).npts = tr.npts := by simp [realTrace, Trace.npts, toReals]
  have htl : t.length = old.length := by rw [ht, hol]; simp [timesFrom, hnR]
  obtain ⟨hsl, hserr⟩ := C213_sampleTimes i0 tr onset M hM1 hM2 hM3
  rw [← hsdef] at hsl hserr
  rw [← hol] at hsl hserr
  have htg : ∀ i < old.length, t.getD i 0 = ((tr.start + ((i0 : ℚ) + i) * tr.delta - onset : ℚ) : ℝ) := by
    intro i hi
    rw [List.getD_eq_getElem _ _ (by rw [htl]; exact hi)]
    simp only [ht, timesFrom, List.getElem_map, List.getElem_range, realTrace_delta]
    simp only [realTrace]
    push_cast
    ring
  have hst : ∀ i < old.length, |((s.getD i 0 : ℚ) : ℝ) - t.getD i 0| ≤ τ := by
    intro i hi
    rw [htg i hi, hτ]
    exact_mod_cast hserr i hi
  have htm : ∀ i < old.length, t.getD i 0 ∈ t := by
    intro i hi
    rw [List.getD_eq_getElem _ _ (by rw [htl]; exact hi)]
    exact List.getElem_mem _
  have hsm : ∀ i < old.length, s.getD i 0 ∈ s := by
    intro i hi
    rw [List.getD_eq_getElem _ _ (by rw [hsl]; exact hi)]
    exact List.getElem_mem _
  have hl0 : t0.length = u0.length := by simpa [toReals] using hn0.1
  have hl1 : t1.length = u1.length := by simpa [toReals] using hn1.1
  have hne : u0 ≠ [] := by intro h; rw [h] at h2; simp at h2
  have hne' : t0 ≠ [] := by intro h; rw [h] at hl0; simp at hl0; omega
  set k := t.map (interp1 findR u0 u1 (some 0) none) with hk
  set k' := s.map (interp64 find t0 t1 (some 0) none) with hk'
  have hkl : k.length = old.length := by rw [hk, List.length_map, htl]
  have hkl' : k'.length = old.length := by rw [hk', List.length_map, hsl]
  have hkne : k ≠ [] := by intro h; rw [h] at hkl; simp at hkl; omega
  have hkne' : k' ≠ [] := by intro h; rw [h] at hkl'; simp at hkl'; omega
  -- new times
  have hkk : NearTables η k (toReals k') := by
    refine ⟨by simp only [toReals, List.length_map]; rw [hkl', hkl], fun i hi => ?_⟩
    have hi' : i < old.length := by omega
    rw [toReals_getD, hk, hk', getD_map_zero _ _ _ (by omega), getD_map_zero _ _ _ (by omega)]
    obtain ⟨g1, g2⟩ := hin _ (htm i hi')
    have := interp64_real find hfind findR hfR u0 u1 t0 t1 _ ε ε τ T hT0 hT hhi hε hlen h2 (fun i h => (hs i h).1) (fun i h => by
      obtain ⟨s1, s2, s3⟩ := hs i h
      rw [abs_of_nonneg ((mul_nonneg hlo.le s1).trans s2)]
      exact s3) hn0 hn1 hinc (some 0) none (t.getD i 0) (s.getD i 0) (hst i hi') (.inr ⟨g1, hin' _ (hsm i hi')⟩) (.inl rfl)
    rw [hη]
    simpa using this
  have hsp : ∀ i, i + 1 < k.length → lo * (tr.delta : ℚ) ≤ k.getD (i + 1) 0 - k.getD i 0 := by
    intro i hi
    rw [hk, getD_map_zero _ _ _ (by omega), getD_map_zero _ _ _ (by omega)]
    have e : t.getD (i + 1) 0 - t.getD i 0 = (tr.delta : ℚ) := by
      rw [htg _ (by omega), htg _ (by omega)]; push_cast; ring
    have := stretch_spaced findR hfR u0 u1 lo _ hs h2 (some 0) none (t.getD i 0) (t.getD (i + 1) 0) (by linarith)
      (hin _ (htm i (by omega))).1 (hin _ (htm (i + 1) (by omega))).2
    rwa [e] at this
  have hinc' : Increasing k' := by
    have step : ∀ i, i + 1 < k'.length → 0 ≤ k'.getD (i + 1) 0 - k'.getD i 0 := by
      intro i hi
      have q1 := hkk.2 i (by omega)
      have q2 := hkk.2 (i + 1) (by omega)
      rw [toReals_getD] at q1 q2
      have q3 := hsp i (by omega)
      have : (0 : ℝ) ≤ ((k'.getD (i + 1) 0 - k'.getD i 0 : ℚ) : ℝ) := by
        push_cast
        linarith [(abs_le.1 q1).2, (abs_le.1 q2).1]
      exact_mod_cast this
    intro i j hij hj
    have := steps_mono (fun i => k'.getD i 0) k'.length step i (j - i) (by omega)
    have e : i + (j - i) = j := by omega
    simpa only [e] using this
  refine ⟨k, t.map (interp1 findR k (toReals old) none (some 0)), s.map (interp64 find k' old none (some 0)), ?_, ?_, ?_, hkl, by simp [htl],
    by simp [hsl], ?_⟩
  · unfold moveoutP
    rw [ha', hb']
    simp only [bind, Except.bind, ← hcmp]
    rw [index0_real, ← hi0]
    have e1 : sliceFrom (realTrace tr).data i0 = toReals old := by rw [hold, ← sliceFrom_real]; rfl
    have e2 : sliceTo (realTrace tr).data i0 = toReals (sliceTo tr.data i0) := by rw [← sliceTo_real]; rfl
    rw [e1, e2]
    unfold interpAll
    rw [if_neg (not_not.2 hlen), if_neg hne]
    simp only
    rw [show ((List.range ((realTrace tr).npts - i0.toNat)).map fun (k : Nat) =>
        (realTrace tr).start - onset + (i0 : ℝ) * (realTrace tr).delta + (k : ℝ) * (realTrace tr).delta) = t from rfl,
      ← hk, if_neg (not_not.2 (by simpa [toReals] using hkl)), if_neg hkne]
  · unfold moveoutP64 stretch2_64
    rw [ha, hb]
    simp only [bind, Except.bind]
    rw [← hi0, ← hold, ← hsdef, interpAll64_ok find s t0 t1 (some 0) none (by omega) hne']
    simp only
    rw [← hk', interpAll64_ok find s k' old none (some 0) hkl' hkne']
  · unfold interpAll
    rw [if_neg (not_not.2 hlen), if_neg hne]
  intro i hi hfar
  rw [getD_map0 _ _ _ (by omega), getD_map_zero _ _ _ (by omega)]
  have n1 := abs_le.1 (hkk.2 (k.length - 1) (by omega))
  rw [← hkl] at hfar
  have hx := abs_le.1 (hst i hi)
  have holdl : (toReals old).length = old.length := by simp [toReals]
  have := interp64_real find hfind findR hfR k (toReals old) k' old ((D : ℚ) / (lo * (tr.delta : ℚ))) η 0 τ A hA0 hA (by positivity) hη0
    (by rw [hkl, holdl]) (by omega)
    (fun i h => hc.le.trans (hsp i h)) (fun i h => by
      have q := hdiff i (by omega)
      rw [toReals_getD, toReals_getD]
      have q' : |((old.getD (i + 1) 0 : ℚ) : ℝ) - ((old.getD i 0 : ℚ) : ℝ)| ≤ (D : ℚ) := by exact_mod_cast q
      refine q'.trans ?_
      rw [div_mul_eq_mul_div, le_div_iff₀ hc]
      exact mul_le_mul_of_nonneg_left (hsp i h) hDR) hkk ⟨rfl, fun i _ => by simp⟩ hinc' none (some 0) (t.getD i 0) (s.getD i 0) (hst i hi)
      (.inl rfl) (.inr (by
        rcases le_or_gt 0 (t.getD i 0 - k.getD (k.length - 1) 0) with h0 | h0
        · rw [abs_of_nonneg h0] at hfar
          exact ⟨fun _ => by linarith, fun _ => by linarith⟩
        · rw [abs_of_neg h0] at hfar
          exact ⟨fun _ => by linarith, fun _ => by linarith⟩))
  simp only [Option.map_none, Option.map_some, Rat.cast_zero] at this
  refine this.trans (le_of_eq ?_)
  ring

/-- **C223** (tables).  For the layers and slownesses of C219 the tables computed in double precision are near the exact ones as required by
`C223_moveout`. -/
theorem C223_tables (pw sq sqr : ℚ → ℚ) (ha : Accurate pw sq sqr) (m : SimpleModel ℚ) (layers : List (Layer ℚ))
    (hvp : m.vp = layers.map Layer.vp) (hvs : m.vs = layers.map Layer.vs) (hdz : m.dz = layers.map Layer.dz) (v s ref : ℚ) (hv : 0 < v)
    (hl : ∀ l ∈ layers, v ≤ l.vs ∧ l.vs ≤ l.vp ∧ 0 ≤ l.dz) (c : ℝ) (hc : 1 / 2 ^ 20 ≤ c) (hc1 : c ≤ 1)
    (hcos : ∀ l ∈ layers, ((s : ℝ) / (1112 / 10)) ^ 2 ≤ (1 - c ^ 2) * (1 / (l.vp : ℝ) ^ 2))
    (hcosr : ∀ l ∈ layers, ((ref : ℝ) / (1112 / 10)) ^ 2 ≤ (1 - c ^ 2) * (1 / (l.vp : ℝ) ^ 2)) (hn : (layers.length : ℝ) ≤ 2 ^ 50)
    (phase : Str) (hne : phase ≠ []) (heven : phase.length % 2 = 0) (hletters : ∀ x ∈ upper phase, x = 'P' ∨ x = 'S') :
    ∃ (t0 t1 : List ℚ) (u0 u1 : List ℝ), DoubleDelay.stretch64 pw sq sqr m s phase ref = .ok (t0.map some, t1.map some) ∧
      (stretch Real.sqrt (realModel m) s phase ref).2 = .ok (u0.map some, u1.map some) ∧
      NearTables (delayBound (upper phase) layers v c) u0 (toReals t0) ∧ NearTables (delayBound (upper phase) layers v c) u1 (toReals t1) := by
  obtain ⟨t0, t1, u0, u1, h1, h2, c0, c1⟩ := C219_tables pw sq sqr ha m layers hvp hvs hdz v s ref hv hl c hc hc1 hcos hcosr hn phase hne
    heven hletters
  obtain ⟨x0, y0, rfl, rfl, n0⟩ := C222_double _ _ _ c0
  obtain ⟨x1, y1, rfl, rfl, n1⟩ := C222_double _ _ _ c1
  exact ⟨x0, x1, y0, y1, h1, h2, n0, n1⟩

-- the trace of C222 with tables which differ by 1/1000 s from the exact ones
example : ∃ newt data data64, moveoutP npFind (realTrace errTrace) ((1 : ℚ) : ℝ) [-2, 0, 4001 / 1000, 8] [-2, 0, 3, 5] =
      .ok (toReals (sliceTo errTrace.data 2) ++ data) ∧
    moveoutP64 npFind (index0 errTrace 1) errTrace 1 [-2, 0, 4, 8] [-2, 0, 3, 5] = .ok (sliceTo errTrace.data 2 ++ data64) ∧
    interpAll npFind (timesFrom (realTrace errTrace) ((1 : ℚ) : ℝ) 2) [-2, 0, 4001 / 1000, 8] [-2, 0, 3, 5] (some 0) none = .ok newt ∧
    newt.length = 4 ∧ data.length = 4 ∧ data64.length = 4 ∧
    ∀ i < 4, 1 / 200 < |(timesFrom (realTrace errTrace) ((1 : ℚ) : ℝ) 2).getD i 0 - newt.getD 3 0| →
      |((data64.getD i 0 : ℚ) : ℝ) - data.getD i 0| ≤ 1 / 20 := by
  have hδ : errTrace.delta = 1 := by decide +kernel
  have times : ∀ x ∈ timesFrom (realTrace errTrace) ((1 : ℚ) : ℝ) 2, x = 1 ∨ x = 2 ∨ x = 3 ∨ x = 4 := by
    intro x hx
    have e : timesFrom (realTrace errTrace) ((1 : ℚ) : ℝ) 2 = [1, 2, 3, 4] := by
      have e1 : (realTrace errTrace).npts - (2 : ℤ).toNat = 4 := by simp [realTrace, Trace.npts, toReals, errTrace]
      unfold timesFrom
      rw [e1, realTrace_delta, hδ]
      simp [List.range_succ, realTrace, errTrace]
      norm_num
    rw [e] at hx
    simpa using hx
  obtain ⟨newt, data, data64, h1, h2, h3, h4, h5, h6, h7⟩ := C223_moveout npFind npFind_spec npFind npFind_spec errTrace 1
    [-2, 0, 4, 8] [-2, 0, 3, 5] [-2, 0, 4001 / 1000, 8] [-2, 0, 3, 5] (1 / 2) 1 (1 / 1000) 5 3 2 3
    (by norm_num) (by norm_num) (by norm_num) (by norm_num) rfl (by simp)
    (by intro i hi
        have : i = 0 ∨ i = 1 ∨ i = 2 := by simp at hi; omega
        rcases this with rfl | rfl | rfl <;> norm_num)
    ⟨rfl, by
        intro i hi
        have : i = 0 ∨ i = 1 ∨ i = 2 ∨ i = 3 := by simp at hi; omega
        rcases this with rfl | rfl | rfl | rfl <;> norm_num [toReals]⟩
    ⟨rfl, by
        intro i hi
        have : i = 0 ∨ i = 1 ∨ i = 2 ∨ i = 3 := by simp at hi; omega
        rcases this with rfl | rfl | rfl | rfl <;> norm_num [toReals]⟩
    ((increasing_iff_pairwise _).2 (by decide +kernel)) (by norm_num) (by decide +kernel) 8 5 8 5 rfl rfl rfl rfl (by norm_num) 2
    (by decide +kernel) [1, 3, 2, 0] (by decide +kernel) (by decide +kernel) (by decide) (by decide +kernel) (by norm_num) (by decide +kernel)
    (by intro i hi
        have : i = 0 ∨ i = 1 ∨ i = 2 := by simp at hi; omega
        rcases this with rfl | rfl | rfl <;> decide +kernel)
    (by decide +kernel) (by decide +kernel) (by decide +kernel)
    (by intro x hx
        rcases times x hx with rfl | rfl | rfl | rfl <;> norm_num)
    (by decide +kernel) _ _ rfl rfl (by rw [hδ]; norm_num)
  refine ⟨newt, data, data64, h1, h2, h3, h4, h5, h6, fun i hi hf => ?_⟩
  refine (h7 i hi (lt_of_le_of_lt ?_ hf)).trans ?_
  · norm_num
  · rw [hδ]; norm_num

end Verif.Props
