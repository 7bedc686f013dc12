import Verif.Props.LaterRf
import Verif.Props.MoveoutStream
import Verif.Spec.Linear

/-!
# C139: the move out correction is linear in the data
-/

set_option linter.unusedSimpArgs false
set_option linter.unusedSectionVars false

namespace Verif.Props
open Verif.Py Verif.Model Verif.Spec

section kernel
variable {K : Type} [Field K] [LinearOrder K] [IsStrictOrderedRing K] [FloorRing K]

theorem comb_length (a b : K) (x y : List K) (h : x.length = y.length) : (comb a b x y).length = x.length := by
  unfold comb
  rw [List.length_zipWith, h, min_self]

theorem comb_getD (a b : K) (x y : List K) (h : x.length = y.length) (i : Nat) :
    (comb a b x y).getD i 0 = a * x.getD i 0 + b * y.getD i 0 := by
  by_cases hi : i < x.length
  · rw [List.getD_eq_getElem _ _ (by rw [comb_length a b x y h]; exact hi), List.getD_eq_getElem _ _ hi,
      List.getD_eq_getElem _ _ (h ▸ hi)]
    unfold comb
    rw [List.getElem_zipWith]
  · rw [List.getD_eq_default _ _ (by rw [comb_length a b x y h]; omega), List.getD_eq_default _ _ (by omega),
      List.getD_eq_default _ _ (by omega)]
    ring

theorem comb_append (a b : K) (x y x' y' : List K) (h : x.length = y.length) :
    comb a b (x ++ x') (y ++ y') = comb a b x y ++ comb a b x' y' := by
  unfold comb
  exact List.zipWith_append h

theorem comb_reverse (a b : K) (x y : List K) (h : x.length = y.length) :
    comb a b x.reverse y.reverse = (comb a b x y).reverse := by
  unfold comb
  exact (List.reverse_zipWith h).symm

theorem comb_take (a b : K) (x y : List K) (n : Nat) : comb a b (x.take n) (y.take n) = (comb a b x y).take n := by
  unfold comb
  exact List.take_zipWith.symm

theorem comb_drop (a b : K) (x y : List K) (n : Nat) : comb a b (x.drop n) (y.drop n) = (comb a b x y).drop n := by
  unfold comb
  exact List.drop_zipWith.symm

theorem comb_map {α : Type} (a b : K) (f g : α → K) (l : List α) :
    comb a b (l.map f) (l.map g) = l.map (fun i => a * f i + b * g i) := by
  unfold comb
  induction l with
  | nil => rfl
  | cons x l ih => simp only [List.map_cons, List.zipWith_cons_cons, ih]

/-- Interpolation is linear in the values, as long as values outside of the table are zero or the outermost values. -/
theorem interp1_comb (find : List K → K → Nat) (xp u v : List K) (left right : Option K)
    (hl : left = none ∨ left = some 0) (hr : right = none ∨ right = some 0) (h : u.length = v.length) (a b x : K) :
    interp1 find xp (comb a b u v) left right x = a * interp1 find xp u left right x + b * interp1 find xp v left right x := by
  unfold interp1
  simp only [comb_getD a b u v h]
  split
  · rcases hl with rfl | rfl
    · rfl
    · simp
  · split
    · rcases hr with rfl | rfl
      · rfl
      · simp
    · split
      · rfl
      · split
        · rfl
        · ring

theorem interpAll_comb (find : List K → K → Nat) (xs xp u v : List K) (left right : Option K)
    (hl : left = none ∨ left = some 0) (hr : right = none ∨ right = some 0) (h : u.length = v.length) (a b : K) :
    CombRes a b (interpAll find xs xp u left right) (interpAll find xs xp v left right)
      (interpAll find xs xp (comb a b u v) left right) := by
  unfold interpAll
  rw [comb_length a b u v h, ← h]
  split
  · exact .inl ⟨_, rfl, rfl, rfl⟩
  · split
    · exact .inl ⟨_, rfl, rfl, rfl⟩
    · refine .inr ⟨_, _, rfl, rfl, by simp, ?_⟩
      rw [comb_map]
      congr 1
      exact List.map_congr_left fun x _ => interp1_comb find xp u v left right hl hr h a b x

/-- A step that does not look at the samples. -/
theorem combRes_bind {α : Type} (a b : K) (x : Res α) (f g k : α → Res (List K))
    (h : ∀ y, x = .ok y → CombRes a b (f y) (g y) (k y)) :
    CombRes a b (x.bind f) (x.bind g) (x.bind k) := by
  cases x with
  | error e => exact .inl ⟨e, rfl, rfl, rfl⟩
  | ok y => exact h y rfl

/-- Unchanged samples are put in front of or behind the result. -/
theorem combRes_map (a b : K) (x y z : Res (List K)) (f g k : List K → List K) (h : CombRes a b x y z)
    (hlen : ∀ u v, u.length = v.length → (f u).length = (g v).length)
    (hk : ∀ u v, u.length = v.length → k (comb a b u v) = comb a b (f u) (g v)) :
    CombRes a b (x.bind fun d => .ok (f d)) (y.bind fun d => .ok (g d)) (z.bind fun d => .ok (k d)) := by
  rcases h with ⟨e, rfl, rfl, rfl⟩ | ⟨u, v, rfl, rfl, huv, rfl⟩
  · exact .inl ⟨e, rfl, rfl, rfl⟩
  · refine .inr ⟨_, _, rfl, rfl, hlen u v huv, ?_⟩
    show Except.ok (k (comb a b u v)) = _
    rw [hk u v huv]

theorem moveoutP_comb (find : List K → K → Nat) (t : Trace K) (y : List K) (hy : t.data.length = y.length) (o : K)
    (t0 t1 : List K) (a b : K) :
    CombRes a b (Simple.moveoutP find t o t0 t1) (Simple.moveoutP find { t with data := y } o t0 t1)
      (Simple.moveoutP find { t with data := comb a b t.data y } o t0 t1) := by
  unfold Simple.moveoutP
  have e1 : ∀ d, Simple.index0 { t with data := d } o = Simple.index0 t o := fun _ => rfl
  have e2 : ({ t with data := y } : Trace K).npts = t.npts := hy.symm
  have e3 : ({ t with data := comb a b t.data y } : Trace K).npts = t.npts := comb_length a b _ _ hy
  simp only [bind, e1, e2, e3]
  refine combRes_bind a b _ _ _ _ fun p _ => ?_
  refine combRes_bind a b _ _ _ _ fun q _ => ?_
  generalize (if p > q then Simple.index0 t o + 1 else Simple.index0 t o) = i0
  refine combRes_bind a b _ _ _ _ fun newt _ => ?_
  have hto : sliceTo (comb a b t.data y) i0 = comb a b (sliceTo t.data i0) (sliceTo y i0) := by
    unfold sliceTo
    rw [comb_length a b _ _ hy, ← hy, comb_take]
  have hfrom : sliceFrom (comb a b t.data y) i0 = comb a b (sliceFrom t.data i0) (sliceFrom y i0) := by
    unfold sliceFrom
    rw [comb_length a b _ _ hy, ← hy, comb_drop]
  have hl : (sliceTo t.data i0).length = (sliceTo y i0).length := by
    unfold sliceTo
    rw [List.length_take, List.length_take, hy]
  have hl' : (sliceFrom t.data i0).length = (sliceFrom y i0).length := by
    unfold sliceFrom
    rw [List.length_drop, List.length_drop, hy]
  refine combRes_map a b _ _ _ _ _ _ ?_ (fun u v huv => ?_) (fun u v huv => ?_)
  · rw [hfrom]
    exact interpAll_comb find _ newt _ _ none (some 0) (.inl rfl) (.inr rfl) hl' a b
  · rw [List.length_append, List.length_append, hl, huv]
  · rw [hto, comb_append a b _ _ _ _ hl]

theorem moveoutS_comb (find : List K → K → Nat) (t : Trace K) (y : List K) (hy : t.data.length = y.length) (o : K)
    (t0 t1 : List K) (a b : K) :
    CombRes a b (Simple.moveoutS find t o t0 t1) (Simple.moveoutS find { t with data := y } o t0 t1)
      (Simple.moveoutS find { t with data := comb a b t.data y } o t0 t1) := by
  unfold Simple.moveoutS
  have e1 : ∀ d, Simple.index0 { t with data := d } o = Simple.index0 t o := fun _ => rfl
  simp only [bind, e1]
  generalize Simple.index0 t o = i0
  refine combRes_bind a b _ _ _ _ fun newt _ => ?_
  have hto : sliceTo (comb a b t.data y) i0 = comb a b (sliceTo t.data i0) (sliceTo y i0) := by
    unfold sliceTo
    rw [comb_length a b _ _ hy, ← hy, comb_take]
  have hfrom : sliceFrom (comb a b t.data y) i0 = comb a b (sliceFrom t.data i0) (sliceFrom y i0) := by
    unfold sliceFrom
    rw [comb_length a b _ _ hy, ← hy, comb_drop]
  have hl : (sliceTo t.data i0).length = (sliceTo y i0).length := by
    unfold sliceTo
    rw [List.length_take, List.length_take, hy]
  have hl' : (sliceFrom t.data i0).length = (sliceFrom y i0).length := by
    unfold sliceFrom
    rw [List.length_drop, List.length_drop, hy]
  refine combRes_map a b _ _ _ _ _ _ ?_ (fun u v huv => ?_) (fun u v huv => ?_)
  · rw [hto, ← comb_reverse a b _ _ hl]
    exact interpAll_comb find _ _ _ _ (some 0) (some 0) (.inr rfl) (.inr rfl)
      (by rw [List.length_reverse, List.length_reverse, hl]) a b
  · rw [List.length_append, List.length_append, hl', List.length_reverse, List.length_reverse, huv]
  · rw [hfrom, comb_append a b _ _ _ _ (by rw [List.length_reverse, List.length_reverse, huv]), comb_reverse a b _ _ huv]

theorem moveoutData_comb (find : List K → K → Nat) (t : Trace K) (y : List K) (hy : t.data.length = y.length) (o : K)
    (phase : Str) (t0 t1 : List K) (a b : K) :
    CombRes a b (Simple.moveoutData find t o phase t0 t1) (Simple.moveoutData find { t with data := y } o phase t0 t1)
      (Simple.moveoutData find { t with data := comb a b t.data y } o phase t0 t1) := by
  unfold Simple.moveoutData
  split
  · exact moveoutS_comb find t y hy o t0 t1 a b
  · exact moveoutP_comb find t y hy o t0 t1 a b

/-- Two heaps combined. -/
def combH (a b : K) (h h' : Heap K) : Heap K := fun r => combTrace a b (h r) (h' r)

theorem combH_set (a b : K) (h h' : Heap K) (r : Nat) (t t' : Trace K) :
    (combH a b h h').set r (combTrace a b t t') = combH a b (h.set r t) (h'.set r t') := by
  funext q
  unfold combH
  by_cases e : q = r
  · subst e; simp only [Heap.set_self]
  · rw [Heap.set_ne _ _ e, Heap.set_ne _ _ e, Heap.set_ne _ _ e]

theorem sameHead_set (h h' : Heap K) (hs : ∀ r, SameHead (h r) (h' r)) (r : Nat) (t t' : Trace K)
    (ht : SameHead t t') (q : Nat) : SameHead (h.set r t q) (h'.set r t' q) := by
  by_cases e : q = r
  · subst e; rw [Heap.set_self, Heap.set_self]; exact ht
  · rw [Heap.set_ne _ _ e, Heap.set_ne _ _ e]; exact hs q

/-- What to do with NaN in the tables is linear as well (NumPy propagates NaN). -/
def NanComb (a b : K) (nanCase : Trace K → Res (List K)) : Prop :=
  ∀ (t : Trace K) (y : List K), t.data.length = y.length →
    CombRes a b (nanCase t) (nanCase { t with data := y }) (nanCase { t with data := comb a b t.data y })

theorem moveoutStep_comb (sqrt : K → K) (find : List K → K → Nat) (nanCase : Trace K → Res (List K)) (a b : K)
    (hn : NanComb a b nanCase) (phase : Str) (ref : K) (m : Simple.SimpleModel K) (t t' : Trace K)
    (ht : SameHead t t') :
    ∃ m1, (∃ e, Simple.moveoutStep sqrt find nanCase phase ref m t = (m1, .error e) ∧
        Simple.moveoutStep sqrt find nanCase phase ref m t' = (m1, .error e) ∧
        Simple.moveoutStep sqrt find nanCase phase ref m (combTrace a b t t') = (m1, .error e)) ∨
      ∃ u u', SameHead u u' ∧ Simple.moveoutStep sqrt find nanCase phase ref m t = (m1, .ok u) ∧
        Simple.moveoutStep sqrt find nanCase phase ref m t' = (m1, .ok u') ∧
        Simple.moveoutStep sqrt find nanCase phase ref m (combTrace a b t t') = (m1, .ok (combTrace a b u u')) := by
  obtain ⟨ht1, ht2⟩ := ht
  generalize hy : t'.data = y at ht1 ht2
  subst ht1
  unfold Simple.moveoutStep
  have g1 : ({ t with data := y } : Trace K).getTime "onset" = t.getTime "onset" := rfl
  have g2 : (combTrace a b t { t with data := y }).getTime "onset" = t.getTime "onset" := rfl
  have g3 : ({ t with data := y } : Trace K).endtime = t.endtime := by
    unfold Trace.endtime Trace.delta
    simp only [ht2]
  have g4 : (combTrace a b t { t with data := y }).endtime = t.endtime := by
    unfold Trace.endtime Trace.delta combTrace
    simp only [comb_length a b _ _ ht2.symm]
  have g5 : ({ t with data := y } : Trace K).getNum "slowness" = t.getNum "slowness" := rfl
  have g6 : (combTrace a b t { t with data := y }).getNum "slowness" = t.getNum "slowness" := rfl
  have g7 : (combTrace a b t { t with data := y }).start = t.start := rfl
  rw [g1, g2, g3, g4, g5, g6, g7]
  cases t.getTime "onset" with
  | none => exact ⟨m, .inl ⟨_, rfl, rfl, rfl⟩⟩
  | some o =>
    simp only
    by_cases hin : t.start ≤ o ∧ o ≤ t.endtime
    · rw [if_neg (not_not.2 hin), if_neg (not_not.2 hin), if_neg (not_not.2 hin)]
      cases t.getNum "slowness" with
      | none => exact ⟨m, .inl ⟨_, rfl, rfl, rfl⟩⟩
      | some sl =>
        simp only
        cases Simple.stretch sqrt m sl phase ref with
        | mk m' res =>
          cases res with
          | error e => exact ⟨m', .inl ⟨_, rfl, rfl, rfl⟩⟩
          | ok tt =>
            obtain ⟨t0, t1⟩ := tt
            simp only
            have key : ∀ x y' z : Res (List K), CombRes a b x y' z → ∃ m1,
                (∃ e, (match x with
                  | .error e => (m', .error e)
                  | .ok d => (m', .ok { t with data := d }) : Simple.SimpleModel K × Res (Trace K)) = (m1, .error e) ∧
                  (match y' with
                  | .error e => (m', .error e)
                  | .ok d => (m', .ok { t with data := d }) : Simple.SimpleModel K × Res (Trace K)) = (m1, .error e) ∧
                  (match z with
                  | .error e => (m', .error e)
                  | .ok d => (m', .ok { t with data := d }) : Simple.SimpleModel K × Res (Trace K)) = (m1, .error e)) ∨
                ∃ u u', SameHead u u' ∧ (match x with
                  | .error e => (m', .error e)
                  | .ok d => (m', .ok { t with data := d }) : Simple.SimpleModel K × Res (Trace K)) = (m1, .ok u) ∧
                  (match y' with
                  | .error e => (m', .error e)
                  | .ok d => (m', .ok { t with data := d }) : Simple.SimpleModel K × Res (Trace K)) = (m1, .ok u') ∧
                  (match z with
                  | .error e => (m', .error e)
                  | .ok d => (m', .ok { t with data := d }) : Simple.SimpleModel K × Res (Trace K))
                    = (m1, .ok (combTrace a b u u')) := by
              intro x y' z hxyz
              rcases hxyz with ⟨e, rfl, rfl, rfl⟩ | ⟨u, v, rfl, rfl, huv, rfl⟩
              · exact ⟨m', .inl ⟨e, rfl, rfl, rfl⟩⟩
              · exact ⟨m', .inr ⟨_, _, ⟨rfl, huv.symm⟩, rfl, rfl, rfl⟩⟩
            cases Simple.allSome t0 with
            | none => exact key _ _ _ (hn t y ht2.symm)
            | some t0 =>
              cases Simple.allSome t1 with
              | none => exact key _ _ _ (hn t y ht2.symm)
              | some t1 => exact key _ _ _ (moveoutData_comb find t y ht2.symm o phase t0 t1 a b)
    · rw [if_pos hin, if_pos hin, if_pos hin]
      exact ⟨m, .inl ⟨_, rfl, rfl, rfl⟩⟩

theorem moveout_comb (sqrt : K → K) (find : List K → K → Nat) (nanCase : Trace K → Res (List K)) (a b : K)
    (hn : NanComb a b nanCase) (phase : Str) (ref : K) (m : Simple.SimpleModel K) (h h' : Heap K) (s : List Nat)
    (hs : ∀ r, SameHead (h r) (h' r)) :
    ∃ m1 h1 h1' e, (∀ r, SameHead (h1 r) (h1' r)) ∧
      Simple.moveout sqrt find nanCase phase ref m h s = (m1, h1, e) ∧
      Simple.moveout sqrt find nanCase phase ref m h' s = (m1, h1', e) ∧
      Simple.moveout sqrt find nanCase phase ref m (combH a b h h') s = (m1, combH a b h1 h1', e) := by
  induction s generalizing m h h' with
  | nil => exact ⟨m, h, h', none, hs, rfl, rfl, rfl⟩
  | cons r s ih =>
    unfold Simple.moveout
    rw [show combH a b h h' r = combTrace a b (h r) (h' r) from rfl]
    obtain ⟨m1, ⟨e, e1, e2, e3⟩ | ⟨u, u', hu, e1, e2, e3⟩⟩ :=
      moveoutStep_comb sqrt find nanCase a b hn phase ref m (h r) (h' r) (hs r)
    · rw [e1, e2, e3]
      exact ⟨m1, h, h', some e, hs, rfl, rfl, rfl⟩
    · rw [e1, e2, e3]
      simp only
      rw [combH_set]
      exact ih m1 _ _ (sameHead_set h h' hs r u u' hu)

/-- Loops that only touch the header commute with the combination. -/
theorem forEachE_comb (a b : K) (f : Trace K → Res (Trace K))
    (hf : ∀ t y, f { t with data := y } = (f t).map fun t1 => { t1 with data := y })
    (hd : ∀ t t1, f t = .ok t1 → t1.data = t.data) (h h' : Heap K) (s : List Nat) (hs : ∀ r, SameHead (h r) (h' r)) :
    ∃ h1 h1' e, (∀ r, SameHead (h1 r) (h1' r)) ∧ Heap.forEachE f h s = (h1, e) ∧ Heap.forEachE f h' s = (h1', e) ∧
      Heap.forEachE f (combH a b h h') s = (combH a b h1 h1', e) := by
  induction s generalizing h h' with
  | nil => exact ⟨h, h', none, hs, rfl, rfl, rfl⟩
  | cons r s ih =>
    unfold Heap.forEachE
    obtain ⟨hr1, hr2⟩ := hs r
    have e2 : f (h' r) = (f (h r)).map fun t1 => { t1 with data := (h' r).data } := by
      rw [hr1]; exact hf _ _
    have e3 : f (combH a b h h' r) = (f (h r)).map fun t1 => { t1 with data := comb a b (h r).data (h' r).data } :=
      hf _ _
    rw [e2, e3]
    cases hfr : f (h r) with
    | error e => exact ⟨h, h', some e, hs, rfl, rfl, rfl⟩
    | ok t1 =>
      simp only [Except.map]
      have hd1 := hd _ _ hfr
      have ec : ({ t1 with data := comb a b (h r).data (h' r).data } : Trace K)
          = combTrace a b t1 { t1 with data := (h' r).data } := by
        unfold combTrace; rw [hd1]
      rw [ec, combH_set]
      exact ih _ _ (sameHead_set h h' hs r _ _ ⟨rfl, by rw [hd1]; exact hr2⟩)

theorem moveoutLabel_data (p : Str) (ref : K) (t : Trace K) (y : List K) :
    moveoutLabel p ref { t with data := y } = (moveoutLabel p ref t).map fun t1 => { t1 with data := y } := by
  unfold moveoutLabel
  show (match (t.put "moveout" (.str p)).ext.get "slowness" with
    | none => _
    | some v => _) = _
  cases (t.put "moveout" (.str p)).ext.get "slowness" <;> rfl

theorem moveoutLabel_keeps (p : Str) (ref : K) (t t1 : Trace K) (h : moveoutLabel p ref t = .ok t1) :
    t1.data = t.data := by
  unfold moveoutLabel at h
  cases hg : (t.put "moveout" (.str p)).ext.get "slowness" with
  | none => rw [hg] at h; cases h
  | some v =>
    rw [hg] at h
    simp only [Except.ok.injEq] at h
    rw [← h]
    rfl

theorem addInfo_samples (info : Str) (t : Trace K) (y : List K) :
    addInfo info { t with data := y } = (addInfo info t).map fun t1 => { t1 with data := y } := by
  unfold addInfo
  show (match t.ext.get "processing" with
    | none => _
    | some (.list l) => _
    | some _ => _) = _
  cases t.ext.get "processing" with
  | none => rfl
  | some v =>
    cases v with
    | list l =>
      simp only [Except.map]
      split <;> rfl
    | _ => rfl

theorem addInfo_keeps (info : Str) (t t1 : Trace K) (h : addInfo info t = .ok t1) : t1.data = t.data := by
  unfold addInfo at h
  cases hg : t.ext.get "processing" with
  | none =>
    rw [hg] at h
    simp only [Except.ok.injEq] at h
    rw [← h]
    rfl
  | some v =>
    rw [hg] at h
    cases v with
    | list l =>
      simp only [Except.ok.injEq] at h
      rw [← h]
      split <;> rfl
    | _ => cases h

/-- C139, linearity.  For streams that differ only in the values of the samples, the correction of a linear
combination is the same linear combination of the corrected streams; in particular whether the correction succeeds,
the header and the state of the model do not depend on the samples. -/
theorem C139_linear (sqrt : K → K) (find : List K → K → Nat) (nanCase : Trace K → Res (List K)) (a b : K)
    (hn : NanComb a b nanCase) (info : Str) (phase : Option Str) (ref : K) (m : Simple.SimpleModel K)
    (h h' : Heap K) (s : List Nat) (hs : ∀ r, SameHead (h r) (h' r)) :
    ∃ m1 h1 h1' e, (∀ r, SameHead (h1 r) (h1' r)) ∧
      streamMoveout sqrt find nanCase info phase ref m (h, s) = (m1, (h1, s), e) ∧
      streamMoveout sqrt find nanCase info phase ref m (h', s) = (m1, (h1', s), e) ∧
      streamMoveout sqrt find nanCase info phase ref m (fun r => combTrace a b (h r) (h' r), s)
        = (m1, (fun r => combTrace a b (h1 r) (h1' r), s), e) := by
  have hext : ∀ r, (h' r).ext = (h r).ext := fun r => by rw [(hs r).1]
  have hph : ∀ h2 : Heap K, (∀ r, (h2 r).ext = (h r).ext) → moveoutPhase h2 s phase = moveoutPhase h s phase := by
    intro h2 h2e
    unfold moveoutPhase streamMethod uniqueHeader
    simp only [h2e]
  change ∃ m1 h1 h1' e, _ ∧ _ ∧ _ ∧ streamMoveout sqrt find nanCase info phase ref m (combH a b h h', s)
    = (m1, (combH a b h1 h1', s), e)
  unfold streamMoveout
  simp only
  rw [hph h' hext, hph (combH a b h h') (fun r => rfl)]
  cases moveoutPhase h s phase with
  | error e => exact ⟨m, h, h', some e, hs, rfl, rfl, rfl⟩
  | ok p =>
    simp only
    obtain ⟨m1, h1, h1', e, hs1, e1, e2, e3⟩ := moveout_comb sqrt find nanCase a b hn p ref m h h' s hs
    rw [e1, e2, e3]
    cases e with
    | some e => exact ⟨m1, h1, h1', some e, hs1, rfl, rfl, rfl⟩
    | none =>
      simp only
      obtain ⟨h2, h2', e, hs2, f1, f2, f3⟩ := forEachE_comb a b (moveoutLabel p ref) (moveoutLabel_data p ref)
        (moveoutLabel_keeps p ref) h1 h1' s hs1
      rw [f1, f2, f3]
      cases e with
      | some e => exact ⟨m1, h2, h2', some e, hs2, rfl, rfl, rfl⟩
      | none =>
        simp only
        obtain ⟨h3, h3', e, hs3, g1, g2, g3⟩ := forEachE_comb a b (addInfo info) (addInfo_samples info)
          (addInfo_keeps info) h2 h2' s hs2
        refine ⟨m1, h3, h3', none, hs3, ?_, ?_, ?_⟩
        · unfold addInfoAll; rw [g1]
        · unfold addInfoAll; rw [g2]
        · unfold addInfoAll; rw [g3]

/-- Correcting zero samples with `a = b = 0` shows that the correction succeeds or fails independently of the data. -/
theorem moveoutData_any (find : List K → K → Nat) (t : Trace K) (o : K) (phase : Str) (t0 t1 : List K) (x y : List K)
    (hxy : x.length = y.length) (u : List K)
    (hx : Simple.moveoutData find { t with data := x } o phase t0 t1 = .ok u) :
    ∃ v, Simple.moveoutData find { t with data := y } o phase t0 t1 = .ok v ∧ v.length = u.length := by
  rcases moveoutData_comb find { t with data := x } y hxy o phase t0 t1 1 1 with ⟨e, h1, -, -⟩ | ⟨u', v, h1, h2, h3, -⟩
  · rw [hx] at h1; cases h1
  · rw [hx] at h1
    simp only [Except.ok.injEq] at h1
    subst h1
    exact ⟨v, h2, h3.symm⟩

/-- The corrected samples, `[]` if the correction fails. -/
def corrected (find : List K → K → Nat) (t : Trace K) (o : K) (phase : Str) (t0 t1 : List K) (x : List K) : List K :=
  okD [] (Simple.moveoutData find { t with data := x } o phase t0 t1)

theorem zipWith_add_comb (x y : List K) : List.zipWith (· + ·) x y = comb 1 1 x y := by
  unfold comb; simp only [one_mul]

/-- C139, mean.  For traces with the same header and number of samples, the mean of the corrected traces, as it is
calculated by `stack`, is the correction of the mean. -/
theorem C139_mean (find : List K → K → Nat) (t : Trace K) (o : K) (phase : Str) (t0 t1 : List K)
    (rows : List (List K)) (mean : List K) (hm : npMean rows = .ok mean) (res : List K)
    (hr : Simple.moveoutData find { t with data := mean } o phase t0 t1 = .ok res) :
    ∃ rows', rows.map (fun x => Simple.moveoutData find { t with data := x } o phase t0 t1) = rows'.map .ok ∧
      npMean rows' = .ok res := by
  cases rows with
  | nil => cases hm
  | cons r rs =>
    have hall : rs.all (fun q => q.length == r.length) = true := by
      by_contra hne
      unfold npMean at hm
      simp only [hne, if_false] at hm
      cases hm
    unfold npMean at hm
    simp only [hall, if_true] at hm
    have hlen : ∀ q ∈ rs, q.length = r.length := fun q hq => by simpa using List.all_eq_true.1 hall q hq
    simp only [Except.ok.injEq] at hm
    have hlenm : mean.length = r.length := by
      rw [← hm, List.length_map]
      have : ∀ (l : List (List K)) (x : List K), (∀ q ∈ l, q.length = x.length) →
          (l.foldl (fun (a b : List K) => List.zipWith (· + ·) a b) x).length = x.length := by
        intro l
        induction l with
        | nil => intro x _; rfl
        | cons q l ih =>
          intro x hx
          have hz : (List.zipWith (· + ·) x q).length = x.length := by
            rw [List.length_zipWith, hx q List.mem_cons_self, min_self]
          rw [List.foldl_cons, ih _ (fun q' hq' => by rw [hz]; exact hx q' (List.mem_cons_of_mem _ hq')), hz]
      exact this rs r hlen
    -- the correction of any row succeeds
    have hok : ∀ x : List K, x.length = r.length →
        Simple.moveoutData find { t with data := x } o phase t0 t1 = .ok (corrected find t o phase t0 t1 x) ∧
          (corrected find t o phase t0 t1 x).length = res.length := by
      intro x hx
      obtain ⟨v, hv1, hv2⟩ := moveoutData_any find t o phase t0 t1 mean x (by rw [hlenm, hx]) res hr
      unfold corrected
      rw [hv1]
      exact ⟨rfl, hv2⟩
    have hlin : ∀ (a b : K) (x y : List K), x.length = r.length → y.length = r.length →
        corrected find t o phase t0 t1 (comb a b x y)
          = comb a b (corrected find t o phase t0 t1 x) (corrected find t o phase t0 t1 y) := by
      intro a b x y hx hy
      rcases moveoutData_comb find { t with data := x } y (by rw [hx, hy]) o phase t0 t1 a b with
        ⟨e, h1, -, -⟩ | ⟨u, v, h1, h2, -, h4⟩
      · rw [(hok x hx).1] at h1; cases h1
      · have e1 : corrected find t o phase t0 t1 x = u := by unfold corrected; rw [h1]; rfl
        have e2 : corrected find t o phase t0 t1 y = v := by unfold corrected; rw [h2]; rfl
        rw [e1, e2]
        unfold corrected
        rw [show ({ t with data := comb a b x y } : Trace K)
          = { ({ t with data := x } : Trace K) with data := comb a b ({ t with data := x } : Trace K).data y } from rfl,
          h4]
        rfl
    refine ⟨(r :: rs).map (corrected find t o phase t0 t1), ?_, ?_⟩
    · rw [List.map_map]
      refine List.map_congr_left fun x hx => ?_
      have : x.length = r.length := by
        rcases List.mem_cons.1 hx with rfl | hx
        · rfl
        · exact hlen x hx
      exact (hok x this).1
    · have hres : res = corrected find t o phase t0 t1 mean := by unfold corrected; rw [hr]; rfl
      rw [List.map_cons]
      unfold npMean
      simp only
      rw [if_pos]
      · congr 1
        rw [hres, ← hm, List.length_map]
        -- the sum
        have hsum : ∀ (l : List (List K)) (x : List K), x.length = r.length → (∀ q ∈ l, q.length = r.length) →
            (l.foldl (fun (a b : List K) => List.zipWith (· + ·) a b) x).length = r.length ∧
            (l.map (corrected find t o phase t0 t1)).foldl (fun (a b : List K) => List.zipWith (· + ·) a b)
              (corrected find t o phase t0 t1 x)
            = corrected find t o phase t0 t1 (l.foldl (fun (a b : List K) => List.zipWith (· + ·) a b) x) := by
          intro l
          induction l with
          | nil => intro x hx _; exact ⟨hx, rfl⟩
          | cons q l ih =>
            intro x hx hl
            have hq := hl q List.mem_cons_self
            rw [List.map_cons, List.foldl_cons, List.foldl_cons, zipWith_add_comb, zipWith_add_comb, ← hlin 1 1 x q hx hq]
            exact ih _ (by rw [comb_length 1 1 x q (by rw [hx, hq]), hx]) (fun q' hq' => hl q' (List.mem_cons_of_mem _ hq'))
        obtain ⟨s1, s2⟩ := hsum rs r rfl hlen
        rw [s2]
        set S := rs.foldl (fun (a b : List K) => List.zipWith (· + ·) a b) r
        have hdiv : ∀ (z : K) (x : List K), x.map (fun (v : K) => v / z) = comb (1 / z) 0 x x := by
          intro z x
          unfold comb
          induction x with
          | nil => rfl
          | cons v x ih => rw [List.map_cons, List.zipWith_cons_cons, ih]; congr 1; ring
        rw [hdiv, hdiv, hlin _ _ S S s1 s1]
      · rw [List.all_map, List.all_eq_true]
        intro x hx
        simp only [Function.comp, beq_iff_eq]
        rw [(hok x (hlen x hx)).2, (hok r rfl).2]

end kernel

section examples

/-- C139 is not vacuous: two streams with other samples, and the correction of `2 x - 3 y`. -/
example : NanComb (2 : ℚ) (-3) (fun _ => .error .other) ∧
    (let x : Heap ℚ := fun _ => { exTrace with ext := [("phase", .str "P".toList), ("onset", .time 3), ("slowness", .num 0)] }
     let y : Heap ℚ := fun r => { x r with data := [1, 0, 0, 0, 5, 0, 2, 0, 0] }
     SameHead (x 0) (y 0) ∧
     ((streamMoveout qSqrt npFind (fun _ => .error .other) [] none 0 qModel (x, [0])).2.1.1 0).data
       = [1, 2, 3, 4, 9, 0, 0, 0, 0] ∧
     (streamMoveout qSqrt npFind (fun _ => .error .other) [] none 0 qModel (x, [0])).2.2 = none ∧
     ((streamMoveout qSqrt npFind (fun _ => .error .other) [] none 0 qModel (fun r => combTrace 2 (-3) (x r) (y r), [0])).2.1.1 0).data
       = [-1, 4, 6, 8, 18, 0, 0, 0, 0]) := by
  refine ⟨fun _ _ _ => .inl ⟨_, rfl, rfl, rfl⟩, ⟨rfl, rfl⟩, ?_, ?_, ?_⟩ <;> decide +kernel

/-- The mean of two corrected traces. -/
example : npMean [exTrace.data, [1, 0, 1, 0, 1, 0, 1, 0, 1]] = .ok [1, 1, 2, 2, 3, 3, 4, 4, 5] ∧
    Simple.moveoutData npFind { exTrace with data := [1, 1, 2, 2, 3, 3, 4, 4, 5] } 3 "Ps".toList [-2, 0, 2, 4, 6]
      [-1, 0, 1, 2, 3] = .ok [1, 1, 2, 2, 3, 4, 0, 0, 0] := by
  constructor <;> decide +kernel

end examples

end Verif.Props
