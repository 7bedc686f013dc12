import Verif.Props.MoveoutLinear
import Verif.Props.Moveout
import Verif.Props.ProfileParts
import Verif.Props.StreamOps
import Verif.Py.Single

/-!
# C200: deviations of the samples are not amplified
-/

set_option linter.unusedSimpArgs false
set_option linter.unusedSectionVars false

namespace Verif.Spec
open Verif.Py

/-- Two arrays of the same length which differ nowhere by more than `ε`. -/
def Within {K : Type} [Field K] [LinearOrder K] (ε : K) (x y : List K) : Prop :=
  x.length = y.length ∧ ∀ i, |x.getD i 0 - y.getD i 0| ≤ ε

end Verif.Spec

namespace Verif.Props
open Verif.Py Verif.Spec Verif.Model

section moveout
variable {K : Type} [Field K] [LinearOrder K] [IsStrictOrderedRing K] [FloorRing K]

/-- All samples are between `-M` and `M`. -/
def BoundedBy (M : K) (t : Trace K) : Prop := ∀ y ∈ t.data, |y| ≤ M

/-- The result with NaN in the tables is bounded as well. -/
def NanBounded (M : K) (nanCase : Trace K → Res (List K)) : Prop :=
  ∀ t d, nanCase t = .ok d → BoundedBy M t → ∀ y ∈ d, |y| ≤ M

theorem forEachE_pred (P : Trace K → Prop) (f : Trace K → Res (Trace K)) (hf : ∀ t t1, f t = .ok t1 → P t → P t1)
    (s : List Nat) : ∀ h : Heap K, (∀ r, P (h r)) → ∀ r, P ((Heap.forEachE f h s).1 r) := by
  induction s with
  | nil => exact fun h hh r => hh r
  | cons a s ih =>
    intro h hh r
    unfold Heap.forEachE
    cases e : f (h a) with
    | error e => exact hh r
    | ok t =>
      refine ih _ (fun q => ?_) r
      by_cases hq : q = a
      · subst hq; rw [Heap.set_self]; exact hf _ _ e (hh q)
      · rw [Heap.set_ne _ _ hq]; exact hh q

theorem moveoutStep_bound (sqrt : K → K) (find : List K → K → Nat) (hfind : FindSpec find)
    (nanCase : Trace K → Res (List K)) (M : K) (hM : 0 ≤ M) (hnan : NanBounded M nanCase) (phase : Str) (ref : K)
    (m m1 : Simple.SimpleModel K) (t u : Trace K)
    (h : Simple.moveoutStep sqrt find nanCase phase ref m t = (m1, .ok u)) (hb : BoundedBy M t) : BoundedBy M u := by
  unfold Simple.moveoutStep at h
  cases ho : t.getTime "onset" with
  | none => rw [ho] at h; cases h
  | some o =>
    rw [ho] at h
    simp only at h
    split at h
    · cases h
    · cases hs : t.getNum "slowness" with
      | none => rw [hs] at h; cases h
      | some sl =>
        rw [hs] at h
        simp only at h
        cases hst : Simple.stretch sqrt m sl phase ref with
        | mk m' res =>
          rw [hst] at h
          cases res with
          | error e => cases h
          | ok tt =>
            obtain ⟨t0, t1⟩ := tt
            simp only at h
            have key : ∀ x : Res (List K), (∀ d, x = .ok d → ∀ y ∈ d, |y| ≤ M) →
                (match x with
                  | .error e => (m', .error e)
                  | .ok d => (m', .ok { t with data := d }) : Simple.SimpleModel K × Res (Trace K)) = (m1, .ok u) →
                BoundedBy M u := by
              intro x hx hxu
              cases x with
              | error e => cases hxu
              | ok d => cases hxu; exact hx d rfl
            cases h0 : Simple.allSome t0 with
            | none => rw [h0] at h; exact key _ (fun d hd => hnan t d hd hb) h
            | some t0 =>
              rw [h0] at h
              cases h1 : Simple.allSome t1 with
              | none => rw [h1] at h; exact key _ (fun d hd => hnan t d hd hb) h
              | some t1 =>
                rw [h1] at h
                exact key _ (fun d hd => C35_amplitudes find hfind t o phase t0 t1 d hd M hM hb) h

theorem moveout_bound (sqrt : K → K) (find : List K → K → Nat) (hfind : FindSpec find)
    (nanCase : Trace K → Res (List K)) (M : K) (hM : 0 ≤ M) (hnan : NanBounded M nanCase) (phase : Str) (ref : K)
    (s : List Nat) : ∀ (m : Simple.SimpleModel K) (h : Heap K), (∀ r, BoundedBy M (h r)) →
      ∀ r, BoundedBy M ((Simple.moveout sqrt find nanCase phase ref m h s).2.1 r) := by
  induction s with
  | nil => exact fun m h hh r => hh r
  | cons a s ih =>
    intro m h hh r
    unfold Simple.moveout
    cases e : Simple.moveoutStep sqrt find nanCase phase ref m (h a) with
    | mk m1 res =>
      cases res with
      | error e => exact hh r
      | ok u =>
        refine ih m1 _ (fun q => ?_) r
        by_cases hq : q = a
        · subst hq
          rw [Heap.set_self]
          exact moveoutStep_bound sqrt find hfind nanCase M hM hnan phase ref m m1 (h q) u e (hh q)
        · rw [Heap.set_ne _ _ hq]; exact hh q

/-- The move out correction of a stream gives no samples above a bound of the input. -/
theorem streamMoveout_bound (sqrt : K → K) (find : List K → K → Nat) (hfind : FindSpec find)
    (nanCase : Trace K → Res (List K)) (M : K) (hM : 0 ≤ M) (hnan : NanBounded M nanCase) (info : Str)
    (phase : Option Str) (ref : K) (m : Simple.SimpleModel K) (h : Heap K) (s : List Nat) (hh : ∀ r, BoundedBy M (h r))
    (r : Nat) : BoundedBy M ((streamMoveout sqrt find nanCase info phase ref m (h, s)).2.1.1 r) := by
  unfold streamMoveout
  cases moveoutPhase h s phase with
  | error e => exact hh r
  | ok p =>
    simp only
    have h1 := moveout_bound sqrt find hfind nanCase M hM hnan p ref s m h hh
    cases e1 : Simple.moveout sqrt find nanCase p ref m h s with
    | mk m' q =>
      obtain ⟨h2, e⟩ := q
      rw [e1] at h1
      cases e with
      | some e => exact h1 r
      | none =>
        simp only
        have h3 := forEachE_pred (BoundedBy M) (moveoutLabel p ref) (fun t t1 e hb => by
          unfold BoundedBy; rw [moveoutLabel_keeps p ref t t1 e]; exact hb) s h2 h1
        cases e2 : Heap.forEachE (moveoutLabel p ref) h2 s with
        | mk h4 e =>
          rw [e2] at h3
          cases e with
          | some e => exact h3 r
          | none =>
            exact forEachE_pred (BoundedBy M) (addInfo info) (fun t t1 e hb => by
              unfold BoundedBy; rw [addInfo_keeps info t t1 e]; exact hb) s h4 h3 r

theorem within_comb (M : K) (x y : List K) (hl : x.length = y.length) (hM : 0 ≤ M) :
    Within M x y ↔ ∀ z ∈ comb 1 (-1) x y, |z| ≤ M := by
  constructor
  · rintro ⟨-, h⟩ z hz
    obtain ⟨i, hi, rfl⟩ := List.getElem_of_mem hz
    have := h i
    have e := comb_getD 1 (-1) x y hl i
    rw [List.getD_eq_getElem _ _ hi] at e
    rw [e]
    refine le_of_eq_of_le ?_ this
    congr 1
    ring
  · intro h
    refine ⟨hl, fun i => ?_⟩
    have e := comb_getD 1 (-1) x y hl i
    have e' : x.getD i 0 - y.getD i 0 = (comb 1 (-1) x y).getD i 0 := by rw [e]; ring
    rw [e']
    by_cases hi : i < (comb 1 (-1) x y).length
    · rw [List.getD_eq_getElem _ _ hi]
      exact h _ (List.getElem_mem hi)
    · rw [List.getD_eq_default _ _ (not_lt.1 hi), abs_zero]
      exact hM

/-- **C200** Streams that differ only in their samples, by at most `ε`, differ by at most `ε` after the move out
correction; exceptions, model and headers are the same. -/
theorem C200_moveout (sqrt : K → K) (find : List K → K → Nat) (hfind : FindSpec find)
    (nanCase : Trace K → Res (List K)) (ε : K) (hε : 0 ≤ ε) (hnan : NanBounded ε nanCase) (hn : NanComb 1 (-1) nanCase)
    (info : Str) (phase : Option Str) (ref : K) (m : Simple.SimpleModel K) (h h' : Heap K) (s : List Nat)
    (hs : ∀ r, SameHead (h r) (h' r)) (hw : ∀ r, Within ε (h r).data (h' r).data) :
    ∃ m1 h1 h1' e, (∀ r, SameHead (h1 r) (h1' r)) ∧ (∀ r, Within ε (h1 r).data (h1' r).data) ∧
      streamMoveout sqrt find nanCase info phase ref m (h, s) = (m1, (h1, s), e) ∧
      streamMoveout sqrt find nanCase info phase ref m (h', s) = (m1, (h1', s), e) := by
  obtain ⟨m1, h1, h1', e, g1, g2, g3, g4⟩ := C139_linear sqrt find nanCase 1 (-1) hn info phase ref m h h' s hs
  refine ⟨m1, h1, h1', e, g1, fun r => ?_, g2, g3⟩
  have hb := streamMoveout_bound sqrt find hfind nanCase ε hε hnan info phase ref m
    (fun r => combTrace 1 (-1) (h r) (h' r)) s (fun r => (within_comb ε _ _ (hs r).2.symm hε).1 (hw r)) r
  rw [g4] at hb
  exact (within_comb ε _ _ (g1 r).2.symm hε).2 hb

end moveout

section stack
variable {K : Type} [Field K] [LinearOrder K] [IsStrictOrderedRing K] [FloorRing K]

theorem meanAt_within (ε : K) (l : List Nat) (hl : l ≠ []) (f g : Nat → List K) (i : Nat)
    (h : ∀ r ∈ l, |(f r).getD i 0 - (g r).getD i 0| ≤ ε) : |meanAt (l.map f) i - meanAt (l.map g) i| ≤ ε := by
  unfold meanAt
  rw [List.map_map, List.map_map, List.length_map, List.length_map, ← sub_div, abs_div]
  have hpos : (0 : K) < (l.length : K) := by exact_mod_cast List.length_pos_of_ne_nil hl
  rw [abs_of_pos hpos, div_le_iff₀ hpos]
  clear hl hpos
  induction l with
  | nil => simp
  | cons a l ih =>
    have h1 := h a List.mem_cons_self
    have h2 := ih fun r hr => h r (List.mem_cons_of_mem _ hr)
    simp only [List.map_cons, List.sum_cons, List.length_cons, Function.comp_apply] at h2 ⊢
    push_cast
    have e : (f a).getD i 0 + (List.map ((fun r => r.getD i 0) ∘ f) l).sum
        - ((g a).getD i 0 + (List.map ((fun r => r.getD i 0) ∘ g) l).sum)
        = ((f a).getD i 0 - (g a).getD i 0) + ((List.map ((fun r => r.getD i 0) ∘ f) l).sum
          - (List.map ((fun r => r.getD i 0) ∘ g) l).sum) := by ring
    rw [e]
    refine (abs_add_le _ _).trans ?_
    have e2 : ε * ((l.length : K) + 1) = ε + ε * (l.length : K) := by ring
    rw [e2]
    exact add_le_add h1 h2

/-- **C200** The stacks of streams that differ only in their samples, by at most `ε`, differ by at most `ε`. -/
theorem C200_stack (order : List Str → List Str) (ε : K) (hε : 0 ≤ ε) (h h' : Heap K) (s : List Nat)
    (hs : ∀ r ∈ s, SameHead (h r) (h' r)) (hw : ∀ r ∈ s, Within ε (h r).data (h' r).data) (out out' : List (Trace K))
    (hok : stack order h s = .ok out) (hok' : stack order h' s = .ok out') (t t' : Trace K) (ht : t ∈ out)
    (ht' : t' ∈ out') (hid : t.id = t'.id) : Within ε t.data t'.data := by
  obtain ⟨⟨r, hr, hri⟩, a2, a3, -⟩ := C47_mean order h s out hok t ht
  obtain ⟨-, b2, b3, -⟩ := C47_mean order h' s out' hok' t' ht'
  have hids : ∀ r ∈ s, (h' r).id = (h r).id := fun r hr => by rw [(hs r hr).1]; rfl
  have hlen : t.data.length = t'.data.length := by
    rw [← a2 r hr hri, ← b2 r hr (by rw [hids r hr, hri, hid]), (hs r hr).2]
  refine ⟨hlen, fun i => ?_⟩
  by_cases hi : i < t.data.length
  · rw [a3 i hi, b3 i (by omega)]
    have hf : (s.filter fun r => (h' r).id = t'.id) = s.filter fun r => (h r).id = t.id :=
      List.filter_congr fun r hr => by rw [hids r hr, hid]
    rw [hf]
    refine meanAt_within ε _ ?_ _ _ i fun q hq => (hw q (List.mem_filter.1 hq).1).2 i
    exact List.ne_nil_of_mem (List.mem_filter.2 ⟨hr, by simpa using hri⟩)
  · rw [List.getD_eq_default _ _ (not_lt.1 hi), List.getD_eq_default _ _ (by omega), sub_self, abs_zero]
    exact hε

end stack

section profile
open Verif.Model.Profile
variable {K : Type} [Field K] [LinearOrder K] [IsStrictOrderedRing K] [FloorRing K]
variable (within : K × K → List (K × K) → Bool) (boxes : List (Box K)) (crs : Bool)

/-- **C200** The traces of the same bin in the profiles of streams that differ only in their samples, by at most `ε`,
differ by at most `ε`. -/
theorem C200_profile (ε : K) (hε : 0 ≤ ε) (h h' h1 h2 : Heap K) (s l1 l2 : List Nat) (n1 n2 : Nat)
    (b1 : ∀ r ∈ s, r < n1) (b2 : ∀ r ∈ s, r < n2) (ok1 : profile within boxes crs h s n1 = .ok (h1, l1))
    (ok2 : profile within boxes crs h' s n2 = .ok (h2, l2)) (hs : ∀ r ∈ s, SameHead (h r) (h' r))
    (hw : ∀ r ∈ s, Within ε (h r).data (h' r).data)
    (hlen : ∀ r ∈ s, ∀ q ∈ s, binOf (boxSets within boxes) (h r) = binOf (boxSets within boxes) (h q) →
      (h r).data.length = (h q).data.length)
    (k : K × Char) (q1 q2 : Nat) (hq1 : q1 ∈ l1) (hq2 : q2 ∈ l2) (hk1 : HasBin (h1 q1) k) (hk2 : HasBin (h2 q2) k) :
    Within ε (h1 q1).data (h2 q2).data := by
  obtain ⟨-, c1⟩ := C50_mean within boxes crs h h1 s l1 n1 b1 ok1 q1 hq1 k hk1
  obtain ⟨-, c2⟩ := C50_mean within boxes crs h' h2 s l2 n2 b2 ok2 q2 hq2 k hk2
  have hm : binMembers (boxSets within boxes) h' s k = binMembers (boxSets within boxes) h s k :=
    List.filter_congr fun r hr => by rw [(hs r hr).1]; rfl
  rw [hm] at c2
  have hne := (binMembers_ne_nil within boxes crs h h1 s l1 n1 b1 ok1 k).1 ⟨q1, hq1, hk1⟩
  obtain ⟨r0, hr0⟩ := List.exists_mem_of_ne_nil _ hne
  have hmem : ∀ r ∈ binMembers (boxSets within boxes) h s k, r ∈ s ∧ binOf (boxSets within boxes) (h r) = some k :=
    fun r hr => ⟨(List.mem_filter.1 hr).1, by simpa using (List.mem_filter.1 hr).2⟩
  have hL : ∀ r ∈ binMembers (boxSets within boxes) h s k, (h r).data.length = (h r0).data.length := fun r hr =>
    hlen r (hmem r hr).1 r0 (hmem r0 hr0).1 ((hmem r hr).2.trans (hmem r0 hr0).2.symm)
  obtain ⟨d1, f1⟩ := c1 _ hL
  obtain ⟨d2, f2⟩ := c2 _ fun r hr => ((hs r (hmem r hr).1).2).trans (hL r hr)
  refine ⟨by rw [d1, d2], fun i => ?_⟩
  by_cases hi : i < (h r0).data.length
  · rw [f1 i hi, f2 i hi]
    exact meanAt_within ε _ hne _ _ i fun r hr => (hw r (hmem r hr).1).2 i
  · rw [List.getD_eq_default _ _ (by omega), List.getD_eq_default _ _ (by omega), sub_self, abs_zero]
    exact hε

end profile

section files

/-- A trace with samples in single precision, as SAC files hold them. -/
def singleTrace (t : Trace ℚ) : Trace ℚ := { t with data := t.data.map fl32 }

theorem singleTrace_within (M : ℚ) (t : Trace ℚ) (hb : BoundedBy M t) (hM : 0 ≤ M) :
    SameHead t (singleTrace t) ∧ Within (M / 2 ^ 24) t.data (singleTrace t).data := by
  refine ⟨⟨rfl, by simp [singleTrace]⟩, by simp [singleTrace], fun i => ?_⟩
  by_cases hi : i < t.data.length
  · have e : (singleTrace t).data.getD i 0 = fl32 (t.data.getD i 0) := by
      unfold singleTrace
      rw [List.getD_eq_getElem _ _ (by simpa using hi), List.getD_eq_getElem _ _ hi, List.getElem_map]
    rw [e, abs_sub_comm]
    refine (fl32_rel _).trans ?_
    apply div_le_div_of_nonneg_right _ (by norm_num)
    rw [List.getD_eq_getElem _ _ hi]
    exact hb _ (List.getElem_mem hi)
  · rw [List.getD_eq_default _ _ (not_lt.1 hi), List.getD_eq_default _ _ (by simpa [singleTrace] using hi), sub_self,
      abs_zero]
    positivity

/-- **C200** Move out correction and stack of receiver functions which were stored in single precision between: the
samples differ by at most a part in 16 millions of the largest amplitude, and so do the bins of a profile by
`C200_profile`. -/
theorem C200_sac (sqrt : ℚ → ℚ) (find : List ℚ → ℚ → Nat) (hfind : FindSpec find) (nanCase : Trace ℚ → Res (List ℚ))
    (M : ℚ) (hM : 0 ≤ M) (hnan : NanBounded (M / 2 ^ 24) nanCase) (hn : NanComb 1 (-1) nanCase) (info : Str)
    (phase : Option Str) (ref : ℚ) (m : Simple.SimpleModel ℚ) (h : Heap ℚ) (s : List Nat) (hb : ∀ r, BoundedBy M (h r))
    (order : List Str → List Str) (m1 m2 : Simple.SimpleModel ℚ) (st1 st2 : SState ℚ) (out out' : List (Trace ℚ))
    (g1 : streamMoveout sqrt find nanCase info phase ref m (h, s) = (m1, st1, none))
    (g2 : streamMoveout sqrt find nanCase info phase ref m (fun r => singleTrace (h r), s) = (m2, st2, none))
    (hok : stack order st1.1 st1.2 = .ok out) (hok' : stack order st2.1 st2.2 = .ok out') (t t' : Trace ℚ)
    (ht : t ∈ out) (ht' : t' ∈ out') (hid : t.id = t'.id) : Within (M / 2 ^ 24) t.data t'.data := by
  have hε : 0 ≤ M / 2 ^ 24 := by positivity
  obtain ⟨m3, h1, h1', e, k1, k2, k3, k4⟩ := C200_moveout sqrt find hfind nanCase (M / 2 ^ 24) hε hnan hn info phase ref m
    h (fun r => singleTrace (h r)) s (fun r => (singleTrace_within M (h r) (hb r) hM).1)
    (fun r => (singleTrace_within M (h r) (hb r) hM).2)
  rw [k3] at g1
  rw [k4] at g2
  cases g1; cases g2
  exact C200_stack order (M / 2 ^ 24) hε h1 h1' s (fun r _ => k1 r) (fun r _ => k2 r) out out' hok hok' t t' ht ht' hid

end files

section examples

/-- Two traces with one id. -/
def stabHeap (x y : ℚ) : Heap ℚ := fun r =>
  { net := "N".toList, sta := "A".toList, loc := [], cha := "BHQ".toList, start := 0, sr := 1,
    data := if r = 0 then [1, x] else [3, y], ext := [("onset", .time 1)] }

/-- Deviations of 1/8 and -1/8 in the second sample: no deviation in the stack; both 1/8: again 1/8. -/
example : (stack (fun l => l.dedup) (stabHeap 2 4) [0, 1]).map (fun l => l.map (·.data)) = .ok [[2, 3]] ∧
    (stack (fun l => l.dedup) (stabHeap (2 + 1 / 8) (4 - 1 / 8)) [0, 1]).map (fun l => l.map (·.data)) = .ok [[2, 3]] ∧
    (stack (fun l => l.dedup) (stabHeap (2 + 1 / 8) (4 + 1 / 8)) [0, 1]).map (fun l => l.map (·.data))
      = .ok [[2, 3 + 1 / 8]] := by
  decide +kernel

example : ∀ r ∈ [0, 1], SameHead (stabHeap 2 4 r) (stabHeap (2 + 1 / 8) (4 - 1 / 8) r) ∧
    Within (1 / 8) (stabHeap 2 4 r).data (stabHeap (2 + 1 / 8) (4 - 1 / 8) r).data := by
  intro r hr
  simp only [List.mem_cons, List.not_mem_nil, or_false] at hr
  rcases hr with rfl | rfl
  · refine ⟨⟨rfl, rfl⟩, rfl, fun i => ?_⟩
    rcases i with _ | _ | i <;> norm_num [stabHeap, List.getD]
  · refine ⟨⟨rfl, rfl⟩, rfl, fun i => ?_⟩
    rcases i with _ | _ | i <;> norm_num [stabHeap, List.getD]

end examples

end Verif.Props
