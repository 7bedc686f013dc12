import Verif.Model.Buffers
import Verif.Props.MoveoutStream
import Mathlib.Data.Rat.Sqrt

/-!
# Traces which share an array, arrays of integers (C160, C161)
-/

set_option linter.unusedSimpArgs false
set_option linter.unusedSectionVars false

namespace Verif.Props
open Verif.Py Verif.Model Verif.Model.Simple Verif.Model.Buffers

section views

theorem View.pos_idx (v : View) (i : Nat) (hi : i < v.len) : v.pos (v.idx i) = some i := by
  unfold View.pos View.idx
  cases v.rev with
  | true =>
    simp only [if_true]
    rw [if_pos (by omega)]
    congr 1
    omega
  | false =>
    simp only [Bool.false_eq_true, if_false]
    rw [if_pos (by omega)]
    congr 1
    omega

theorem View.idx_mem (v : View) (i : Nat) (hi : i < v.len) : v.off ≤ v.idx i ∧ v.idx i < v.off + v.len := by
  unfold View.idx
  split <;> omega

end views

variable {K : Type}

theorem read_length (w : World K) (v : View) : (w.read v).length = v.len := by
  unfold World.read
  simp

theorem read_get (w : World K) (v : View) (i : Nat) (hi : i < v.len) (d : K) :
    (w.read v).getD i d = (w.bufs v.buf).cells (v.idx i) := by
  unfold World.read
  rw [List.getD_eq_getElem?_getD, List.getElem?_map, List.getElem?_range hi]
  rfl

section field
variable [Field K]

theorem value_npts (w : World K) (r : Nat) : (w.value r).npts = (w.objs r).view.len := by
  unfold Trace.npts World.value
  exact read_length w _

/-- Samples of a slice. -/
theorem slice_value (w : World K) (r q a n : Nat) (h : a + n ≤ (w.objs r).view.len) :
    ((w.slice r q a n).value q).data = ((w.value r).data.drop a).take n := by
  unfold World.value World.slice
  simp only [if_true]
  apply List.ext_getElem
  · simp [World.read]
    omega
  · intro i h1 h2
    simp only [World.read, List.getElem_map, List.getElem_range, List.getElem_take, List.getElem_drop]
    simp only [World.read, List.length_map, List.length_range] at h1
    congr 1
    unfold View.idx
    simp only
    split <;> omega

/-- Samples after mirroring. -/
theorem mirror_value (w : World K) (r : Nat) :
    (w.mirror r).value r = { w.value r with data := (w.value r).data.reverse } := by
  unfold World.value World.mirror
  simp only [if_true]
  congr 1
  apply List.ext_getElem
  · simp [World.read]
  · intro i h1 h2
    simp only [World.read, List.length_map, List.length_range] at h1
    simp only [World.read, List.getElem_map, List.getElem_range, List.getElem_reverse, List.length_map,
      List.length_range]
    congr 1
    unfold View.idx
    simp only
    cases (w.objs r).view.rev
    · simp
    · simp
      omega

/-- Samples after `tr.data = f(tr.data)`. -/
theorem rebind_value (w : World K) (r b : Nat) (f : K → K) :
    (w.rebind r b f).value r = { w.value r with data := (w.value r).data.map f } := by
  unfold World.value World.rebind
  simp only [if_true]
  congr 1
  apply List.ext_getElem
  · simp [World.read]
  · intro i h1 h2
    simp only [World.read, List.length_map, List.length_range] at h1
    simp only [World.read, List.getElem_map, List.getElem_range, if_true]
    unfold View.idx
    simp only [Bool.false_eq_true, if_false, Nat.zero_add]
    rw [List.getD_eq_getElem?_getD, List.getElem?_map, List.getElem?_map, List.getElem?_range h1]
    rfl

/-- C160.  Methods which bind a new array or a new view (sign of Q, mirroring in `rf`) change no other trace, also if
arrays are shared. -/
theorem C160_rebind (w : World K) (r b q : Nat) (f : K → K) (hq : q ≠ r) (hb : (w.objs q).view.buf ≠ b) :
    (w.mirror r).value q = w.value q ∧ (w.rebind r b f).value q = w.value q := by
  constructor
  · unfold World.value World.mirror World.read
    simp only [if_neg hq]
  · unfold World.value World.rebind World.read
    simp only [if_neg hq, if_neg hb]

end field

variable [Field K] [LinearOrder K] [IsStrictOrderedRing K] [FloorRing K]

/-- What an assignment to a part of the samples does to the trace itself. -/
theorem write_self (w : World K) (v : View) (a b : Nat) (d : List K) (i : Nat) (hi : i < v.len) (x : K) :
    ((w.write v a b d).read v).getD i x =
      if a ≤ i ∧ i < b then stored (w.bufs v.buf).dtype (d.getD i 0) else (w.read v).getD i x := by
  rw [read_get _ _ _ hi, read_get _ _ _ hi]
  unfold World.write
  simp only [if_true, View.pos_idx v i hi]

/-- An assignment does not change samples in other cells. -/
theorem write_other (w : World K) (v u : View) (hd : v.Disjoint u) (a b : Nat) (d : List K) :
    (w.write v a b d).read u = w.read u := by
  unfold World.read World.write
  apply List.map_congr_left
  intro i hi
  rw [List.mem_range] at hi
  simp only
  split
  · rename_i hbuf
    have hm := View.idx_mem u i hi
    have : v.pos (u.idx i) = none := by
      unfold View.pos
      rw [if_neg]
      rcases hd with h | h | h
      · exact absurd hbuf.symm h
      · omega
      · omega
    simp only [this]
  · rfl

variable (sqrt : K → K) (find : List K → K → Nat)

theorem getItem_last {α : Type} (l : List α) (a d : α) (h : getItem l (-1) = .ok a) : l.getLastD d = a := by
  unfold getItem at h
  simp only [show ((-1 : Int) < 0) from by decide, if_true] at h
  split at h
  · rename_i h0
    have hlen : 0 < l.length := by omega
    have hj : (-1 + (l.length : Int)).toNat = l.length - 1 := by omega
    rw [hj, List.getElem?_eq_getElem (by omega)] at h
    simp only [Except.ok.injEq] at h
    rw [List.getLastD_eq_getLast?, List.getLast?_eq_getElem?, List.getElem?_eq_getElem (by omega)]
    exact h
  · cases h

/-- The behaviour of the interpolation with NaN in the tables is not known, but it concerns the samples to which the
code assigns only. -/
def NanLocal (nanCase : Trace K → Res (List K)) (phase : Str) : Prop :=
  ∀ tr onset d, nanCase tr = .ok d → tr.getTime "onset" = some onset → d.length = tr.npts ∧
    ∀ i, (if isSMultiple phase then (index0 tr onset).toNat ≤ i else i < (index0 tr onset).toNat) →
      d.getD i 0 = tr.data.getD i 0

/-- The correction of one trace changes nothing but the data, and of the data only the samples in `writeRange`. -/
theorem step_range (nanCase : Trace K → Res (List K)) (phase : Str) (hnan : NanLocal nanCase phase) (ref : K)
    (m m' : SimpleModel K) (tr tr' : Trace K) (hsr : 0 < tr.sr)
    (h : Simple.moveoutStep sqrt find nanCase phase ref m tr = (m', .ok tr')) :
    tr' = { tr with data := tr'.data } ∧ tr'.data.length = tr.npts ∧
    ∀ i, ¬ ((writeRange sqrt phase ref m tr).1 ≤ i ∧ i < (writeRange sqrt phase ref m tr).2) → i < tr.npts →
      tr'.data.getD i 0 = tr.data.getD i 0 := by
  unfold Simple.moveoutStep at h
  unfold writeRange
  cases hon : tr.getTime "onset" with
  | none => rw [hon] at h; cases h
  | some onset =>
    rw [hon] at h
    simp only at h ⊢
    split at h
    · cases h
    rename_i hin
    rw [not_not] at hin
    cases hsl : tr.getNum "slowness" with
    | none => rw [hsl] at h; cases h
    | some s =>
      rw [hsl] at h
      simp only at h ⊢
      obtain ⟨b0, b1, b2⟩ := index0_bounds tr onset hsr hin.1 hin.2
      cases hstr : stretch sqrt m s phase ref with
      | mk m1 res =>
        rw [hstr] at h
        cases res with
        | error e => cases h
        | ok tt =>
          obtain ⟨t0, t1⟩ := tt
          simp only at h ⊢
          have key : ∀ r : Res (List K),
              (match r with
                | .error e => (m1, Except.error e)
                | .ok d => (m1, Except.ok { tr with data := d })) = ((m', .ok tr') : SimpleModel K × Res (Trace K)) →
              ∃ d, r = .ok d ∧ tr' = { tr with data := d } := by
            intro r hr
            cases r with
            | error e => cases hr
            | ok d =>
              simp only [Prod.mk.injEq, Except.ok.injEq] at hr
              exact ⟨d, rfl, hr.2.symm⟩
          obtain ⟨d, hd, rfl⟩ := key _ h
          refine ⟨rfl, ?_⟩
          simp only
          clear key h
          have hnanCase : nanCase tr = .ok d → d.length = tr.npts ∧
              ∀ i, ¬ ((if isSMultiple phase then (0, (index0 tr onset).toNat) else
                ((index0 tr onset).toNat, tr.npts)).1 ≤ i ∧ i < (if isSMultiple phase then
                (0, (index0 tr onset).toNat) else ((index0 tr onset).toNat, tr.npts)).2) → i < tr.npts →
                d.getD i 0 = tr.data.getD i 0 := by
            intro h
            obtain ⟨h1, h2⟩ := hnan tr onset d h hon
            refine ⟨h1, fun i hi hi2 => h2 i ?_⟩
            cases hS : isSMultiple phase with
            | true =>
              rw [hS] at hi
              simp only [if_true] at hi ⊢
              omega
            | false =>
              rw [hS] at hi
              simp only [Bool.false_eq_true, if_false] at hi ⊢
              omega
          cases h0 : allSome t0 with
          | none =>
            rw [h0] at hd
            exact hnanCase hd
          | some l0 =>
            cases h1 : allSome t1 with
            | none =>
              rw [h0, h1] at hd
              exact hnanCase hd
            | some l1 =>
              rw [h0, h1] at hd
              simp only at hd ⊢
              clear hnanCase
              obtain ⟨c1, -, -⟩ := C34_length_and_prefix find tr onset phase l0 l1 d hsr hin.1 hin.2 hd
              refine ⟨c1, ?_⟩
              have hle : index0 tr onset ≤ (tr.data.length : Int) := by
                by_cases hn : tr.npts = 0
                · rw [b2 hn]; omega
                · have := b1 hn; unfold Trace.npts at this; omega
              unfold moveoutData at hd
              cases hS : isSMultiple phase with
              | true =>
                rw [hS, if_pos rfl] at hd
                simp only [if_true]
                obtain ⟨p1, p2, p3, p4, rfl⟩ := moveoutS_ok find tr onset l0 l1 d hd
                have hc := clampIdx_le b0 hle
                intro i hi hi2
                rw [List.getD_eq_getElem?_getD, List.getD_eq_getElem?_getD,
                  List.getElem?_append_right (by simp; omega)]
                simp only [List.length_reverse, List.length_map, List.length_range, sliceFrom, hc,
                  List.getElem?_drop]
                congr 2
                omega
              | false =>
                rw [hS, if_neg (by simp)] at hd
                simp only [Bool.false_eq_true, if_false]
                obtain ⟨a, b, ha, hb, p1, p2, p3, p4, rfl⟩ := moveoutP_ok find tr onset l0 l1 d hd
                rw [getItem_last l0 a 0 ha, getItem_last l1 b 0 hb]
                have hpos : tr.npts ≠ 0 := by
                  intro hn; apply p4; simp [hn]
                have hi0 : index0 tr onset ≤ (if a > b then index0 tr onset + 1 else index0 tr onset) := by
                  split <;> omega
                have hle' : (if a > b then index0 tr onset + 1 else index0 tr onset) ≤ (tr.data.length : Int) := by
                  have := b1 hpos
                  unfold Trace.npts at this
                  split <;> omega
                have hc := clampIdx_le (by omega) hle'
                generalize (if a > b then index0 tr onset + 1 else index0 tr onset) = i0 at *
                intro i hi hi2
                have hi3 : i < i0.toNat := by omega
                unfold Trace.npts at hi2
                rw [List.getD_eq_getElem?_getD, List.getD_eq_getElem?_getD,
                  List.getElem?_append_left (by simp [sliceTo, hc]; omega)]
                simp only [sliceTo, hc]
                rw [List.getElem?_take, if_pos hi3]

theorem ext_getD {α : Type} (d : α) (l k : List α) (hl : l.length = k.length)
    (h : ∀ i < l.length, l.getD i d = k.getD i d) : l = k := by
  apply List.ext_getElem hl
  intro i h1 h2
  have := h i h1
  rwa [List.getD_eq_getElem?_getD, List.getD_eq_getElem?_getD, List.getElem?_eq_getElem h1,
    List.getElem?_eq_getElem h2] at this

/-- The headers are not touched by the assignment. -/
theorem write_objs (w : World K) (v : View) (a b : Nat) (d : List K) : (w.write v a b d).objs = w.objs := rfl

theorem write_dtype (w : World K) (v : View) (a b : Nat) (d : List K) (n : Nat) :
    ((w.write v a b d).bufs n).dtype = (w.bufs n).dtype := by
  unfold World.write
  simp only
  split <;> rfl

/-- C161.  One trace: the samples to which the code assigns get the corrected values, converted to the element type of
the array. -/
theorem C161_step_partial (nanCase : Trace K → Res (List K)) (phase : Str) (hnan : NanLocal nanCase phase) (ref : K)
    (m m' : SimpleModel K) (w w' : World K) (r : Nat) (hsr : 0 < (w.objs r).head.sr)
    (h : Buffers.moveoutStep sqrt find nanCase phase ref m w r = (m', .ok w')) :
    ∃ tr, Simple.moveoutStep sqrt find nanCase phase ref m (w.value r) = (m', .ok tr) ∧
      tr.data.length = (w.value r).npts ∧
      w'.value r = { w.value r with data := (w'.value r).data } ∧ (w'.value r).data.length = (w.value r).npts ∧
      ∀ i < (w.value r).npts, (w'.value r).data.getD i 0 =
        if (writeRange sqrt phase ref m (w.value r)).1 ≤ i ∧ i < (writeRange sqrt phase ref m (w.value r)).2
        then stored (w.bufs (w.objs r).view.buf).dtype (tr.data.getD i 0) else (w.value r).data.getD i 0 := by
  unfold Buffers.moveoutStep at h
  cases hm : Simple.moveoutStep sqrt find nanCase phase ref m (w.value r) with
  | mk m1 res =>
    rw [hm] at h
    cases res with
    | error e => cases h
    | ok tr =>
      simp only [Prod.mk.injEq, Except.ok.injEq] at h
      obtain ⟨rfl, rfl⟩ := h
      obtain ⟨-, h2, -⟩ := step_range sqrt find nanCase phase hnan ref m m1 (w.value r) tr hsr hm
      refine ⟨tr, rfl, h2, rfl, ?_, ?_⟩
      · rw [value_npts]
        exact read_length _ _
      · intro i hi
        rw [value_npts] at hi
        exact write_self w (w.objs r).view _ _ tr.data i hi 0

/-- C160.  One trace: other traces do not change if they do not share cells with it. -/
theorem step_other (nanCase : Trace K → Res (List K)) (phase : Str) (ref : K) (m m' : SimpleModel K) (w w' : World K)
    (r q : Nat) (hd : (w.objs r).view.Disjoint (w.objs q).view)
    (h : Buffers.moveoutStep sqrt find nanCase phase ref m w r = (m', .ok w')) :
    w'.value q = w.value q := by
  unfold Buffers.moveoutStep at h
  cases hm : Simple.moveoutStep sqrt find nanCase phase ref m (w.value r) with
  | mk m1 res =>
    rw [hm] at h
    cases res with
    | error e => cases h
    | ok tr =>
      simp only [Prod.mk.injEq, Except.ok.injEq] at h
      obtain ⟨rfl, rfl⟩ := h
      unfold World.value
      rw [write_objs, write_other _ _ _ hd]

/-- With floating point samples the correction on arrays is the correction of the value. -/
theorem step_float (nanCase : Trace K → Res (List K)) (phase : Str) (hnan : NanLocal nanCase phase) (ref : K)
    (m : SimpleModel K) (w : World K) (r : Nat) (hsr : 0 < (w.objs r).head.sr)
    (hf : (w.bufs (w.objs r).view.buf).dtype = .float) :
    (∃ m' e, Simple.moveoutStep sqrt find nanCase phase ref m (w.value r) = (m', .error e) ∧
      Buffers.moveoutStep sqrt find nanCase phase ref m w r = (m', .error e)) ∨
    (∃ m' tr w', Simple.moveoutStep sqrt find nanCase phase ref m (w.value r) = (m', .ok tr) ∧
      Buffers.moveoutStep sqrt find nanCase phase ref m w r = (m', .ok w') ∧ w'.value r = tr ∧
      w'.objs = w.objs ∧ ∀ n, (w'.bufs n).dtype = (w.bufs n).dtype) := by
  cases hm : Simple.moveoutStep sqrt find nanCase phase ref m (w.value r) with
  | mk m1 res =>
    cases res with
    | error e =>
      left
      refine ⟨m1, e, rfl, ?_⟩
      unfold Buffers.moveoutStep
      rw [hm]
    | ok tr =>
      right
      have hB : Buffers.moveoutStep sqrt find nanCase phase ref m w r = (m1, .ok (w.write (w.objs r).view
          (writeRange sqrt phase ref m (w.value r)).1 (writeRange sqrt phase ref m (w.value r)).2 tr.data)) := by
        unfold Buffers.moveoutStep
        rw [hm]
      refine ⟨m1, tr, _, rfl, hB, ?_, rfl, fun n => write_dtype _ _ _ _ _ _⟩
      obtain ⟨tr2, h1, h2, h3, h4, h5⟩ := C161_step_partial sqrt find nanCase phase hnan ref m m1 w _ r hsr hB
      rw [hm] at h1
      simp only [Prod.mk.injEq, Except.ok.injEq, true_and] at h1
      subst h1
      obtain ⟨g1, -, g3⟩ := step_range sqrt find nanCase phase hnan ref m m1 (w.value r) tr hsr hm
      have hdata := ext_getD (0 : K) _ _ (h4.trans h2.symm) fun i hi => by
        rw [h4] at hi
        rw [h5 i hi, hf]
        split
        · rfl
        · rename_i hr
          exact (g3 i hr hi).symm
      rw [hdata] at h3
      exact h3.trans g1.symm

/-- C160.  The move out correction of a stream whose traces have floating point samples in disjoint parts of the
memory is the correction of the values (the model used for all other properties): same outcome, same model, and each
trace of the stream has the corrected samples.  Traces which share no cell with a trace of the stream do not change. -/
theorem C160_values (nanCase : Trace K → Res (List K)) (phase : Str) (hnan : NanLocal nanCase phase) (ref : K)
    (s all : List Nat) (m : SimpleModel K) (w : World K) (h : Heap K) (hs : ∀ r ∈ s, r ∈ all)
    (hv : ∀ r ∈ all, w.value r = h r) (hsr : ∀ r ∈ all, 0 < (w.objs r).head.sr)
    (hf : ∀ r ∈ s, (w.bufs (w.objs r).view.buf).dtype = .float)
    (hd : ∀ r ∈ s, ∀ q ∈ all, r ≠ q → (w.objs r).view.Disjoint (w.objs q).view) :
    ∃ m' w' h' e, Buffers.moveout sqrt find nanCase phase ref m w s = (m', w', e) ∧
      Simple.moveout sqrt find nanCase phase ref m h s = (m', h', e) ∧ (∀ r ∈ all, w'.value r = h' r) ∧
      w'.objs = w.objs := by
  induction s generalizing m w h with
  | nil => exact ⟨m, w, h, none, rfl, rfl, hv, rfl⟩
  | cons r s ih =>
    have hr : r ∈ all := hs r List.mem_cons_self
    unfold Buffers.moveout Simple.moveout
    rw [← hv r hr]
    rcases step_float sqrt find nanCase phase hnan ref m w r (hsr r hr) (hf r List.mem_cons_self) with
      ⟨m1, e, h1, h2⟩ | ⟨m1, tr, w1, h1, h2, h3, h4, h5⟩
    · rw [h1, h2]
      exact ⟨m1, w, h, some e, rfl, rfl, hv, rfl⟩
    · rw [h1, h2]
      simp only
      obtain ⟨m', w', h', e, g1, g2, g3, g4⟩ := ih m1 w1 (h.set r tr) (fun q hq => hs q (List.mem_cons_of_mem _ hq))
        (fun q hq => by
          unfold Heap.set
          by_cases hqr : q = r
          · rw [if_pos hqr, hqr, h3]
          · rw [if_neg hqr, step_other sqrt find nanCase phase ref m m1 w w1 r q
              (hd r List.mem_cons_self q hq (Ne.symm hqr)) h2, hv q hq])
        (fun q hq => by rw [h4]; exact hsr q hq)
        (fun q hq => by rw [h5, h4]; exact hf q (List.mem_cons_of_mem _ hq))
        (fun q hq p hp hne => by rw [h4]; exact hd q (List.mem_cons_of_mem _ hq) p hp hne)
      exact ⟨m', w', h', e, g1, g2, g3, by rw [g4, h4]⟩

/-- C160.  Whatever the outcome, the element types and the input: a trace which shares no cell with the traces of the
stream does not change. -/
theorem C160_others_partial (nanCase : Trace K → Res (List K)) (phase : Str) (ref : K) (s : List Nat)
    (m : SimpleModel K) (w : World K) (q : Nat) (hd : ∀ r ∈ s, (w.objs r).view.Disjoint (w.objs q).view) :
    (Buffers.moveout sqrt find nanCase phase ref m w s).2.1.value q = w.value q := by
  induction s generalizing m w with
  | nil => rfl
  | cons r s ih =>
    unfold Buffers.moveout
    cases hm : Buffers.moveoutStep sqrt find nanCase phase ref m w r with
    | mk m1 res =>
      cases res with
      | error e => rfl
      | ok w1 =>
        simp only
        have ho : w1.objs = w.objs := by
          unfold Buffers.moveoutStep at hm
          split at hm
          · cases hm
          · simp only [Prod.mk.injEq, Except.ok.injEq] at hm
            rw [← hm.2]
            rfl
        rw [ih m1 w1 (fun p hp => by rw [ho]; exact hd p (List.mem_cons_of_mem _ hp)),
          step_other sqrt find nanCase phase ref m m1 w w1 r q (hd r List.mem_cons_self) hm]

/-! ## Witnesses -/

/-- The three layers of `pyModel` with rational numbers; all roots needed are rational. -/
def bufModel : SimpleModel ℚ := ⟨[0, 0, 78], [0, 78, 78], [6, 6, 6], [39 / 10, 39 / 10, 39 / 10], []⟩

/-- Header of a trace with sampling interval 3.5 s, onset at the first sample. -/
def bufHead : Trace ℚ :=
  ⟨[], "STA".toList, [], ['Q'], 0, 2 / 7, [], [("onset", .time 0), ("slowness", .num (12 / 78 * (1112 / 10)))]⟩

/-- A trace of eight samples. -/
def bufWorld (t : DType) : World ℚ :=
  ⟨fun _ => ⟨t, fun c => [0, 0, 0, 3, 5, 0, 0, 0].getD c 0⟩, fun _ => ⟨bufHead, ⟨0, 0, 8, false⟩⟩⟩

def bufMoveout (w : World ℚ) (s : List Nat) : SimpleModel ℚ × World ℚ × Option PyErr :=
  Buffers.moveout Rat.sqrt npFind (fun _ => .error .other) "Ps".toList 0 bufModel w s

/-- C160 as stated is false: the move out correction of a slice (trace 1, the first seven samples of trace 0) changes
the original; the correction of an `RFStream` made of a stream changes the samples of this stream. -/
theorem C160_counterexample :
    let w := (bufWorld .float).slice 0 1 0 7
    let w2 := (bufWorld .float).wrap 0 1
    ((w.value 0).data = [0, 0, 0, 3, 5, 0, 0, 0] ∧ (bufMoveout w [1]).2.2 = none ∧
      ((bufMoveout w [1]).2.1.value 0).data ≠ [0, 0, 0, 3, 5, 0, 0, 0]) ∧
    ((w2.value 0).data = [0, 0, 0, 3, 5, 0, 0, 0] ∧ (bufMoveout w2 [1]).2.2 = none ∧
      ((bufMoveout w2 [1]).2.1.value 0).data ≠ [0, 0, 0, 3, 5, 0, 0, 0]) := by
  decide +kernel

/-- The roots in this example are exact: `Rat.sqrt` is evaluated at squares. -/
theorem bufModel_roots : ∀ v ∈ [(6 : ℚ), 39 / 10], ∀ s ∈ [(12 / 78 * (1112 / 10) : ℚ), 0],
    Rat.sqrt ((v⁻¹) ^ 2 - (s / deg2km) ^ 2) ^ 2 = (v⁻¹) ^ 2 - (s / deg2km) ^ 2 := by
  decide +kernel

/-- The original is not changed by the correction of a copy, that is of a trace with an array of its own. -/
example : ((bufMoveout ((bufWorld .float).rebind 1 1 id) [1]).2.1.value 0) = (bufWorld .float).value 0 :=
  C160_others_partial Rat.sqrt npFind (fun _ => .error .other) "Ps".toList 0 [1] bufModel _ 0 (by
    intro r hr
    rw [List.mem_singleton] at hr
    subst hr
    left
    decide)

/-- C160 applies to two traces in different parts of one array. -/
example : ∃ m' w' h' e, Buffers.moveout Rat.sqrt npFind (fun _ => .error .other) "Ps".toList 0 bufModel
      (((bufWorld .float).slice 0 1 0 4).slice 0 2 4 4) [1, 2] = (m', w', e) ∧
    Simple.moveout Rat.sqrt npFind (fun _ => .error .other) "Ps".toList 0 bufModel
      (fun r => (((bufWorld .float).slice 0 1 0 4).slice 0 2 4 4).value r) [1, 2] = (m', h', e) ∧
    (∀ r ∈ [1, 2], w'.value r = h' r) ∧ w'.objs = (((bufWorld .float).slice 0 1 0 4).slice 0 2 4 4).objs := by
  refine C160_values Rat.sqrt npFind _ _ ?_ _ [1, 2] [1, 2] bufModel _ _ (fun r hr => hr) (fun r _ => rfl) ?_ ?_ ?_
  · intro tr onset d h
    cases h
  · intro r hr
    simp only [List.mem_cons, List.not_mem_nil, or_false] at hr
    rcases hr with rfl | rfl <;> decide +kernel
  · intro r hr
    rfl
  · intro r hr q hq hne
    simp only [List.mem_cons, List.not_mem_nil, or_false] at hr hq
    rcases hr with rfl | rfl <;> rcases hq with rfl | rfl
    · exact absurd rfl hne
    · right; left; decide +kernel
    · right; right; decide +kernel
    · exact absurd rfl hne

/-- C161.  The conversion to the element type: exact for floating point arrays; for arrays of integers the corrected
value is cut towards zero, which changes it by less than 1. -/
theorem C161_cast (x : K) : stored .float x = x ∧ |stored .int x| ≤ |x| ∧ |x - stored .int x| < 1 ∧
    ∃ n : ℤ, stored .int x = n := by
  refine ⟨rfl, ?_⟩
  simp only [stored]
  split
  · rename_i h
    have h1 := Int.floor_le x
    have h2 := Int.lt_floor_add_one x
    have h3 : (0 : K) ≤ (⌊x⌋ : K) := by exact_mod_cast Int.floor_nonneg.2 h
    refine ⟨?_, ?_, _, rfl⟩
    · rw [abs_of_nonneg h, abs_of_nonneg h3]; exact h1
    · rw [abs_lt]; constructor <;> linarith
  · rename_i h
    rw [not_le] at h
    have h1 := Int.le_ceil x
    have h2 := Int.ceil_lt_add_one x
    have h3 : (⌈x⌉ : K) ≤ 0 := by exact_mod_cast Int.ceil_le.2 (by simpa using h.le)
    refine ⟨?_, ?_, _, rfl⟩
    · rw [abs_of_neg h, abs_of_nonpos h3]; linarith
    · rw [abs_lt]; constructor <;> linarith

/-- A trace of integers with a conversion of amplitude 1. -/
def intWorld (t : DType) : World ℚ :=
  ⟨fun _ => ⟨t, fun c => [0, 0, 0, 0, 1, 0, 0, 0].getD c 0⟩, fun _ => ⟨bufHead, ⟨0, 0, 8, false⟩⟩⟩

/-- C161 as stated is false: for an array of integers the interpolated values are cut; a conversion of amplitude 1
vanishes completely, while the same samples as floating point numbers keep it. -/
theorem C161_counterexample :
    ((intWorld .int).value 0).data = ((intWorld .float).value 0).data ∧
    ((bufMoveout (intWorld .float) [0]).2.1.value 0).data = [0, 0, 1 / 7, 2 / 7, 0, 0, 0, 0] ∧
    ((bufMoveout (intWorld .int) [0]).2.1.value 0).data = [0, 0, 0, 0, 0, 0, 0, 0] ∧
    (bufMoveout (intWorld .int) [0]).2.2 = none := by
  decide +kernel

end Verif.Props
