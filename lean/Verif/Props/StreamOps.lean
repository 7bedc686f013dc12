import Verif.Props.StreamRf
import Verif.Props.MoveoutStream
import Verif.Props.Freq
import Mathlib.Algebra.BigOperators.Group.List.Basic

/-!
# `RFStream.moveout`, `stack`, `trim2` and `slice2` (C40, C47-C49)
-/

set_option linter.unusedSimpArgs false
set_option linter.unusedSectionVars false

namespace Verif.Props
open Verif.Py Verif.Model Verif.Spec

section moveout
variable {K : Type} [Field K] [LinearOrder K] [FloorRing K]
  (sqrt : K → K) (find : List K → K → Nat) (nanCase : Trace K → Res (List K))

/-- `model.moveout` changes samples only, on success every trace has a slowness. -/
theorem moveout_ext (p : Str) (ref : K) (m : Simple.SimpleModel K) (h : Heap K) (s : List Nat) :
    (∀ r, ((Simple.moveout sqrt find nanCase p ref m h s).2.1 r).ext = (h r).ext) ∧
    ((Simple.moveout sqrt find nanCase p ref m h s).2.2 = none →
      ∀ r ∈ s, ∃ x, (h r).ext.get "slowness" = some (.num x)) := by
  induction s generalizing m h with
  | nil => exact ⟨fun _ => rfl, fun _ r hr => by simp at hr⟩
  | cons a s ih =>
    unfold Simple.moveout
    have hstep : ∀ m' tr, Simple.moveoutStep sqrt find nanCase p ref m (h a) = (m', .ok tr) →
        tr.ext = (h a).ext ∧ ∃ x, (h a).ext.get "slowness" = some (.num x) := by
      intro m' tr hs
      unfold Simple.moveoutStep at hs
      split at hs
      · simp at hs
      · split at hs
        · simp at hs
        · split at hs
          · simp at hs
          · rename_i slow hslow
            have hx : (h a).ext.get "slowness" = some (.num slow) := by
              unfold Trace.getNum at hslow
              split at hslow
              · rename_i x hx; rw [hx]; simpa using hslow
              · simp at hslow
            split at hs
            · simp at hs
            · simp only [] at hs
              split at hs
              · simp at hs
              · simp only [Prod.mk.injEq, Except.ok.injEq] at hs
                rw [← hs.2]
                exact ⟨rfl, _, hx⟩
    cases hs : Simple.moveoutStep sqrt find nanCase p ref m (h a) with
    | mk m' res =>
      cases res with
      | error e => exact ⟨fun _ => rfl, fun hh => by simp at hh⟩
      | ok tr =>
        obtain ⟨e1, e2⟩ := hstep m' tr hs
        obtain ⟨i1, i2⟩ := ih m' (h.set a tr)
        have hset : ∀ r, ((h.set a tr) r).ext = (h r).ext := by
          intro r
          by_cases hr : r = a
          · subst hr; rw [Heap.set_self, e1]
          · rw [Heap.set_ne _ _ hr]
        refine ⟨fun r => (i1 r).trans (hset r), fun hh r hr => ?_⟩
        rcases List.mem_cons.1 hr with rfl | hr
        · exact e2
        · have := i2 hh r hr
          rwa [hset] at this

theorem moveoutLabel_ok (p : Str) (ref : K) (t : Trace K) (v : Val K)
    (hv : t.ext.get "slowness" = some v) :
    ∃ t', moveoutLabel p ref t = .ok t' ∧ t'.ext.get "moveout" = some (.str p) ∧
      t'.ext.get "slowness" = some (.num ref) ∧ t'.ext.get "slowness_before_moveout" = some v ∧
      t'.data = t.data ∧ t'.start = t.start ∧ t'.sr = t.sr ∧ t'.id = t.id ∧
      ∀ k, k ∉ ["moveout", "slowness", "slowness_before_moveout"] → t'.ext.get k = t.ext.get k := by
  refine ⟨((t.put "moveout" (.str p)).put "slowness_before_moveout" v).put "slowness" (.num ref),
    ?_, ?_, ?_, ?_, rfl, rfl, rfl, rfl, ?_⟩
  · unfold moveoutLabel
    rw [put_get, if_neg (by decide), hv]
  · rw [put_get, if_neg (by decide), put_get, if_neg (by decide), put_get, if_pos rfl]
  · rw [put_get, if_pos rfl]
  · rw [put_get, if_neg (by decide), put_get, if_pos rfl]
  · intro k hk
    simp only [List.mem_cons, List.not_mem_nil, or_false, not_or] at hk
    rw [put_get, if_neg hk.2.1, put_get, if_neg hk.2.2, put_get, if_neg hk.1]

/-- The labelling loop never fails if all traces have a slowness. -/
theorem moveoutLabel_loop (p : Str) (ref : K) (h : Heap K) (s : List Nat)
    (hs : ∀ r ∈ s, ∃ v, (h r).ext.get "slowness" = some v) :
    (Heap.forEachE (moveoutLabel p ref) h s).2 = none := by
  induction s generalizing h with
  | nil => rfl
  | cons a s ih =>
    obtain ⟨v, hv⟩ := hs a List.mem_cons_self
    obtain ⟨t', ht, -, hslow, -⟩ := moveoutLabel_ok p ref (h a) v hv
    unfold Heap.forEachE
    rw [ht]
    refine ih _ (fun r hr => ?_)
    by_cases e : r = a
    · subst e; rw [Heap.set_self]; exact ⟨_, hslow⟩
    · rw [Heap.set_ne _ _ e]; exact hs r (List.mem_cons_of_mem _ hr)

/-- C40.  After a successful moveout every trace (of a stream of distinct traces) is labelled with the
phase and the reference slowness and remembers its previous slowness; other entries (the history
apart) are kept, traces outside of the stream as well. -/
theorem C40_bookkeeping (info : Str) (phase : Option Str) (ref : K) (m m' : Simple.SimpleModel K)
    (st st' : SState K) (hn : st.2.Nodup)
    (hok : streamMoveout sqrt find nanCase info phase ref m st = (m', st', none)) :
    st'.2 = st.2 ∧ ∃ p, moveoutPhase st.1 st.2 phase = .ok p ∧ ∀ r ∈ st.2,
      (st'.1 r).ext.get "moveout" = some (.str p) ∧
      (st'.1 r).ext.get "slowness" = some (.num ref) ∧
      (st'.1 r).ext.get "slowness_before_moveout" = (st.1 r).ext.get "slowness" ∧
      (∃ x, (st.1 r).ext.get "slowness" = some (.num x)) ∧
      ∀ k, k ∉ ["moveout", "slowness", "slowness_before_moveout", "processing"] →
        (st'.1 r).ext.get k = (st.1 r).ext.get k := by
  unfold streamMoveout at hok
  cases hp : moveoutPhase st.1 st.2 phase with
  | error e => rw [hp] at hok; simp at hok
  | ok p =>
    rw [hp] at hok
    simp only [] at hok
    obtain ⟨x1, x2⟩ := moveout_ext sqrt find nanCase p ref m st.1 st.2
    cases hm : Simple.moveout sqrt find nanCase p ref m st.1 st.2 with
    | mk m1 rest =>
      obtain ⟨h1, e1⟩ := rest
      rw [hm] at hok x1 x2
      simp only [] at hok x1 x2
      cases e1 with
      | some e => simp at hok
      | none =>
        simp only [] at hok
        have hslow := x2 rfl
        cases hl : Heap.forEachE (moveoutLabel p ref) h1 st.2 with
        | mk h2 e2 =>
          rw [hl] at hok
          cases e2 with
          | some e => simp at hok
          | none =>
            simp only [Prod.mk.injEq, and_true] at hok
            obtain ⟨-, rfl⟩ := hok
            refine ⟨rfl, p, rfl, fun r hr => ?_⟩
            obtain ⟨x, hx⟩ := hslow r hr
            have hx1 : (h1 r).ext.get "slowness" = some (.num x) := by rw [x1 r]; exact hx
            have happ := (Heap.forEachE_ok _ _ _ _ hn hl r).1 hr
            obtain ⟨t', ht, b1, b2, b3, -, -, -, -, b4⟩ := moveoutLabel_ok p ref (h1 r) _ hx1
            rw [ht] at happ
            injection happ with happ
            subst happ
            simp only []
            have hk : ∀ k, k ≠ "processing" → (addInfoAll info h2 st.2 r).ext.get k
              = (h2 r).ext.get k := fun k hk => addInfoAll_get _ _ _ _ _ hk
            refine ⟨by rw [hk _ (by decide), b1], by rw [hk _ (by decide), b2],
              by rw [hk _ (by decide), b3, hx], ⟨x, hx⟩, fun k hkk => ?_⟩
            simp only [List.mem_cons, List.not_mem_nil, or_false, not_or] at hkk
            rw [hk k hkk.2.2.2, b4 k (by simp [hkk]), x1 r]

/-- C40, failure: if moveout raises, no header entry of any trace has been changed. -/
theorem C40_failure (info : Str) (phase : Option Str) (ref : K) (m m' : Simple.SimpleModel K)
    (st st' : SState K) (e : PyErr)
    (herr : streamMoveout sqrt find nanCase info phase ref m st = (m', st', some e)) :
    st'.2 = st.2 ∧ ∀ r, (st'.1 r).ext = (st.1 r).ext := by
  unfold streamMoveout at herr
  cases hp : moveoutPhase st.1 st.2 phase with
  | error e =>
    rw [hp] at herr
    simp only [Prod.mk.injEq] at herr
    rw [← herr.2.1]
    exact ⟨rfl, fun _ => rfl⟩
  | ok p =>
    rw [hp] at herr
    simp only [] at herr
    obtain ⟨x1, x2⟩ := moveout_ext sqrt find nanCase p ref m st.1 st.2
    cases hm : Simple.moveout sqrt find nanCase p ref m st.1 st.2 with
    | mk m1 rest =>
      obtain ⟨h1, e1⟩ := rest
      rw [hm] at herr x1 x2
      simp only [] at herr x1 x2
      cases e1 with
      | some e =>
        simp only [Prod.mk.injEq] at herr
        rw [← herr.2.1]
        exact ⟨rfl, x1⟩
      | none =>
        simp only [] at herr
        have hslow := x2 rfl
        have hloop := moveoutLabel_loop p ref h1 st.2 (fun r hr => by
          obtain ⟨x, hx⟩ := hslow r hr
          exact ⟨_, by rw [x1 r]; exact hx⟩)
        cases hl : Heap.forEachE (moveoutLabel p ref) h1 st.2 with
        | mk h2 e2 =>
          rw [hl] at herr hloop
          simp only [] at hloop
          subst hloop
          simp at herr

/-- C40, default phase: Ps for a stream of P, Sp for a stream of S receiver functions (according to the
last letter of the common phase); `KeyError` without a common phase or with another letter. -/
theorem C40_default_phase (h : Heap K) (s : List Nat) :
    (∀ (p : Str) (c : Char), CommonEntry h s "phase" (.str (p ++ [c])) →
      (c.toUpper = 'P' → moveoutPhase h s none = .ok "Ps".toList) ∧
      (c.toUpper = 'S' → moveoutPhase h s none = .ok "Sp".toList) ∧
      (c.toUpper ≠ 'P' → c.toUpper ≠ 'S' → moveoutPhase h s none = .error .keyError)) ∧
    ((¬ ∃ v, CommonEntry h s "phase" v) → moveoutPhase h s none = .error .keyError) ∧
    (∀ p, moveoutPhase h s (some p) = .ok p) := by
  refine ⟨fun p c hc => ?_, fun hno => ?_, fun p => rfl⟩
  · have hm : streamMethod h s = .ok (some [c.toUpper]) := by
      unfold streamMethod
      rw [(uniqueHeader_eq_some h s "phase" _).2 hc]
      simp [upper]
    unfold moveoutPhase
    simp only [hm]
    refine ⟨fun e => ?_, fun e => ?_, fun e1 e2 => ?_⟩
    · rw [e]; rfl
    · rw [e]; rfl
    · rw [if_neg, if_neg]
      · intro hh
        have : [c.toUpper] = ['S'] := hh
        simp only [List.cons.injEq, and_true] at this
        exact e2 this
      · intro hh
        have : [c.toUpper] = ['P'] := hh
        simp only [List.cons.injEq, and_true] at this
        exact e1 this
  · unfold moveoutPhase streamMethod
    simp only [(uniqueHeader_eq_none h s "phase").2 hno]

end moveout

section cut
variable {K : Type} [Field K]

/-- The window end that ObsPy's `trim` gets for an argument, a trace and a reference:
absolute times (and `None`) as they are, relative ones counted from the reference of this
trace. -/
inductive WindowEnd (t : Trace K) : TArg K → RefTime K → TArg K → Prop
  | none (ref) : WindowEnd t .none ref .none
  | utc (u ref) : WindowEnd t (.utc u) ref (.utc u)
  | noRef (d) : WindowEnd t (.sec d) .none (.sec d)
  | refUtc (d u) : WindowEnd t (.sec d) (.utc u) (.utc (u + d))
  | start (d) : WindowEnd t (.sec d) (.key "starttime") (.utc (t.start + d))
  | end_ (d) : WindowEnd t (.sec d) (.key "endtime") (.utc (t.endtime + d))
  | entry (d k x) : k ≠ "starttime" → k ≠ "endtime" → t.ext.get k = some (.time x) →
      WindowEnd t (.sec d) (.key k) (.utc (x + d))
  | number (d k x) : k ≠ "starttime" → k ≠ "endtime" → t.ext.get k = some (.num x) →
      WindowEnd t (.sec d) (.key k) (.sec (x + d))

theorem windowEnd_iff (t : Trace K) (x : TArg K) (ref : RefTime K) (y : TArg K) :
    seconds2utc t x ref = .ok y ↔ WindowEnd t x ref y := by
  constructor
  · intro h
    unfold seconds2utc at h
    cases x with
    | none => injection h with h; subst h; exact .none _
    | utc u => injection h with h; subst h; exact .utc _ _
    | sec d =>
      cases ref with
      | none => injection h with h; subst h; exact .noRef _
      | utc u => injection h with h; subst h; exact .refUtc _ _
      | key k =>
        simp only [] at h
        unfold statsTime at h
        by_cases h1 : k = "starttime"
        · rw [if_pos h1] at h
          injection h with h; subst h; subst h1; exact .start _
        · rw [if_neg h1] at h
          by_cases h2 : k = "endtime"
          · rw [if_pos h2] at h
            injection h with h; subst h; subst h2; exact .end_ _
          · rw [if_neg h2] at h
            cases hk : t.ext.get k with
            | none => rw [hk] at h; simp at h
            | some v =>
              rw [hk] at h
              cases v with
              | time u => injection h with h; subst h; exact .entry _ _ _ h1 h2 hk
              | num u => injection h with h; subst h; exact .number _ _ _ h1 h2 hk
              | str _ => simp at h
              | list _ => simp at h
  · intro h
    cases h with
    | none => rfl
    | utc => rfl
    | noRef => rfl
    | refUtc => rfl
    | start => simp [seconds2utc, statsTime]
    | end_ => simp [seconds2utc, statsTime]
    | entry d k x h1 h2 h3 => simp [seconds2utc, statsTime, h1, h2, h3]
    | number d k x h1 h2 h3 => simp [seconds2utc, statsTime, h1, h2, h3]

theorem cutTrace_ok (trim : Trace K → TArg K → TArg K → Res (Trace K)) (a b : TArg K)
    (ref : RefTime K) (t t' : Trace K) : cutTrace trim a b ref t = .ok t' ↔
      ∃ x y, WindowEnd t a ref x ∧ WindowEnd t b ref y ∧ trim t x y = .ok t' := by
  unfold cutTrace
  constructor
  · intro h
    cases ha : seconds2utc t a ref with
    | error e => rw [ha] at h; simp at h
    | ok x =>
      rw [ha] at h
      cases hb : seconds2utc t b ref with
      | error e => rw [hb] at h; simp at h
      | ok y =>
        rw [hb] at h
        exact ⟨x, y, (windowEnd_iff t a ref x).1 ha, (windowEnd_iff t b ref y).1 hb, h⟩
  · rintro ⟨x, y, hx, hy, h⟩
    rw [(windowEnd_iff t a ref x).2 hx, (windowEnd_iff t b ref y).2 hy]
    exact h

/-- C49, `trim2` on a stream of distinct traces: every trace is cut to its own window, exactly the traces
without samples are removed and the order is kept. -/
theorem C49_trim2 (trim : Trace K → TArg K → TArg K → Res (Trace K)) (a b : TArg K)
    (ref : RefTime K) (st st' : SState K) (hn : st.2.Nodup)
    (hok : trim2 trim a b ref st = (st', none)) :
    st'.2 = st.2.filter (fun r => (st'.1 r).npts ≠ 0) ∧
    (∀ r ∈ st.2, ∃ x y, WindowEnd (st.1 r) a ref x ∧ WindowEnd (st.1 r) b ref y ∧
      trim (st.1 r) x y = .ok (st'.1 r)) ∧
    (∀ r, r ∉ st.2 → st'.1 r = st.1 r) := by
  unfold trim2 at hok
  cases hl : Heap.forEachE (cutTrace trim a b ref) st.1 st.2 with
  | mk h e =>
    rw [hl] at hok
    cases e with
    | some e => simp at hok
    | none =>
      simp only [Prod.mk.injEq, and_true] at hok
      subst hok
      have := Heap.forEachE_ok _ _ _ _ hn hl
      exact ⟨rfl, fun r hr => (cutTrace_ok _ _ _ _ _ _).1 ((this r).1 hr), fun r hr => (this r).2 hr⟩

/-- An exception or else a value. -/
def raiseOr {α : Type} (e : Option PyErr) (x : α) : Res α :=
  match e with
  | some e => .error e
  | none => .ok x

/-- Values computed by `slice2` for a loop that ends with or without exception. -/
theorem slice2_loop (trim : Trace K → TArg K → TArg K → Res (Trace K)) (a b : TArg K)
    (ref : RefTime K) (keep : Bool) (h h0 h' : Heap K) (s : List Nat) (e : Option PyErr) (hn : s.Nodup)
    (h0eq : ∀ r ∈ s, h0 r = h r)
    (hl : Heap.forEachE (cutTrace trim a b ref) h0 s = (h', e)) :
    slice2 trim a b ref keep h s =
      raiseOr e ((s.filter (fun r => keep || (h' r).npts != 0)).map h') := by
  induction s generalizing h0 with
  | nil =>
    simp only [Heap.forEachE, Prod.mk.injEq] at hl
    rw [← hl.2]; rfl
  | cons r s ih =>
    rw [List.nodup_cons] at hn
    unfold Heap.forEachE at hl
    unfold slice2
    rw [h0eq r List.mem_cons_self] at hl
    cases hc : cutTrace trim a b ref (h r) with
    | error e' =>
      rw [hc] at hl
      simp only [Prod.mk.injEq] at hl
      rw [← hl.2]
      rfl
    | ok t =>
      rw [hc] at hl
      simp only [] at hl ⊢
      have hne : ∀ q ∈ s, q ≠ r := fun q hq e => hn.1 (e ▸ hq)
      rw [ih (h0.set r t) hn.2 (fun q hq => by
        rw [Heap.set_ne _ _ (hne q hq)]; exact h0eq q (List.mem_cons_of_mem _ hq)) hl]
      cases e with
      | some e => rfl
      | none =>
        have hr : h' r = t := by
          have := forEachE_not_mem (cutTrace trim a b ref) (h0.set r t) s r hn.1
          rw [hl] at this
          simpa using this
        simp only [List.filter_cons, hr, raiseOr]
        cases keep <;> by_cases hz : t.npts = 0 <;> simp [hz, hr]

/-- C49, agreement: `slice2` returns the traces that `trim2` leaves in a stream with the same traces (all
of them with `keep_empty_traces=True`), and raises iff `trim2` does. -/
theorem C49_slice2 (trim : Trace K → TArg K → TArg K → Res (Trace K)) (a b : TArg K)
    (ref : RefTime K) (st : SState K) (hn : st.2.Nodup) :
    slice2 trim a b ref false st.1 st.2 = (match trim2 trim a b ref st with
      | (_, some e) => .error e
      | (st', none) => .ok (st'.2.map st'.1)) ∧
    slice2 trim a b ref true st.1 st.2 = (match trim2 trim a b ref st with
      | (_, some e) => .error e
      | (st', none) => .ok (st.2.map st'.1)) := by
  unfold trim2
  cases hl : Heap.forEachE (cutTrace trim a b ref) st.1 st.2 with
  | mk h' e =>
    rw [slice2_loop trim a b ref false st.1 st.1 h' st.2 e hn (fun _ _ => rfl) hl,
      slice2_loop trim a b ref true st.1 st.1 h' st.2 e hn (fun _ _ => rfl) hl]
    cases e with
    | some e => exact ⟨rfl, rfl⟩
    | none =>
      simp only [raiseOr]
      refine ⟨?_, by simp⟩
      congr 2
      apply List.filter_congr
      intro r _
      rw [Bool.false_or, Bool.eq_iff_iff]
      simp

end cut

section stack
variable {K : Type} [Field K] [LinearOrder K]

/-- What Python guarantees about the iteration over `set(l)`: every element once, in some order. -/
def SetOrder (order : List Str → List Str) : Prop :=
  ∀ l, (order l).Nodup ∧ ∀ x, x ∈ order l ↔ x ∈ l

theorem splitOn_ne_nil (c : Char) (s : Str) : splitOn c s ≠ [] := by
  induction s with
  | nil => simp [splitOn]
  | cons d s ih =>
    unfold splitOn
    split
    · simp
    · split <;> simp

theorem joinWith_splitOn (c : Char) (s : Str) : joinWith c (splitOn c s) = s := by
  induction s with
  | nil => rfl
  | cons d s ih =>
    unfold splitOn
    split
    · rename_i h
      subst h
      cases hs : splitOn d s with
      | nil => exact absurd hs (splitOn_ne_nil _ _)
      | cons w ws =>
        rw [hs] at ih
        show [] ++ d :: joinWith d (w :: ws) = d :: s
        rw [ih]; rfl
    · cases hs : splitOn c s with
      | nil => exact absurd hs (splitOn_ne_nil _ _)
      | cons w ws =>
        rw [hs] at ih
        cases ws with
        | nil => simp only [joinWith] at ih ⊢; rw [ih]
        | cons v ws => simp only [joinWith, List.cons_append] at ih ⊢; rw [ih]

/-- A word without separator is not split. -/
theorem splitOn_append (c : Char) (w s : Str) (hw : c ∉ w) :
    splitOn c (w ++ c :: s) = w :: splitOn c s := by
  induction w with
  | nil => simp [splitOn]
  | cons d w ih =>
    simp only [List.mem_cons, not_or] at hw
    rw [List.cons_append, splitOn, if_neg (fun e => hw.1 e.symm), ih hw.2]

theorem splitOn_single (c : Char) (w : Str) (hw : c ∉ w) : splitOn c w = [w] := by
  induction w with
  | nil => simp [splitOn]
  | cons d w ih =>
    simp only [List.mem_cons, not_or] at hw
    unfold splitOn
    rw [if_neg (fun e => hw.1 e.symm), ih hw.2]

theorem splitOn_id (t : Trace K) (h1 : '.' ∉ t.net) (h2 : '.' ∉ t.sta) (h3 : '.' ∉ t.loc)
    (h4 : '.' ∉ t.cha) : splitOn '.' t.id = [t.net, t.sta, t.loc, t.cha] := by
  unfold Trace.id
  rw [splitOn_append _ _ _ h1, splitOn_append _ _ _ h2, splitOn_append _ _ _ h3, splitOn_single _ _ h4]

theorem foldl_zipWith_add (rs : List (List K)) (r : List K) (hl : ∀ q ∈ rs, q.length = r.length) :
    (rs.foldl (fun (a b : List K) => List.zipWith (· + ·) a b) r).length = r.length ∧
    ∀ i, i < r.length → (rs.foldl (fun (a b : List K) => List.zipWith (· + ·) a b) r).getD i 0
      = ((r :: rs).map fun q => q.getD i 0).sum := by
  induction rs generalizing r with
  | nil => simp
  | cons q rs ih =>
    have hq : q.length = r.length := hl q List.mem_cons_self
    have hlen : (List.zipWith (· + ·) r q).length = r.length := by simp [hq]
    obtain ⟨i1, i2⟩ := ih (List.zipWith (· + ·) r q) (fun p hp => by
      rw [hlen]; exact hl p (List.mem_cons_of_mem _ hp))
    simp only [List.foldl_cons]
    refine ⟨i1.trans hlen, fun i hi => ?_⟩
    rw [i2 i (by rw [hlen]; exact hi)]
    simp only [List.map_cons, List.sum_cons]
    rw [getD_zipWith_of_lt _ _ _ 0 0 _ _ hi (by omega)]
    ring

/-- `np.mean(rows, axis=0)` gives the sample means. -/
theorem npMean_ok (rows : List (List K)) (d : List K) (h : npMean rows = .ok d) :
    rows ≠ [] ∧ (∀ q ∈ rows, q.length = d.length) ∧ ∀ i, i < d.length → d.getD i 0 = meanAt rows i := by
  unfold npMean at h
  cases rows with
  | nil => simp at h
  | cons r rs =>
    simp only [] at h
    split at h
    · rename_i hall
      simp only [List.all_eq_true, beq_iff_eq] at hall
      injection h with h
      obtain ⟨f1, f2⟩ := foldl_zipWith_add rs r hall
      have hlen : d.length = r.length := by rw [← h, List.length_map, f1]
      refine ⟨by simp, ?_, ?_⟩
      · intro q hq
        rw [hlen]
        rcases List.mem_cons.1 hq with rfl | hq
        · rfl
        · exact hall q hq
      · intro i hi
        rw [← h, getD_map_of_lt _ _ 0 _ _ (by rw [f1]; omega), f2 i (by omega)]
        unfold meanAt
        simp
    · simp at h

theorem npMean_total (rows : List (List K)) (hne : rows ≠ []) (n : Nat)
    (hl : ∀ q ∈ rows, q.length = n) : ∃ d, npMean rows = .ok d := by
  cases rows with
  | nil => exact absurd rfl hne
  | cons r rs =>
    unfold npMean
    simp only []
    rw [if_pos]
    · exact ⟨_, rfl⟩
    · simp only [List.all_eq_true, beq_iff_eq]
      intro q hq
      rw [hl q (List.mem_cons_of_mem _ hq), hl r List.mem_cons_self]

/-- The parts of a stacked trace. -/
theorem stackOne_ok (h : Heap K) (s : List Nat) (tr t : Trace K) (ident : Str)
    (hok : stackOne h s tr ident = .ok t) :
    t.id = ident ∧ t.start = 0 ∧ t.sr = tr.sr ∧
    npMean ((s.filter (fun r => (h r).id = ident)).map (fun r => (h r).data)) = .ok t.data ∧
    (∀ k ∈ stackEntries, t.ext.get k = tr.ext.get k) ∧
    (∀ o, tr.ext.get "onset" = some (.time o) →
      t.ext.get "onset" = some (.time (t.start + (o - tr.start)))) ∧
    (tr.ext.get "onset" = none → t.ext.get "onset" = none) := by
  unfold stackOne at hok
  split at hok
  · rename_i net sta loc cha hsplit
    have hid : net ++ '.' :: (sta ++ '.' :: (loc ++ '.' :: cha)) = ident := by
      have := joinWith_splitOn '.' ident
      rw [hsplit] at this
      simpa [joinWith] using this
    split at hok
    · simp at hok
    · rename_i d hd
      simp only [] at hok
      have hext : ∀ k, Dict.get (stackEntries.filterMap fun k =>
          (tr.ext.get k).map fun v => (k, v)) k = if k ∈ stackEntries then tr.ext.get k else none := by
        intro k
        generalize stackEntries = l
        induction l with
        | nil => rfl
        | cons a l ih =>
          rw [List.filterMap_cons]
          cases ha : tr.ext.get a with
          | none =>
            simp only [Option.map_none, ih, List.mem_cons]
            by_cases hk : k = a
            · subst hk; simp [ha]
            · simp [hk]
          | some v =>
            simp only [Option.map_some, Dict.get, ih, List.mem_cons]
            by_cases hk : a = k
            · subst hk; simp [ha]
            · simp [hk, Ne.symm hk]
      have hon : "onset" ∉ stackEntries := by decide
      cases ho : tr.ext.get "onset" with
      | none =>
        rw [ho] at hok
        injection hok with hok
        subst hok
        refine ⟨hid, rfl, rfl, hd, fun k hk => ?_, fun o h => by simp at h, fun _ => ?_⟩
        · rw [hext, if_pos hk]
        · rw [hext, if_neg hon]
      | some v =>
        rw [ho] at hok
        cases v with
        | time o =>
          injection hok with hok
          subst hok
          refine ⟨hid, rfl, rfl, hd, fun k hk => ?_, fun o' h => ?_, fun h => by simp at h⟩
          · rw [put_get_lite, if_neg (by rintro rfl; exact hon hk), hext, if_pos hk]
          · rw [put_get_lite, if_pos rfl]
            simp only [Option.some.injEq, Val.time.injEq] at h
            subst h
            rfl
        | _ => simp at hok
  · simp at hok
where
  put_get_lite {K : Type} (t : Trace K) (k k' : String) (v : Val K) :
    (t.put k v).ext.get k' = if k' = k then some v else t.ext.get k' := Dict.get_set _ _ _ _

/-- `mapM` of a function with exceptions. -/
theorem mapM_mem {α β : Type} (f : α → Res β) (l : List α) (out : List β) (h : l.mapM f = .ok out) :
    List.Forall₂ (fun a b => f a = .ok b) l out := by
  induction l generalizing out with
  | nil =>
    simp only [List.mapM_nil, pure, Except.pure] at h
    injection h with h; subst h; exact .nil
  | cons a l ih =>
    simp only [List.mapM_cons, bind, Except.bind] at h
    cases ha : f a with
    | error e => rw [ha] at h; simp at h
    | ok b =>
      rw [ha] at h
      simp only [] at h
      cases hl : l.mapM f with
      | error e => rw [hl] at h; simp at h
      | ok bs =>
        rw [hl] at h
        simp only [pure, Except.pure] at h
        injection h with h
        subst h
        exact .cons ha (ih bs hl)

theorem stack_ok (order : List Str → List Str) (h : Heap K) (s : List Nat) (out : List (Trace K))
    (hok : stack order h s = .ok out) : ∃ r0 s', s = r0 :: s' ∧
      List.Forall₂ (fun i t => stackOne h s (h r0) i = .ok t) (order (s.map fun r => (h r).id)) out := by
  unfold stack at hok
  cases s with
  | nil => simp at hok
  | cons r0 s' => exact ⟨r0, s', rfl, mapM_mem _ _ _ hok⟩

/-- C47.  The stack has exactly one trace per distinct SEED id of the stream, with the same id. -/
theorem C47_one_per_id (order : List Str → List Str) (ho : SetOrder order) (h : Heap K) (s : List Nat)
    (out : List (Trace K)) (hok : stack order h s = .ok out) :
    (out.map Trace.id).Nodup ∧ ∀ i, i ∈ out.map Trace.id ↔ ∃ r ∈ s, (h r).id = i := by
  obtain ⟨r0, s', hs, hall⟩ := stack_ok order h s out hok
  have hids : out.map Trace.id = order (s.map fun r => (h r).id) := by
    have : List.Forall₂ (fun i t => Trace.id t = i) (order (s.map fun r => (h r).id)) out :=
      hall.imp (fun i t ht => (stackOne_ok h s (h r0) t i ht).1)
    generalize order (s.map fun r => (h r).id) = l at this
    clear hall hok
    induction this with
    | nil => rfl
    | cons h1 _ ih => rw [List.map_cons, h1, ih]
  rw [hids]
  refine ⟨(ho _).1, fun i => ?_⟩
  rw [(ho _).2]
  simp [List.mem_map]

theorem forall2_mem {α β : Type} {R : α → β → Prop} {l : List α} {m : List β}
    (h : List.Forall₂ R l m) {b : β} (hb : b ∈ m) : ∃ a ∈ l, R a b := by
  induction h with
  | nil => simp at hb
  | cons h1 _ ih =>
    rcases List.mem_cons.1 hb with rfl | hb
    · exact ⟨_, List.mem_cons_self, h1⟩
    · obtain ⟨a, ha, hr⟩ := ih hb
      exact ⟨a, List.mem_cons_of_mem _ ha, hr⟩

/-- C47.  The samples of a stacked trace are the means of the samples of all traces of the stream with its
id (which have the same length), and the onset has the offset from the start time that
the first trace of the stream has. -/
theorem C47_mean (order : List Str → List Str) (h : Heap K) (s : List Nat) (out : List (Trace K))
    (hok : stack order h s = .ok out) (t : Trace K) (ht : t ∈ out) :
    (∃ r ∈ s, (h r).id = t.id) ∧ (∀ r ∈ s, (h r).id = t.id → (h r).data.length = t.data.length) ∧
    (∀ i, i < t.data.length → t.data.getD i 0
      = meanAt ((s.filter fun r => (h r).id = t.id).map fun r => (h r).data) i) ∧
    (∀ r0, s.head? = some r0 → ∀ o, (h r0).ext.get "onset" = some (.time o) →
      t.ext.get "onset" = some (.time (t.start + (o - (h r0).start)))) := by
  obtain ⟨r0, s', hs, hall⟩ := stack_ok order h s out hok
  obtain ⟨i, hi, hone⟩ := forall2_mem hall ht
  obtain ⟨o1, o2, o3, o4, o5, o6, o7⟩ := stackOne_ok h s (h r0) t i hone
  subst o1
  obtain ⟨m1, m2, m3⟩ := npMean_ok _ _ o4
  refine ⟨?_, ?_, m3, ?_⟩
  · by_contra hno
    apply m1
    rw [List.map_eq_nil_iff, List.filter_eq_nil_iff]
    intro r hr hd
    exact hno ⟨r, hr, by simpa using hd⟩
  · intro r hr hid
    exact m2 _ (List.mem_map.2 ⟨r, List.mem_filter.2 ⟨hr, by simpa using hid⟩, rfl⟩)
  · intro q hq o hqo
    rw [hs] at hq
    simp only [List.head?_cons, Option.some.injEq] at hq
    subst hq
    exact o6 o hqo

/-- C47, order of the traces: stacking a permuted stream gives the same samples for the same id. -/
theorem C47_order_independent (order order' : List Str → List Str) (h : Heap K) (s s' : List Nat)
    (hp : s.Perm s') (out out' : List (Trace K)) (hok : stack order h s = .ok out)
    (hok' : stack order' h s' = .ok out') (t t' : Trace K) (ht : t ∈ out) (ht' : t' ∈ out')
    (hid : t.id = t'.id) : t.data = t'.data := by
  obtain ⟨⟨r, hr, e⟩, l1, m1, -⟩ := C47_mean order h s out hok t ht
  obtain ⟨-, l2, m2, -⟩ := C47_mean order' h s' out' hok' t' ht'
  have hlen : t.data.length = t'.data.length := by
    rw [← l1 r hr e, ← l2 r (hp.mem_iff.1 hr) (e.trans hid)]
  apply List.ext_getElem hlen
  intro i h1 h2
  have a1 := m1 i h1
  have a2 := m2 i h2
  rw [List.getD_eq_getElem _ _ h1] at a1
  rw [List.getD_eq_getElem _ _ h2] at a2
  rw [a1, a2, hid]
  unfold meanAt
  have hpr : ((s.filter fun r => (h r).id = t'.id).map fun r => (h r).data).Perm
      ((s'.filter fun r => (h r).id = t'.id).map fun r => (h r).data) := (hp.filter _).map _
  rw [(hpr.map _).sum_eq, hpr.length_eq]

/-- C47, success: a non-empty stream whose codes contain no dots, whose traces with the same id have the
same number of samples, and whose onset (if any) is a time can be stacked. -/
theorem C47_succeeds (order : List Str → List Str) (ho : SetOrder order) (h : Heap K) (s : List Nat)
    (hne : s ≠ [])
    (hdot : ∀ r ∈ s, '.' ∉ (h r).net ∧ '.' ∉ (h r).sta ∧ '.' ∉ (h r).loc ∧ '.' ∉ (h r).cha)
    (hlen : ∀ r ∈ s, ∀ q ∈ s, (h r).id = (h q).id → (h r).data.length = (h q).data.length)
    (hon : ∀ r ∈ s, (h r).ext.get "onset" = none ∨ ∃ o, (h r).ext.get "onset" = some (.time o)) :
    ∃ out, stack order h s = .ok out := by
  cases s with
  | nil => exact absurd rfl hne
  | cons r0 s' =>
    unfold stack
    simp only []
    have htot : ∀ l : List Str, (∀ i ∈ l, ∃ r ∈ r0 :: s', (h r).id = i) →
        ∃ out, l.mapM (stackOne h (r0 :: s') (h r0)) = .ok out := by
      intro l
      induction l with
      | nil => exact fun _ => ⟨[], rfl⟩
      | cons i l ih =>
        intro hl
        obtain ⟨out, hout⟩ := ih (fun j hj => hl j (List.mem_cons_of_mem _ hj))
        have hi : ∃ t, stackOne h (r0 :: s') (h r0) i = .ok t := by
          obtain ⟨r, hr, rfl⟩ := hl i List.mem_cons_self
          obtain ⟨d1, d2, d3, d4⟩ := hdot r hr
          obtain ⟨d, hd⟩ := npMean_total (((r0 :: s').filter (fun q => (h q).id = (h r).id)).map
            (fun q => (h q).data)) (by
              intro hnil
              rw [List.map_eq_nil_iff, List.filter_eq_nil_iff] at hnil
              exact hnil r hr (by simp)) (h r).data.length (by
              intro q hq
              obtain ⟨q', hq', rfl⟩ := List.mem_map.1 hq
              obtain ⟨h1, h2⟩ := List.mem_filter.1 hq'
              exact hlen q' h1 r hr (by simpa using h2))
          unfold stackOne
          rw [splitOn_id _ d1 d2 d3 d4]
          simp only [hd]
          rcases hon r0 List.mem_cons_self with ho | ⟨o, ho⟩ <;> rw [ho] <;> exact ⟨_, rfl⟩
        obtain ⟨t, ht⟩ := hi
        refine ⟨t :: out, ?_⟩
        rw [List.mapM_cons, ht, hout]
        rfl
    exact htot _ (fun i hi => by
      rw [(ho _).2] at hi
      obtain ⟨r, hr, rfl⟩ := List.mem_map.1 hi
      exact ⟨r, hr, rfl⟩)

/-- C48 for the channel of the first trace, and for all channels if all traces agree with the first one:
the header entries of the stack come from a trace with the same id.  The general statement is false
(`C48_counterexample`): they always come from the first trace of the stream. -/
theorem C48_metadata_partial (order : List Str → List Str) (h : Heap K) (s : List Nat)
    (out : List (Trace K)) (hok : stack order h s = .ok out) (t : Trace K) (ht : t ∈ out) (r0 : Nat)
    (hr0 : s.head? = some r0)
    (hsame : (h r0).id = t.id ∨ ∀ r ∈ s, (h r).sr = (h r0).sr ∧
      (∀ k ∈ stackEntries, (h r).ext.get k = (h r0).ext.get k) ∧
      (∀ o, (h r0).ext.get "onset" = some (.time o) → ∃ o', (h r).ext.get "onset" = some (.time o') ∧
        o' - (h r).start = o - (h r0).start)) :
    ∃ r ∈ s, (h r).id = t.id ∧ t.sr = (h r).sr ∧
      (∀ k ∈ ["phase", "moveout", "station_latitude", "station_longitude", "station_elevation",
        "processing"], t.ext.get k = (h r).ext.get k) ∧
      (∀ o, (h r0).ext.get "onset" = some (.time o) → ∃ o', (h r).ext.get "onset" = some (.time o') ∧
        t.ext.get "onset" = some (.time (t.start + (o' - (h r).start)))) := by
  obtain ⟨r0', s', hs, hall⟩ := stack_ok order h s out hok
  obtain ⟨i, hi, hone⟩ := forall2_mem hall ht
  obtain ⟨o1, o2, o3, o4, o5, o6, o7⟩ := stackOne_ok h s (h r0') t i hone
  subst o1
  rw [hs] at hr0
  simp only [List.head?_cons, Option.some.injEq] at hr0
  subst hr0
  rcases hsame with hid | hall'
  · exact ⟨r0', by rw [hs]; exact List.mem_cons_self, hid, o3, o5, fun o ho => ⟨o, ho, o6 o ho⟩⟩
  · obtain ⟨⟨r, hr, hid⟩, -⟩ := C47_mean order h s out hok t ht
    obtain ⟨a1, a2, a3⟩ := hall' r hr
    refine ⟨r, hr, hid, by rw [o3, a1], fun k hk => ?_, fun o ho => ?_⟩
    · rw [o5 k hk, a2 k hk]
    · obtain ⟨o', ho', e⟩ := a3 o ho
      exact ⟨o', ho', by rw [o6 o ho, e]⟩

/-- Stacking an empty stream raises `IndexError`. -/
theorem C47_empty (order : List Str → List Str) (h : Heap K) :
    stack order h [] = .error .indexError := rfl

end stack

/-! ### Concrete cases -/

section examples

/-- Two channels with two and one traces, with different sampling rates and coordinates. -/
def sHeap : Heap ℚ := fun r =>
  { net := "XX".toList, sta := "A".toList, loc := [],
    cha := if r = 2 then "BHT".toList else "BHQ".toList,
    start := 100, sr := if r = 2 then 4 else 2, data := if r = 0 then [1, 2, 3] else [5, 4, 3],
    ext := [("onset", .time (if r = 2 then 102 else 101)),
      ("station_latitude", .num (if r = 2 then 7 else 5))] }

/-- The set order of the examples: first occurrences removed. -/
def dedupOrder (l : List Str) : List Str := l.dedup

theorem dedup_setOrder : SetOrder dedupOrder := fun l =>
  ⟨List.nodup_dedup l, fun _ => List.mem_dedup⟩

example : (stack dedupOrder sHeap [0, 1, 2]).map (·.map fun t => (t.id, t.data))
    = .ok [("XX.A..BHQ".toList, [3, 3, 3]), ("XX.A..BHT".toList, [5, 4, 3])] := by decide +kernel

/-- C48 is false: the stack of channel BHT has sampling rate, station latitude and onset of
channel BHQ, which no trace with its id has. -/
theorem C48_counterexample : ∃ (h : Heap ℚ) (s : List Nat) (out : List (Trace ℚ)),
    stack dedupOrder h s = .ok out ∧ ∃ t ∈ out, ∀ r ∈ s, (h r).id = t.id →
      t.sr ≠ (h r).sr ∧ t.ext.get "station_latitude" ≠ (h r).ext.get "station_latitude" ∧
      t.getTime "onset" ≠ ((h r).getTime "onset").map fun o => t.start + (o - (h r).start) := by
  refine ⟨sHeap, [0, 1, 2], okD [] (stack dedupOrder sHeap [0, 1, 2]), by decide +kernel, ?_⟩
  decide +kernel

/-- ObsPy's trim on exact sample times, for the examples. -/
def exTrim (t : Trace ℚ) (a b : TArg ℚ) : Res (Trace ℚ) :=
  let ok (x : ℚ) : Bool := (match a with | .utc u => decide (u ≤ x) | _ => true) &&
    (match b with | .utc u => decide (x ≤ u) | _ => true)
  let l := (t.data.zipIdx).filter (fun p => ok (t.start + p.2 / t.sr))
  .ok { t with data := l.map Prod.fst,
               start := match l with | [] => t.start | p :: _ => t.start + p.2 / t.sr }

/-- C49: window 0 to 0.5 s after the onset; the last trace has no samples there. -/
example : (trim2 exTrim (.sec 0) (.sec (1/2)) (.key "onset") (sHeap, [0, 1, 2])).1.2 = [0, 1] ∧
    ((trim2 exTrim (.sec 0) (.sec (1/2)) (.key "onset") (sHeap, [0, 1, 2])).1.1 1).data = [3] ∧
    (slice2 exTrim (.sec 0) (.sec (1/2)) (.key "onset") false sHeap [0, 1, 2]).map
      (·.map fun t => t.data) = .ok [[3], [3]] ∧
    (slice2 exTrim (.sec 0) (.sec (1/2)) (.key "onset") true sHeap [0, 1, 2]).map
      (·.map fun t => t.data) = .ok [[3], [3], []] := by
  decide +kernel

/-- Two P receiver functions with slowness 0, 1. -/
def moHeap : Heap ℚ := fun r =>
  ⟨[], [], [], ['Q'], 0, 2, [5, 6, 7, 8, 9],
    [("onset", .time 0), ("slowness", .num r), ("phase", .str "P".toList)]⟩

/-- C40: moveout of two traces with default phase. -/
example : (streamMoveout qSqrt npFind (fun t => .ok t.data) "m".toList none (1 : ℚ) qModel
      (moHeap, [0, 1])).2.2 = none ∧
    ((streamMoveout qSqrt npFind (fun t => .ok t.data) "m".toList none (1 : ℚ) qModel
      (moHeap, [0, 1])).2.1.1 1).ext = [("onset", .time 0), ("slowness", .num 1),
        ("phase", .str "P".toList), ("moveout", .str "Ps".toList),
        ("slowness_before_moveout", .num 1), ("processing", .list ["m".toList])] := by
  decide +kernel

end examples

end Verif.Props
