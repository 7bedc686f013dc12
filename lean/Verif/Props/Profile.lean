import Verif.Model.Profile
import Verif.Spec.Profile
import Verif.Spec.Stream
import Verif.Props.Freq
import Mathlib.Data.List.GetD
import Mathlib.Algebra.BigOperators.Group.List.Basic

/-!
# Profiles (C50-C52)
-/

set_option linter.unusedSimpArgs false
set_option linter.unusedSectionVars false

namespace Verif.Props
open Verif.Py Verif.Model.Profile Verif.Spec

section profile
variable {K : Type} [Field K] [LinearOrder K]
  (within : K × K → List (K × K) → Bool) (boxes : List (Box K)) (crs : Bool)

/-- The boxes as the specification sees them. -/
def boxSets : List (K × (K × K → Bool)) := boxes.map fun b => (b.pos, fun p => within p b.poly)

theorem firstBox_find (p : K × K) :
    firstBox (boxSets within boxes) p = (boxes.find? (fun b => within p b.poly)).map Box.pos := by
  unfold boxSets
  induction boxes with
  | nil => rfl
  | cons b bs ih =>
    rw [List.map_cons, firstBox, List.find?_cons]
    cases hw : within p b.poly with
    | true => simp
    | false => simpa using ih

theorem tput_get (t : Trace K) (k k' : String) (v : Val K) :
    (t.put k v).ext.get k' = if k' = k then some v else t.ext.get k' := Dict.get_set _ _ _ _

theorem getNum_eq (t : Trace K) (k : String) (x : K) :
    t.getNum k = some x ↔ t.ext.get k = some (.num x) := by
  unfold Trace.getNum
  split
  · rename_i y hy; rw [hy]; simp
  · rename_i hno
    constructor
    · intro h; simp at h
    · intro h; exact absurd h (hno x)

theorem dict_get_append {V : Type} (a b : Dict V) (k : String) :
    (a ++ b : Dict V).get k = (match a.get k with | some v => some v | none => b.get k) := by
  induction a with
  | nil => rfl
  | cons p a ih =>
    rw [List.cons_append]
    simp only [Dict.get]
    split
    · rfl
    · exact ih

theorem copied_get (t : Trace K) (l : List String) (k : String) :
    Dict.get (l.filterMap fun k => (t.ext.get k).map fun v => (k, v)) k
      = if k ∈ l then t.ext.get k else none := by
  induction l with
  | nil => rfl
  | cons a l ih =>
    rw [List.filterMap_cons]
    cases ha : t.ext.get a with
    | none =>
      simp only [Option.map_none, ih, List.mem_cons]
      by_cases hk : k = a
      · subst hk; simp [ha]
      · simp [hk]
    | some v =>
      simp only [Option.map_some, Dict.get, ih, List.mem_cons]
      by_cases hk : a = k
      · subst hk; simp [ha]
      · simp [hk, Ne.symm hk]

/-- What a freshly made profile trace looks like. -/
theorem newTrace_ok (box : Box K) (comp : Char) (t t2 : Trace K)
    (hok : newTrace boxes box comp t = .ok t2) :
    t2.cha = ['?', '?', comp] ∧ t2.data = t.data ∧ t2.sr = t.sr ∧
    t2.ext.get "num" = some (.num 1) ∧ t2.ext.get "box_pos" = some (.num box.pos) ∧
    t2.start = 0 ∧
    (∀ o, t.ext.get "onset" = some (.time o) → t2.ext.get "onset" = some (.time (o - t.start))) := by
  unfold newTrace at hok
  split at hok
  · simp at hok
  · split at hok
    · simp at hok
    · simp only [] at hok
      split at hok
      · rename_i o ho
        injection hok with hok
        subst hok
        refine ⟨rfl, rfl, rfl, ?_, ?_, rfl, ?_⟩
        · rw [tput_get, if_neg (by decide), dict_get_append]; rfl
        · rw [tput_get, if_neg (by decide), dict_get_append]; rfl
        · intro o' h
          rw [tput_get, if_pos rfl]
          rw [ho] at h
          simp only [Option.some.injEq, Val.time.injEq] at h
          rw [h, zero_add]
      · simp at hok
      · rename_i ho
        injection hok with hok
        subst hok
        refine ⟨rfl, rfl, rfl, ?_, ?_, rfl, ?_⟩
        · rw [dict_get_append]; rfl
        · rw [dict_get_append]; rfl
        · intro o h; rw [ho] at h; simp at h

theorem npAdd_eq (a b : List K) (h : a.length = b.length) :
    npAdd a b = .ok (List.zipWith (· + ·) a b) := by
  unfold npAdd; rw [if_pos h]

theorem addTrace_ok (t2 t t' : Trace K) (hok : addTrace t2 t = .ok t') :
    npAdd t2.data t.data = .ok t'.data ∧ t'.cha = t2.cha ∧ t'.sr = t2.sr ∧ t'.start = t2.start ∧
    (∃ n, t2.ext.get "num" = some (.num n) ∧ t'.ext.get "num" = some (.num (n + 1))) ∧
    (∀ k, k ≠ "num" → t'.ext.get k = t2.ext.get k) := by
  unfold addTrace at hok
  split at hok
  · simp at hok
  · rename_i d hd
    split at hok
    · simp at hok
    · rename_i n hn
      injection hok with hok
      subst hok
      refine ⟨hd, rfl, rfl, rfl, ⟨n, (getNum_eq _ _ _).1 hn, ?_⟩, fun k hk => ?_⟩
      · rw [tput_get, if_pos rfl]
      · rw [tput_get, if_neg hk]

theorem lookup_none (st : List (Key K × Nat)) (k : Key K) :
    lookup st k = none ↔ k ∉ st.map Prod.fst := by
  unfold lookup
  rw [Option.map_eq_none_iff, List.find?_eq_none]
  simp only [List.mem_map, not_exists, not_and, decide_eq_true_eq]

theorem lookup_some (st : List (Key K × Nat)) (k : Key K) (q : Nat) (h : lookup st k = some q) :
    (k, q) ∈ st := by
  unfold lookup at h
  rw [Option.map_eq_some_iff] at h
  obtain ⟨e, he, rfl⟩ := h
  have h1 := List.mem_of_find?_eq_some he
  have h2 := List.find?_some he
  simp only [decide_eq_true_eq] at h2
  subst h2
  exact h1

/-- Sum of the samples `i` of some traces. -/
def colSum (h : Heap K) (l : List Nat) (i : Nat) : K := (l.map fun r => (h r).data.getD i 0).sum

/-- The loop invariant: `done` are the traces already processed. -/
structure PInv (h0 : Heap K) (n0 : Nat) (done : List Nat) (st : PState K) : Prop where
  next_ge : n0 ≤ st.next
  refs_nodup : (st.stack.map Prod.snd).Nodup
  refs_range : ∀ e ∈ st.stack, n0 ≤ e.2 ∧ e.2 < st.next
  keys_nodup : (st.stack.map Prod.fst).Nodup
  old : ∀ r < n0, st.heap r = h0 r
  keys : ∀ k, k ∈ st.stack.map Prod.fst ↔ ∃ r ∈ done, binOf (boxSets within boxes) (h0 r) = some k
  vals : ∀ e ∈ st.stack,
    (st.heap e.2).ext.get "num"
      = some (.num ((binMembers (boxSets within boxes) h0 done e.1).length : K)) ∧
    (st.heap e.2).ext.get "box_pos" = some (.num e.1.1) ∧
    (st.heap e.2).cha = ['?', '?', e.1.2] ∧
    (st.heap e.2).start = 0 ∧
    (∀ r, (binMembers (boxSets within boxes) h0 done e.1).head? = some r →
      (st.heap e.2).sr = (h0 r).sr ∧ ∀ o, (h0 r).ext.get "onset" = some (.time o) →
        (st.heap e.2).ext.get "onset" = some (.time (o - (h0 r).start))) ∧
    (∀ n, (∀ r ∈ binMembers (boxSets within boxes) h0 done e.1, (h0 r).data.length = n) →
      (st.heap e.2).data.length = n ∧ ∀ i < n, (st.heap e.2).data.getD i 0
        = colSum h0 (binMembers (boxSets within boxes) h0 done e.1) i)

theorem binMembers_append (bs : List (K × (K × K → Bool))) (h : Heap K) (done : List Nat) (r : Nat)
    (k : K × Char) : binMembers bs h (done ++ [r]) k
      = binMembers bs h done k ++ if binOf bs (h r) = some k then [r] else [] := by
  unfold binMembers
  rw [List.filter_append]
  congr 1
  by_cases hk : binOf bs (h r) = some k <;> simp [hk]

/-- What a step does, by cases. -/
theorem step_ok (st st' : PState K) (r : Nat) (hok : step within boxes crs st r = .ok st') :
    (binOf (boxSets within boxes) (st.heap r) = none ∧ st' = st) ∨
    ∃ k, binOf (boxSets within boxes) (st.heap r) = some k ∧
      ((lookup st.stack k = none ∧ ∃ box t2, box.pos = k.1 ∧
          newTrace boxes box k.2 (st.heap r) = .ok t2 ∧
          st' = { heap := st.heap.set st.next t2, stack := st.stack ++ [(k, st.next)],
                  next := st.next + 1 }) ∨
       ∃ q t2, lookup st.stack k = some q ∧ addTrace (st.heap q) (st.heap r) = .ok t2 ∧
          st' = { st with heap := st.heap.set q t2 }) := by
  unfold step at hok
  simp only [] at hok
  split at hok
  · simp at hok
  · rename_i p hp
    have hpp : ∃ a b, (st.heap r).getNum "pp_latitude" = some a ∧
        (st.heap r).getNum "pp_longitude" = some b ∧ p = (a, b) := by
      unfold piercingPoint at hp
      split at hp
      · rename_i a b ha hb
        injection hp with hp
        exact ⟨a, b, ha, hb, hp.symm⟩
      · simp at hp
    obtain ⟨a, b, ha, hb, rfl⟩ := hpp
    have hfb := firstBox_find within boxes (a, b)
    split at hok
    · simp at hok
    · rename_i hf
      left
      injection hok with hok
      refine ⟨?_, hok.symm⟩
      unfold findBox at hf
      split at hf
      · simp at hf
      · injection hf with hf
        rw [hf] at hfb
        unfold binOf
        rw [ha, hb]
        cases (st.heap r).cha.getLast? <;> simp [hfb]
    · rename_i box hf
      have hbox : firstBox (boxSets within boxes) (a, b) = some box.pos := by
        unfold findBox at hf
        split at hf
        · simp at hf
        · injection hf with hf
          rw [hfb, hf]; rfl
      right
      split at hok
      · simp at hok
      · rename_i comp hcomp
        have hbin : binOf (boxSets within boxes) (st.heap r) = some (box.pos, comp) := by
          unfold binOf
          unfold Trace.comp at hcomp
          rw [ha, hb, hcomp]
          simp [hbox]
        refine ⟨(box.pos, comp), hbin, ?_⟩
        split at hok
        · rename_i hl
          split at hok
          · simp at hok
          · rename_i t2 ht2
            injection hok with hok
            exact .inl ⟨hl, box, t2, rfl, ht2, hok.symm⟩
        · rename_i q hl
          split at hok
          · simp at hok
          · rename_i t2 ht2
            injection hok with hok
            exact .inr ⟨q, t2, hl, ht2, hok.symm⟩

theorem step_inv (h0 : Heap K) (n0 : Nat) (done : List Nat) (st st' : PState K) (r : Nat) (hr : r < n0)
    (hi : PInv within boxes h0 n0 done st) (hok : step within boxes crs st r = .ok st') :
    PInv within boxes h0 n0 (done ++ [r]) st' := by
  have hold : st.heap r = h0 r := hi.old r hr
  rcases step_ok within boxes crs st st' r hok with ⟨hn, rfl⟩ | ⟨k, hk, hcase⟩
  · rw [hold] at hn
    have hm : ∀ k, binMembers (boxSets within boxes) h0 (done ++ [r]) k
        = binMembers (boxSets within boxes) h0 done k := by
      intro k; rw [binMembers_append, hn]; simp
    refine ⟨hi.next_ge, hi.refs_nodup, hi.refs_range, hi.keys_nodup, hi.old, ?_, ?_⟩
    · intro k
      rw [hi.keys k]
      constructor
      · rintro ⟨q, hq, h⟩; exact ⟨q, List.mem_append_left _ hq, h⟩
      · rintro ⟨q, hq, h⟩
        rcases List.mem_append.1 hq with hq | hq
        · exact ⟨q, hq, h⟩
        · rw [List.mem_singleton] at hq; subst hq; rw [hn] at h; simp at h
    · intro e he
      rw [hm]
      exact hi.vals e he
  · rw [hold] at hk
    have hm : ∀ k', k' ≠ k → binMembers (boxSets within boxes) h0 (done ++ [r]) k'
        = binMembers (boxSets within boxes) h0 done k' := by
      intro k' hne
      rw [binMembers_append, hk, if_neg (by simpa using hne.symm), List.append_nil]
    have hmk : binMembers (boxSets within boxes) h0 (done ++ [r]) k
        = binMembers (boxSets within boxes) h0 done k ++ [r] := by
      rw [binMembers_append, if_pos hk]
    have hkeys : ∀ k', (∃ q ∈ done ++ [r], binOf (boxSets within boxes) (h0 q) = some k') ↔
        (∃ q ∈ done, binOf (boxSets within boxes) (h0 q) = some k') ∨ k' = k := by
      intro k'
      constructor
      · rintro ⟨q, hq, h⟩
        rcases List.mem_append.1 hq with hq | hq
        · exact .inl ⟨q, hq, h⟩
        · rw [List.mem_singleton] at hq; subst hq; rw [hk] at h
          right; simpa using h.symm
      · rintro (⟨q, hq, h⟩ | rfl)
        · exact ⟨q, List.mem_append_left _ hq, h⟩
        · exact ⟨r, by simp, hk⟩
    rcases hcase with ⟨hl, box, t2, hpos, hnew, rfl⟩ | ⟨q, t2, hl, hadd, rfl⟩
    · -- a new profile trace
      have hnk : k ∉ st.stack.map Prod.fst := (lookup_none _ _).1 hl
      have hempty : binMembers (boxSets within boxes) h0 done k = [] := by
        unfold binMembers
        rw [List.filter_eq_nil_iff]
        intro q hq h
        exact hnk ((hi.keys k).2 ⟨q, hq, by simpa using h⟩)
      obtain ⟨a1, a2, a3, a4, a5, a6, a7⟩ := newTrace_ok boxes box k.2 _ _ hnew
      rw [hold] at a2 a3 a7
      refine ⟨by have := hi.next_ge; simp only []; omega, ?_, ?_, ?_, ?_, ?_, ?_⟩
      · rw [List.map_append, List.nodup_append]
        refine ⟨hi.refs_nodup, by simp, ?_⟩
        intro x hx y hy
        simp only [List.map_cons, List.map_nil, List.mem_singleton] at hy
        subst hy
        obtain ⟨e, he, rfl⟩ := List.mem_map.1 hx
        have := (hi.refs_range e he).2
        omega
      · intro e he
        simp only []
        rcases List.mem_append.1 he with he | he
        · have := hi.refs_range e he; omega
        · rw [List.mem_singleton] at he; subst he
          have := hi.next_ge; simp only []; omega
      · rw [List.map_append, List.nodup_append]
        refine ⟨hi.keys_nodup, by simp, ?_⟩
        intro x hx y hy
        simp only [List.map_cons, List.map_nil, List.mem_singleton] at hy
        subst hy
        rintro rfl
        exact hnk hx
      · intro x hx
        have := hi.next_ge
        simp only []
        rw [Heap.set_ne _ _ (by omega)]
        exact hi.old x hx
      · intro k'
        rw [hkeys, List.map_append, List.mem_append, hi.keys k']
        simp
      · intro e he
        simp only []
        rcases List.mem_append.1 he with he | he
        · have hne : e.1 ≠ k := fun h => hnk (List.mem_map.2 ⟨e, he, h⟩)
          have hlt := (hi.refs_range e he).2
          rw [Heap.set_ne _ _ (by omega), hm _ hne]
          exact hi.vals e he
        · rw [List.mem_singleton] at he; subst he
          simp only [Heap.set_self]
          rw [hmk, hempty]
          refine ⟨by rw [a4]; simp, by rw [a5, hpos], a1, a6, ?_, ?_⟩
          · intro q hq
            simp only [List.nil_append, List.head?_cons, Option.some.injEq] at hq
            subst hq
            exact ⟨a3, a7⟩
          · intro n hn
            have hn' := hn r (by simp)
            rw [a2]
            refine ⟨hn', fun i _ => ?_⟩
            simp [colSum]
    · -- added to an existing one
      have hmem := lookup_some _ _ _ hl
      have hqn : n0 ≤ q ∧ q < st.next := hi.refs_range _ hmem
      obtain ⟨b1, b2, b3, b4, ⟨n, b5, b6⟩, b7⟩ := addTrace_ok _ _ _ hadd
      rw [hold] at b1
      have hkin : k ∈ st.stack.map Prod.fst := List.mem_map.2 ⟨_, hmem, rfl⟩
      obtain ⟨v1, v2, v3, v4, v5, v6⟩ := hi.vals _ hmem
      simp only [] at v1 v2 v3 v4 v5 v6
      have hnonempty : binMembers (boxSets within boxes) h0 done k ≠ [] := by
        obtain ⟨x, hx, hxk⟩ := (hi.keys k).1 hkin
        intro hnil
        unfold binMembers at hnil
        rw [List.filter_eq_nil_iff] at hnil
        exact hnil x hx (by simpa using hxk)
      refine ⟨hi.next_ge, hi.refs_nodup, hi.refs_range, hi.keys_nodup, ?_, ?_, ?_⟩
      · intro x hx
        simp only []
        rw [Heap.set_ne _ _ (by omega)]
        exact hi.old x hx
      · intro k'
        rw [hkeys, hi.keys k']
        constructor
        · exact fun h => .inl h
        · rintro (h | rfl)
          · exact h
          · exact (hi.keys _).1 hkin
      · intro e he
        simp only []
        by_cases hek : e.1 = k
        · have heq : e = (k, q) := by
            have hinj := List.inj_on_of_nodup_map hi.keys_nodup
            exact hinj he hmem hek
          subst heq
          simp only [Heap.set_self]
          rw [hmk]
          refine ⟨?_, ?_, ?_, ?_, ?_, ?_⟩
          · rw [b6]
            rw [b5] at v1
            simp only [Option.some.injEq, Val.num.injEq] at v1
            rw [v1]; simp
          · rw [b7 _ (by decide), v2]
          · rw [b2, v3]
          · rw [b4, v4]
          · intro x hx
            have hx' : (binMembers (boxSets within boxes) h0 done k).head? = some x := by
              cases hb : binMembers (boxSets within boxes) h0 done k with
              | nil => exact absurd hb hnonempty
              | cons y l => rw [hb] at hx; simpa using hx
            obtain ⟨w1, w2⟩ := v5 x hx'
            exact ⟨by rw [b3, w1], fun o ho => by rw [b7 _ (by decide), w2 o ho]⟩
          · intro m hm'
            obtain ⟨w1, w2⟩ := v6 m (fun x hx => hm' x (List.mem_append_left _ hx))
            have hrl := hm' r (by simp)
            rw [npAdd_eq _ _ (by rw [w1, hrl])] at b1
            injection b1 with b1
            rw [← b1]
            refine ⟨by simp [w1, hrl], fun i hi' => ?_⟩
            rw [getD_zipWith_of_lt _ _ _ 0 0 _ _ (by omega) (by omega), w2 i hi']
            simp [colSum]
        · have hne : e.2 ≠ q := by
            intro h
            have hinj := List.inj_on_of_nodup_map hi.refs_nodup
            have := hinj he hmem h
            exact hek (by rw [this])
          rw [Heap.set_ne _ _ hne, hm _ hek]
          exact hi.vals e he

theorem loop_inv (h0 : Heap K) (n0 : Nat) (s done : List Nat) (st st' : PState K)
    (hs : ∀ r ∈ s, r < n0) (hi : PInv within boxes h0 n0 done st)
    (hok : loop within boxes crs st s = .ok st') : PInv within boxes h0 n0 (done ++ s) st' := by
  induction s generalizing done st with
  | nil =>
    unfold loop at hok
    injection hok with hok
    subst hok
    simpa using hi
  | cons r s ih =>
    unfold loop at hok
    cases hstep : step within boxes crs st r with
    | error e => rw [hstep] at hok; simp at hok
    | ok st1 =>
      rw [hstep] at hok
      have h1 := step_inv within boxes crs h0 n0 done st st1 r (hs r List.mem_cons_self) hi hstep
      have h2 := ih (done ++ [r]) st1 (fun q hq => hs q (List.mem_cons_of_mem _ hq)) h1 hok
      simpa using h2

theorem sortProfile_perm (h : Heap K) (l : List Nat) : (sortProfile h l).Perm l :=
  (List.perm_insertionSort _ _).trans (List.perm_insertionSort _ _)

theorem binMembers_pos (bs : List (K × (K × K → Bool))) (h : Heap K)
    (s : List Nat) (k : K × Char) (hex : ∃ r ∈ s, binOf bs (h r) = some k) :
    0 < (binMembers bs h s k).length := by
  obtain ⟨r, hr, hk⟩ := hex
  exact List.length_pos_of_mem (List.mem_filter.2 ⟨hr, by simpa using hk⟩)

/-- Everything about the result of `profile`. -/
theorem profile_ok (h h' : Heap K) (s l : List Nat) (next : Nat) (hs : ∀ r ∈ s, r < next)
    (hok : profile within boxes crs h s next = .ok (h', l)) :
    l.Nodup ∧ (∀ q ∈ l, next ≤ q) ∧ (∀ r < next, h' r = h r) ∧
    ∃ key : Nat → K × Char, (∀ q ∈ l, ∀ q' ∈ l, key q = key q' → q = q') ∧
      (∀ k, (∃ q ∈ l, key q = k) ↔ ∃ r ∈ s, binOf (boxSets within boxes) (h r) = some k) ∧
      ∀ q ∈ l, (h' q).ext.get "box_pos" = some (.num (key q).1) ∧
        (h' q).cha = ['?', '?', (key q).2] ∧ (h' q).start = 0 ∧
        (h' q).ext.get "type" = some (.str "profile".toList) ∧
        (h' q).ext.get "num"
          = some (.num ((binMembers (boxSets within boxes) h s (key q)).length : K)) ∧
        (∀ r, (binMembers (boxSets within boxes) h s (key q)).head? = some r →
          (h' q).sr = (h r).sr ∧ ∀ o, (h r).ext.get "onset" = some (.time o) →
            (h' q).ext.get "onset" = some (.time (o - (h r).start))) ∧
        (∀ n, (∀ r ∈ binMembers (boxSets within boxes) h s (key q), (h r).data.length = n) →
          (h' q).data.length = n ∧ ∀ i < n, (h' q).data.getD i 0
            = meanAt ((binMembers (boxSets within boxes) h s (key q)).map fun r => (h r).data) i) := by
  unfold profile at hok
  cases hl : loop within boxes crs ⟨h, [], next⟩ s with
  | error e => rw [hl] at hok; simp at hok
  | ok st =>
    rw [hl] at hok
    simp only [Except.ok.injEq, Prod.mk.injEq] at hok
    obtain ⟨hh', hll⟩ := hok
    have hi : PInv within boxes h next s st := by
      have := loop_inv within boxes crs h next s [] ⟨h, [], next⟩ st hs
        ⟨le_refl _, by simp, by simp, by simp, fun _ _ => rfl, by simp, by simp⟩ hl
      simpa using this
    set h1 := Heap.forEach divide st.heap (st.stack.map Prod.snd) with hh1
    have hperm : l.Perm (st.stack.map Prod.snd) := by rw [← hll]; exact sortProfile_perm _ _
    have hnd : l.Nodup := hperm.nodup_iff.2 hi.refs_nodup
    have hge : ∀ q ∈ l, next ≤ q := by
      intro q hq
      obtain ⟨e, he, rfl⟩ := List.mem_map.1 (hperm.mem_iff.1 hq)
      exact (hi.refs_range e he).1
    rw [hll] at hh'
    have hold : ∀ r < next, h' r = h r := by
      intro r hr
      have h1' : r ∉ l := fun hq => by have := hge r hq; omega
      have h2' : r ∉ st.stack.map Prod.snd := fun hq => h1' (hperm.mem_iff.2 hq)
      rw [← hh', Heap.forEach_not_mem _ _ _ _ h1', hh1, Heap.forEach_not_mem _ _ _ _ h2']
      exact hi.old r hr
    refine ⟨hnd, hge, hold, ?_⟩
    -- the key of a reference
    let key : Nat → K × Char := fun q =>
      ((st.stack.find? (fun e => e.2 = q)).map Prod.fst).getD (0, ' ')
    have hkey : ∀ e ∈ st.stack, key e.2 = e.1 := by
      intro e he
      have hsome : (st.stack.find? (fun x => x.2 = e.2)).isSome := by
        rw [List.find?_isSome]; exact ⟨e, he, by simp⟩
      obtain ⟨x, hx⟩ := Option.isSome_iff_exists.1 hsome
      have hx1 := List.mem_of_find?_eq_some hx
      have hx2 := List.find?_some hx
      simp only [decide_eq_true_eq] at hx2
      have : x = e := List.inj_on_of_nodup_map hi.refs_nodup hx1 he hx2
      simp only [key, hx, Option.map_some, Option.getD_some, this]
    refine ⟨key, ?_, ?_, ?_⟩
    · intro q hq q' hq' heq
      obtain ⟨e, he, rfl⟩ := List.mem_map.1 (hperm.mem_iff.1 hq)
      obtain ⟨e', he', rfl⟩ := List.mem_map.1 (hperm.mem_iff.1 hq')
      rw [hkey e he, hkey e' he'] at heq
      rw [List.inj_on_of_nodup_map hi.keys_nodup he he' heq]
    · intro k
      rw [← hi.keys k]
      constructor
      · rintro ⟨q, hq, rfl⟩
        obtain ⟨e, he, rfl⟩ := List.mem_map.1 (hperm.mem_iff.1 hq)
        rw [hkey e he]
        exact List.mem_map.2 ⟨e, he, rfl⟩
      · intro hk
        obtain ⟨e, he, rfl⟩ := List.mem_map.1 hk
        exact ⟨e.2, hperm.mem_iff.2 (List.mem_map.2 ⟨e, he, rfl⟩), hkey e he⟩
    · intro q hq
      have hq' := hperm.mem_iff.1 hq
      obtain ⟨e, he, rfl⟩ := List.mem_map.1 hq'
      rw [hkey e he]
      obtain ⟨v1, v2, v3, v4, v5, v6⟩ := hi.vals e he
      have hval : h' e.2 = (divide (st.heap e.2)).put "type" (.str "profile".toList) := by
        rw [← hh', Heap.forEach_mem _ _ _ _ hnd hq, hh1, Heap.forEach_mem _ _ _ _ hi.refs_nodup hq']
      rw [hval]
      have hnum : (st.heap e.2).getNum "num" = _ := (getNum_eq _ _ _).2 v1
      refine ⟨?_, v3, v4, ?_, ?_, ?_, ?_⟩
      · rw [tput_get, if_neg (by decide)]; exact v2
      · rw [tput_get, if_pos rfl]
      · rw [tput_get, if_neg (by decide)]; exact v1
      · intro r hr
        obtain ⟨w1, w2⟩ := v5 r hr
        exact ⟨w1, fun o ho => by rw [tput_get, if_neg (by decide)]; exact w2 o ho⟩
      · intro n hn
        obtain ⟨w1, w2⟩ := v6 n hn
        have hd : ((divide (st.heap e.2)).put "type" (.str "profile".toList)).data
          = (st.heap e.2).data.map (fun (x : K) => x /
              ((binMembers (boxSets within boxes) h s e.1).length : K)) := by
          show (divide (st.heap e.2)).data = _
          unfold divide
          rw [hnum]; rfl
        rw [hd]
        refine ⟨by simpa using w1, fun i hi' => ?_⟩
        rw [getD_map_of_lt _ _ 0 _ _ (by omega), w2 i hi']
        unfold meanAt colSum
        rw [List.map_map, List.length_map]
        rfl

/-- A profile trace belongs to the bin `k`: its header has the box position, its channel the component. -/
def HasBin (t : Trace K) (k : K × Char) : Prop :=
  t.ext.get "box_pos" = some (.num k.1) ∧ t.cha.getLast? = some k.2

theorem HasBin.unique {t : Trace K} {k k' : K × Char} (h : HasBin t k) (h' : HasBin t k') : k = k' := by
  obtain ⟨a, b⟩ := h
  obtain ⟨a', b'⟩ := h'
  rw [a] at a'
  rw [b] at b'
  simp only [Option.some.injEq, Val.num.injEq] at a' b'
  exact Prod.ext a' b'

/-- C50.  Exactly one profile trace per bin (box position, component) hit by some trace, and no others. -/
theorem C50_one_per_bin (h h' : Heap K) (s l : List Nat) (next : Nat) (hs : ∀ r ∈ s, r < next)
    (hok : profile within boxes crs h s next = .ok (h', l)) :
    l.Nodup ∧
    (∀ k, (∃ r ∈ s, binOf (boxSets within boxes) (h r) = some k) → ∃! q, q ∈ l ∧ HasBin (h' q) k) ∧
    (∀ q ∈ l, ∃ k, HasBin (h' q) k ∧ ∃ r ∈ s, binOf (boxSets within boxes) (h r) = some k) := by
  obtain ⟨h1, h2, h3, key, h4, h5, h6⟩ := profile_ok within boxes crs h h' s l next hs hok
  have hb : ∀ q ∈ l, HasBin (h' q) (key q) := fun q hq =>
    ⟨(h6 q hq).1, by rw [(h6 q hq).2.1]; rfl⟩
  refine ⟨h1, fun k hk => ?_, fun q hq => ⟨key q, hb q hq, (h5 _).1 ⟨q, hq, rfl⟩⟩⟩
  obtain ⟨q, hq, rfl⟩ := (h5 k).2 hk
  refine ⟨q, ⟨hq, hb q hq⟩, ?_⟩
  rintro q' ⟨hq', hq'b⟩
  exact h4 q' hq' q hq ((hb q' hq').unique hq'b)

/-- C50.  Data and `num` of the profile trace of a bin are mean and number of exactly the traces of the
stream that belong to the bin (`firstBox`: the first box that contains the piercing point). -/
theorem C50_mean (h h' : Heap K) (s l : List Nat) (next : Nat) (hs : ∀ r ∈ s, r < next)
    (hok : profile within boxes crs h s next = .ok (h', l)) (q : Nat) (hq : q ∈ l) (k : K × Char)
    (hk : HasBin (h' q) k) :
    (h' q).ext.get "num" = some (.num ((binMembers (boxSets within boxes) h s k).length : K)) ∧
    ∀ n, (∀ r ∈ binMembers (boxSets within boxes) h s k, (h r).data.length = n) →
      (h' q).data.length = n ∧ ∀ i < n, (h' q).data.getD i 0
        = meanAt ((binMembers (boxSets within boxes) h s k).map fun r => (h r).data) i := by
  obtain ⟨h1, h2, h3, key, h4, h5, h6⟩ := profile_ok within boxes crs h h' s l next hs hok
  obtain ⟨a1, a2, a3, a4, a5, a6, a7⟩ := h6 q hq
  have : k = key q := hk.unique ⟨a1, by rw [a2]; rfl⟩
  subst this
  exact ⟨a5, a7⟩

/-- C50, traces outside of all boxes do not matter. -/
theorem C50_outside (t : Trace K) (a b : K) (ha : t.getNum "pp_latitude" = some a)
    (hb : t.getNum "pp_longitude" = some b) (hout : ∀ bx ∈ boxes, within (a, b) bx.poly = false) :
    binOf (boxSets within boxes) t = none := by
  have : firstBox (boxSets within boxes) (a, b) = none := by
    rw [firstBox_find, Option.map_eq_none_iff, List.find?_eq_none]
    intro x hx
    rw [hout x hx]; simp
  unfold binOf
  rw [ha, hb]
  cases t.cha.getLast? <;> simp [this]

theorem sum_indicator {α : Type} [DecidableEq α] (ks : List α) (k : α) (hn : ks.Nodup) (hk : k ∈ ks) :
    (ks.map fun k' => if k = k' then 1 else 0).sum = 1 := by
  induction ks with
  | nil => simp at hk
  | cons a ks ih =>
    rw [List.nodup_cons] at hn
    rw [List.map_cons, List.sum_cons]
    by_cases ha : k = a
    · subst ha
      rw [if_pos rfl]
      have : (ks.map fun k' => if k = k' then 1 else 0).sum = 0 := by
        apply List.sum_eq_zero
        intro x hx
        obtain ⟨y, hy, rfl⟩ := List.mem_map.1 hx
        rw [if_neg]
        rintro rfl
        exact hn.1 hy
      omega
    · rw [if_neg ha, ih hn.2 (by simpa [ha] using hk)]

theorem sum_members {α : Type} [DecidableEq α] (f : Nat → Option α) (ks : List α) (hn : ks.Nodup)
    (s : List Nat) (hc : ∀ r ∈ s, ∀ k, f r = some k → k ∈ ks) :
    (ks.map fun k => (s.filter fun r => f r = some k).length).sum = (s.filter fun r => (f r).isSome).length := by
  induction s with
  | nil =>
    apply List.sum_eq_zero
    intro x hx
    obtain ⟨y, hy, rfl⟩ := List.mem_map.1 hx
    rfl
  | cons r s ih =>
    have ih' := ih (fun q hq => hc q (List.mem_cons_of_mem _ hq))
    have hsplit : (ks.map fun k => ((r :: s).filter fun r => f r = some k).length)
        = ks.map fun k => (if f r = some k then 1 else 0) + (s.filter fun r => f r = some k).length := by
      apply List.map_congr_left
      intro k _
      rw [List.filter_cons]
      by_cases hk : f r = some k
      · simp [hk]; omega
      · simp [hk]
    rw [hsplit, List.sum_map_add, ih', List.filter_cons]
    cases hf : f r with
    | none => simp
    | some k =>
      have := sum_indicator ks k hn (hc r List.mem_cons_self k hf)
      simp only [Option.some.injEq, this, Option.isSome_some, if_true, List.length_cons]
      omega

/-- C51.  The counts of the profile add up to the number of traces with a piercing point in some box. -/
theorem C51_counts (h h' : Heap K) (s l : List Nat) (next : Nat) (hs : ∀ r ∈ s, r < next)
    (hok : profile within boxes crs h s next = .ok (h', l)) :
    (l.map fun q => ((h' q).getNum "num").getD 0).sum
      = (((s.filter fun r => (binOf (boxSets within boxes) (h r)).isSome).length : Nat) : K) := by
  obtain ⟨h1, h2, h3, key, h4, h5, h6⟩ := profile_ok within boxes crs h h' s l next hs hok
  have hn : (l.map key).Nodup := by
    rw [List.nodup_map_iff_inj_on h1]
    exact fun x hx y hy => h4 x hx y hy
  rw [← sum_members (fun r => binOf (boxSets within boxes) (h r)) (l.map key) hn s (fun r hr k hk => by
    obtain ⟨q, hq, rfl⟩ := (h5 k).2 ⟨r, hr, hk⟩
    exact List.mem_map.2 ⟨q, hq, rfl⟩)]
  rw [List.map_map]
  have : l.map (fun q => ((h' q).getNum "num").getD 0) = (l.map ((fun k => (s.filter fun r =>
      binOf (boxSets within boxes) (h r) = some k).length) ∘ key)).map (fun (n : Nat) => (n : K)) := by
    rw [List.map_map]
    apply List.map_congr_left
    intro q hq
    rw [(getNum_eq _ _ _).2 (h6 q hq).2.2.2.2.1]
    rfl
  rw [this]
  generalize (l.map ((fun k => (s.filter fun r =>
      binOf (boxSets within boxes) (h r) = some k).length) ∘ key)) = m
  induction m with
  | nil => simp
  | cons a m ih =>
    clear this hok hs h4 h5 h6 hn h1 h2 h3
    rw [List.map_cons, List.sum_cons, List.sum_cons, Nat.cast_add, ih]

/-- C51.  Every trace with piercing point in some box contributes to exactly one profile trace, the one of
the first box that contains it. -/
theorem C51_first_box (h h' : Heap K) (s l : List Nat) (next : Nat) (hs : ∀ r ∈ s, r < next)
    (hok : profile within boxes crs h s next = .ok (h', l)) (r : Nat) (hr : r ∈ s) (a b : K) (c : Char)
    (ha : (h r).getNum "pp_latitude" = some a) (hb : (h r).getNum "pp_longitude" = some b)
    (hc : (h r).cha.getLast? = some c) (pre post : List (Box K)) (bx : Box K)
    (hbx : boxes = pre ++ bx :: post) (hpre : ∀ x ∈ pre, within (a, b) x.poly = false)
    (hin : within (a, b) bx.poly = true) :
    ∃! q, q ∈ l ∧ ∃ k, HasBin (h' q) k ∧ r ∈ binMembers (boxSets within boxes) h s k ∧ k = (bx.pos, c) := by
  have hbin : binOf (boxSets within boxes) (h r) = some (bx.pos, c) := by
    have hf : boxes.find? (fun b' => within (a, b) b'.poly) = some bx := by
      rw [hbx, List.find?_append, List.find?_eq_none.2 (fun x hx => by rw [hpre x hx]; simp)]
      simp [hin]
    unfold binOf
    rw [ha, hb, hc]
    simp [firstBox_find, hf]
  obtain ⟨q, ⟨hq, hqb⟩, huniq⟩ := (C50_one_per_bin within boxes crs h h' s l next hs hok).2.1 _ ⟨r, hr, hbin⟩
  refine ⟨q, ⟨hq, _, hqb, List.mem_filter.2 ⟨hr, by simpa using hbin⟩, rfl⟩, ?_⟩
  rintro q' ⟨hq', k, hk, -, rfl⟩
  exact huniq q' ⟨hq', hk⟩

/-- C52.  The objects that existed before the call are unchanged, in particular the input traces; the
profile consists of new objects. -/
theorem C52_input_unchanged (h h' : Heap K) (s l : List Nat) (next : Nat) (hs : ∀ r ∈ s, r < next)
    (hok : profile within boxes crs h s next = .ok (h', l)) :
    (∀ r < next, h' r = h r) ∧ ∀ q ∈ l, q ∉ s := by
  obtain ⟨h1, h2, h3, -⟩ := profile_ok within boxes crs h h' s l next hs hok
  refine ⟨h3, fun q hq hqs => ?_⟩
  have := h2 q hq
  have := hs q hqs
  omega

/-- C52.  Data and `num` of the profile do not depend on the order of the traces. -/
theorem C52_order_independent (h h1 h2 : Heap K) (s s' l l' : List Nat) (next next' : Nat)
    (hs : ∀ r ∈ s, r < next) (hs' : ∀ r ∈ s', r < next') (hp : s.Perm s')
    (hok : profile within boxes crs h s next = .ok (h1, l))
    (hok' : profile within boxes crs h s' next' = .ok (h2, l'))
    (hlen : ∀ r ∈ s, ∀ q ∈ s, binOf (boxSets within boxes) (h r) = binOf (boxSets within boxes) (h q) →
      (h r).data.length = (h q).data.length)
    (q q' : Nat) (hq : q ∈ l) (hq' : q' ∈ l') (k : K × Char) (hk : HasBin (h1 q) k)
    (hk' : HasBin (h2 q') k) :
    (h1 q).data = (h2 q').data ∧ (h1 q).ext.get "num" = (h2 q').ext.get "num" := by
  obtain ⟨n1, d1⟩ := C50_mean within boxes crs h h1 s l next hs hok q hq k hk
  obtain ⟨n2, d2⟩ := C50_mean within boxes crs h h2 s' l' next' hs' hok' q' hq' k hk'
  have hpm : (binMembers (boxSets within boxes) h s k).Perm (binMembers (boxSets within boxes) h s' k) :=
    hp.filter _
  refine ⟨?_, by rw [n1, n2, hpm.length_eq]⟩
  obtain ⟨k0, hk0, r, hr, hrk⟩ := (C50_one_per_bin within boxes crs h h1 s l next hs hok).2.2 q hq
  have hkk := hk0.unique hk
  subst hkk
  have hall : ∀ x ∈ binMembers (boxSets within boxes) h s k0, (h x).data.length = (h r).data.length := by
    intro x hx
    obtain ⟨hx1, hx2⟩ := List.mem_filter.1 hx
    simp only [decide_eq_true_eq] at hx2
    exact hlen x hx1 r hr (hx2.trans hrk.symm)
  obtain ⟨l1, e1⟩ := d1 _ hall
  obtain ⟨l2, e2⟩ := d2 (h r).data.length (fun x hx => hall x (hpm.mem_iff.2 hx))
  apply List.ext_getElem (by rw [l1, l2])
  intro i hi1 hi2
  have a1 := e1 i (by omega)
  have a2 := e2 i (by omega)
  rw [List.getD_eq_getElem _ _ hi1] at a1
  rw [List.getD_eq_getElem _ _ hi2] at a2
  rw [a1, a2]
  unfold meanAt
  have hpr := hpm.map (fun r => (h r).data)
  rw [(hpr.map _).sum_eq, hpr.length_eq]

/-- C50, success: `profile` succeeds if all traces have a piercing point, a channel and no onset that is
not a time, the first box has the profile dictionary, and traces of the same bin have the same length. -/
theorem C50_succeeds (h : Heap K) (s : List Nat) (next : Nat) (hs : ∀ r ∈ s, r < next)
    (hpp : ∀ r ∈ s, ∃ a b c, (h r).getNum "pp_latitude" = some a ∧
      (h r).getNum "pp_longitude" = some b ∧ (h r).cha.getLast? = some c)
    (hon : ∀ r ∈ s, (h r).ext.get "onset" = none ∨ ∃ o, (h r).ext.get "onset" = some (.time o))
    (hbox : ∃ b0 bs pr, boxes = b0 :: bs ∧ b0.profile = some pr)
    (hlen : ∀ r ∈ s, ∀ q ∈ s, binOf (boxSets within boxes) (h r) = binOf (boxSets within boxes) (h q) →
      (h r).data.length = (h q).data.length) :
    ∃ h' l, profile within boxes crs h s next = .ok (h', l) := by
  obtain ⟨b0, bs, pr, hbs, hpr⟩ := hbox
  have hloop : ∀ (todo done : List Nat) (st : PState K), done ++ todo = s →
      PInv within boxes h next done st → ∃ st', loop within boxes crs st todo = .ok st' := by
    intro todo
    induction todo with
    | nil => exact fun _ st _ _ => ⟨st, rfl⟩
    | cons r todo ih =>
      intro done st hsplit hi
      have hrs : r ∈ s := by rw [← hsplit]; simp
      have hold := hi.old r (hs r hrs)
      have hstep : ∃ st1, step within boxes crs st r = .ok st1 := by
        obtain ⟨a, b, c, ha, hb, hc⟩ := hpp r hrs
        unfold step
        simp only []
        rw [hold]
        have hp : piercingPoint (h r) = .ok (a, b) := by unfold piercingPoint; rw [ha, hb]
        have hf : findBox within boxes crs (a, b) = .ok (boxes.find? (fun b' => within (a, b) b'.poly)) := by
          unfold findBox
          rw [if_neg]
          rw [hbs]; simp
        simp only [hp, hf]
        cases hfind : boxes.find? (fun b' => within (a, b) b'.poly) with
        | none => exact ⟨st, rfl⟩
        | some bx =>
          have hc' : (h r).comp = some c := hc
          simp only [hc']
          have hbin : binOf (boxSets within boxes) (h r) = some (bx.pos, c) := by
            unfold binOf
            rw [ha, hb, hc]
            simp [firstBox_find, hfind]
          cases hl : lookup st.stack (bx.pos, c) with
          | none =>
            have hnew : ∃ t2, newTrace boxes bx c (h r) = .ok t2 := by
              unfold newTrace
              rw [hbs]
              simp only [hpr]
              rcases hon r hrs with ho | ⟨o, ho⟩ <;> rw [ho] <;> exact ⟨_, rfl⟩
            obtain ⟨t2, ht2⟩ := hnew
            simp only [ht2]
            exact ⟨_, rfl⟩
          | some q =>
            have hmem := lookup_some _ _ _ hl
            obtain ⟨v1, v2, v3, v4, v5, v6⟩ := hi.vals _ hmem
            have hln := (v6 (h r).data.length (fun x hx => by
              obtain ⟨hx1, hx2⟩ := List.mem_filter.1 hx
              simp only [decide_eq_true_eq] at hx2
              exact hlen x (by rw [← hsplit]; exact List.mem_append_left _ hx1) r hrs
                (hx2.trans hbin.symm))).1
            simp only [] at hln v1
            have hadd : ∃ t2, addTrace (st.heap q) (h r) = .ok t2 := by
              unfold addTrace
              rw [npAdd_eq _ _ hln, (getNum_eq _ _ _).2 v1]
              exact ⟨_, rfl⟩
            obtain ⟨t2, ht2⟩ := hadd
            simp only [ht2]
            exact ⟨_, rfl⟩
      obtain ⟨st1, hst1⟩ := hstep
      have hi1 := step_inv within boxes crs h next done st st1 r (hs r hrs) hi hst1
      obtain ⟨st', hst'⟩ := ih (done ++ [r]) st1 (by rw [← hsplit]; simp) hi1
      exact ⟨st', by unfold loop; rw [hst1]; exact hst'⟩
  obtain ⟨st, hst⟩ := hloop s [] ⟨h, [], next⟩ rfl
    ⟨le_refl _, by simp, by simp, by simp, fun _ _ => rfl, by simp, by simp⟩
  unfold profile
  rw [hst]
  exact ⟨_, _, rfl⟩

end profile

/-! ### A concrete case -/

section example_profile

/-- Intervals on the latitude axis as boxes. -/
def exWithin (p : ℚ × ℚ) (c : List (ℚ × ℚ)) : Bool :=
  match c with
  | [a, b] => decide (a.2 < p.1 ∧ p.1 < b.2)
  | _ => false

def exBox (a b : ℚ) (i : Bool) : Box ℚ :=
  ⟨[(0, a), (0, b)], b - a, (a + b) / 2, ((a + b) / 2, 0), if i then some ⟨(0, 0), 0, 3, 2⟩ else none⟩

/-- The second box overlaps the first one. -/
def exBoxes : List (Box ℚ) := [exBox 0 2 true, exBox 1 3 false]

/-- Latitudes 1/2, 3/2, 5/2, 9 (outside). -/
def exHeap : Heap ℚ := fun r =>
  ⟨[], [], [], "BHQ".toList, 10, 2, [r, 2], [("pp_latitude", .num (if r = 3 then 9 else (r : ℚ) + 1/2)),
    ("pp_longitude", .num 0), ("onset", .time 12)]⟩

example : (profile exWithin exBoxes false exHeap [2, 0, 3, 1] 4).map
    (fun r => r.2.map fun q => ((r.1 q).data, (r.1 q).cha, (r.1 q).getNum "num", (r.1 q).getNum "box_pos"))
    = .ok [([1/2, 2], "??Q".toList, some 2, some 1), ([2, 2], "??Q".toList, some 1, some 2)] := by
  decide +kernel

end example_profile

end Verif.Props
