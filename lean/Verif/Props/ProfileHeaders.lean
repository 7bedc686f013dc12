import Verif.Props.ProfileBoxes

/-!
# Headers of profile boxes and profile traces (C90)
-/

set_option linter.unusedSimpArgs false
set_option linter.unusedSectionVars false

namespace Verif.Props
open Verif.Py Verif.Model.Profile Verif.Spec

section boxes
variable {K : Type} [Field K] [LinearOrder K] [IsStrictOrderedRing K] [FloorRing K]
  (geo : K × K → K → K → K × K) (latlon0 : K × K) (azimuth width : K)

/-- C90: the coordinates of a box are those of its middle: from the start of the profile along the azimuth to the
start of the bin, from there half of the bin. -/
theorem C90_middle (bins : List K) (i : Nat) (hi : i + 1 < bins.length) :
    ((getProfileBoxes geo latlon0 azimuth bins width)[i]?).map (fun b => b.latlon) =
      some (geo (geo latlon0 azimuth bins[i]) azimuth ((bins[i + 1] - bins[i]) / 2)) := by
  rw [profileBoxes_get geo latlon0 azimuth width bins i hi]
  rfl

/-- On the plane this is the point of the profile line at the recorded position. -/
theorem C90_middle_plane (f : K → K × K) (hgeo : ∀ x y : K, geo (f x) azimuth y = f (x + y)) (h0 : f 0 = latlon0)
    (bins : List K) (i : Nat) (hi : i + 1 < bins.length) :
    ∃ b, (getProfileBoxes geo latlon0 azimuth bins width)[i]? = some b ∧ b.latlon = f b.pos := by
  rw [profileBoxes_get geo latlon0 azimuth width bins i hi]
  refine ⟨_, rfl, ?_⟩
  change geo (geo latlon0 azimuth bins[i]) azimuth ((bins[i + 1] - bins[i]) / 2) = f (bins[i] + (bins[i + 1] - bins[i]) / 2)
  rw [← h0, hgeo, hgeo, zero_add]

end boxes

section profile
variable {K : Type} [Field K] [LinearOrder K]
  (within : K × K → List (K × K) → Bool) (boxes : List (Box K)) (crs : Bool)

/-- Header entries of the profile trace for a box and the first trace in it; the number of traces and the type of
the stream apart. -/
def profileEntry (box : Box K) (pr : ProfileInfo K) (first : Trace K) (key : String) : Option (Val K) :=
  if key = "onset" then (first.getTime "onset").map fun o => .time (o - first.start)
  else if key = "box_pos" then some (.num box.pos)
  else if key = "box_length" then some (.num box.length)
  else if key = "box_latitude" then some (.num box.latlon.1)
  else if key = "box_longitude" then some (.num box.latlon.2)
  else if key = "profile_latitude" then some (.num pr.latlon.1)
  else if key = "profile_longitude" then some (.num pr.latlon.2)
  else if key = "profile_azimuth" then some (.num pr.azimuth)
  else if key = "profile_length" then some (.num pr.length)
  else if key = "slowness" ∨ key = "phase" ∨ key = "moveout" ∨ key = "processing" then first.ext.get key
  else none

theorem get_cons (a : String) (v : Val K) (d : Dict (Val K)) (key : String) :
    Dict.get ((a, v) :: d) key = if a = key then some v else d.get key := rfl

theorem ite_swap (a b : String) (v : Option (Val K)) (x y : Option (Val K)) (h : x = y) :
    (if a = b then v else x) = if b = a then v else y := by
  subst h
  by_cases c : a = b
  · rw [if_pos c, if_pos c.symm]
  · rw [if_neg c, if_neg (Ne.symm c)]

theorem newTrace_entries (box : Box K) (comp : Char) (t t2 : Trace K) (hok : newTrace boxes box comp t = .ok t2) :
    ∃ pr, boxes.head?.bind (fun b => b.profile) = some pr ∧
      (∀ key, key ≠ "num" → t2.ext.get key = profileEntry box pr t key) ∧ t2.net = [] ∧ t2.sta = [] ∧ t2.loc = [] := by
  unfold newTrace at hok
  cases boxes with
  | nil => cases hok
  | cons b0 bs =>
    simp only [] at hok
    cases hp : b0.profile with
    | none => rw [hp] at hok; cases hok
    | some pr =>
      rw [hp] at hok
      simp only [] at hok
      refine ⟨pr, by simp [hp], ?_⟩
      have hbase : ∀ key, key ≠ "num" → key ≠ "onset" →
          Dict.get ([("box_pos", .num box.pos), ("box_length", .num box.length),
            ("box_latitude", .num box.latlon.1), ("box_longitude", .num box.latlon.2),
            ("profile_latitude", .num pr.latlon.1), ("profile_longitude", .num pr.latlon.2),
            ("profile_azimuth", .num pr.azimuth), ("profile_length", .num pr.length), ("num", .num 1)]
            ++ copiedEntries.filterMap fun k => (t.ext.get k).map fun v => (k, v)) key
            = profileEntry box pr t key := by
        intro key h1 h2
        simp only [List.cons_append, List.nil_append]
        rw [get_cons, get_cons, get_cons, get_cons, get_cons, get_cons, get_cons, get_cons, get_cons,
          copied_get, if_neg (Ne.symm h1)]
        unfold profileEntry
        rw [if_neg h2]
        refine ite_swap _ _ _ _ _ ?_
        refine ite_swap _ _ _ _ _ ?_
        refine ite_swap _ _ _ _ _ ?_
        refine ite_swap _ _ _ _ _ ?_
        refine ite_swap _ _ _ _ _ ?_
        refine ite_swap _ _ _ _ _ ?_
        refine ite_swap _ _ _ _ _ ?_
        refine ite_swap _ _ _ _ _ ?_
        have : key ∈ copiedEntries ↔ (key = "slowness" ∨ key = "phase" ∨ key = "moveout" ∨ key = "processing") := by
          unfold copiedEntries
          rw [List.mem_cons, List.mem_cons, List.mem_cons, List.mem_singleton]
        by_cases hm : key ∈ copiedEntries
        · rw [if_pos hm, if_pos (this.1 hm)]
        · rw [if_neg hm, if_neg (fun h => hm (this.2 h))]
      have hno : ∀ key, key ≠ "num" → key = "onset" →
          Dict.get ([("box_pos", .num box.pos), ("box_length", .num box.length),
            ("box_latitude", .num box.latlon.1), ("box_longitude", .num box.latlon.2),
            ("profile_latitude", .num pr.latlon.1), ("profile_longitude", .num pr.latlon.2),
            ("profile_azimuth", .num pr.azimuth), ("profile_length", .num pr.length), ("num", .num 1)]
            ++ copiedEntries.filterMap fun k => (t.ext.get k).map fun v => (k, v)) key = none := by
        intro key _ h
        subst h
        rw [dict_get_append, copied_get]
        rfl
      split at hok
      · rename_i o ho
        injection hok with hok
        subst hok
        refine ⟨fun key hk => ?_, rfl, rfl, rfl⟩
        rw [tput_get]
        by_cases c : key = "onset"
        · rw [if_pos c]
          subst c
          unfold profileEntry Trace.getTime
          rw [ho]
          simp
        · rw [if_neg c]
          exact hbase key hk c
      · cases hok
      · rename_i ho
        injection hok with hok
        subst hok
        refine ⟨fun key hk => ?_, rfl, rfl, rfl⟩
        by_cases c : key = "onset"
        · refine (hno key hk c).trans ?_
          subst c
          unfold profileEntry Trace.getTime
          rw [ho]
          simp
        · exact hbase key hk c

/-- The first box which encloses the piercing point of a trace. -/
def boxOf (t : Trace K) : Option (Box K) :=
  match t.getNum "pp_latitude", t.getNum "pp_longitude" with
  | some a, some b => boxes.find? fun x => within (a, b) x.poly
  | _, _ => none

/-- A new trace is made with the first box which encloses the piercing point. -/
theorem step_box (st st' : PState K) (r : Nat) (hok : step within boxes crs st r = .ok st') :
    (binOf (boxSets within boxes) (st.heap r) = none ∧ st' = st) ∨
    ∃ k, binOf (boxSets within boxes) (st.heap r) = some k ∧
      ((lookup st.stack k = none ∧ ∃ box t2, boxOf within boxes (st.heap r) = some box ∧
          newTrace boxes box k.2 (st.heap r) = .ok t2 ∧
          st' = { heap := st.heap.set st.next t2, stack := st.stack ++ [(k, st.next)],
                  next := st.next + 1 }) ∨
       ∃ q t2, lookup st.stack k = some q ∧ addTrace (st.heap q) (st.heap r) = .ok t2 ∧
          st' = { st with heap := st.heap.set q t2 }) := by
  rcases step_ok within boxes crs st st' r hok with h | ⟨k, hk, ⟨hl, box, t2, hpos, hnew, hst⟩ | h⟩
  · exact .inl h
  · refine .inr ⟨k, hk, .inl ⟨hl, ?_⟩⟩
    unfold step at hok
    simp only [] at hok
    split at hok
    · cases hok
    · rename_i p hp
      split at hok
      · cases hok
      · rename_i hf
        exfalso
        injection hok with hok
        rw [← hok] at hst
        have := congrArg (fun x => x.next) hst
        simp at this
      · rename_i box' hf
        split at hok
        · cases hok
        · rename_i comp hcomp
          have hbox : boxOf within boxes (st.heap r) = some box' := by
            unfold piercingPoint at hp
            unfold boxOf
            split at hp
            · rename_i a b ha hb
              injection hp with hp
              rw [ha, hb]
              simp only []
              unfold findBox at hf
              split at hf
              · cases hf
              · injection hf with hf
                rw [← hp] at hf
                exact hf
            · cases hp
          have hkey : k = (box'.pos, comp) := by
            have := step_ok within boxes crs st st' r
            unfold binOf at hk
            unfold boxOf at hbox
            cases ha : (st.heap r).getNum "pp_latitude" with
            | none => rw [ha] at hbox; cases hbox
            | some a =>
              cases hb : (st.heap r).getNum "pp_longitude" with
              | none => rw [ha, hb] at hbox; cases hbox
              | some b =>
                rw [ha, hb] at hbox hk
                unfold Trace.comp at hcomp
                rw [hcomp] at hk
                simp only [] at hk hbox
                rw [firstBox_find, hbox] at hk
                simp only [Option.map_some, Option.some.injEq] at hk
                exact hk.symm
          rw [hkey] at hl
          rw [hl] at hok
          simp only [] at hok
          split at hok
          · cases hok
          · rename_i t2' ht2'
            injection hok with hok
            refine ⟨box', t2', hbox, ?_, ?_⟩
            · rw [hkey]; exact ht2'
            · rw [← hok, hkey]
  · exact .inr ⟨k, hk, .inr h⟩

/-- Invariant on the headers. -/
def HInv (h0 : Heap K) (done : List Nat) (st : PState K) : Prop :=
  ∀ e ∈ st.stack, ∃ r box pr, (binMembers (boxSets within boxes) h0 done e.1).head? = some r ∧
    boxOf within boxes (h0 r) = some box ∧ boxes.head?.bind (fun b => b.profile) = some pr ∧
    (∀ key, key ≠ "num" → (st.heap e.2).ext.get key = profileEntry box pr (h0 r) key) ∧
    (st.heap e.2).net = [] ∧ (st.heap e.2).sta = [] ∧ (st.heap e.2).loc = []

theorem head?_append_of {α : Type} (l l' : List α) (x : α) (h : l.head? = some x) : (l ++ l').head? = some x := by
  cases l with
  | nil => cases h
  | cons a l => exact h

theorem addTrace_codes (t2 t t' : Trace K) (hok : addTrace t2 t = .ok t') :
    t'.net = t2.net ∧ t'.sta = t2.sta ∧ t'.loc = t2.loc := by
  unfold addTrace at hok
  split at hok
  · cases hok
  · split at hok
    · cases hok
    · injection hok with hok
      subst hok
      exact ⟨rfl, rfl, rfl⟩

theorem step_hinv (h0 : Heap K) (n0 : Nat) (done : List Nat) (st st' : PState K) (r : Nat) (hr : r < n0)
    (hi : PInv within boxes h0 n0 done st) (hh : HInv within boxes h0 done st)
    (hok : step within boxes crs st r = .ok st') : HInv within boxes h0 (done ++ [r]) st' := by
  have hold : st.heap r = h0 r := hi.old r hr
  have happ : ∀ k x, (binMembers (boxSets within boxes) h0 done k).head? = some x →
      (binMembers (boxSets within boxes) h0 (done ++ [r]) k).head? = some x := by
    intro k x hx
    rw [binMembers_append]
    exact head?_append_of _ _ _ hx
  rcases step_box within boxes crs st st' r hok with ⟨-, rfl⟩ | ⟨k, hk, ⟨hl, box, t2, hbox, hnew, rfl⟩ |
      ⟨q, t2, hl, hadd, rfl⟩⟩
  · intro e he
    obtain ⟨x, box, pr, h1, h2⟩ := hh e he
    exact ⟨x, box, pr, happ _ _ h1, h2⟩
  · rw [hold] at hbox hnew hk
    have hnk : k ∉ st.stack.map Prod.fst := (lookup_none _ _).1 hl
    intro e he
    simp only [] at he ⊢
    rcases List.mem_append.1 he with he | he
    · have hlt := (hi.refs_range e he).2
      obtain ⟨x, box', pr, h1, h2⟩ := hh e he
      refine ⟨x, box', pr, happ _ _ h1, ?_⟩
      rw [Heap.set_ne _ _ (by omega)]
      exact h2
    · rw [List.mem_singleton] at he
      subst he
      have hempty : binMembers (boxSets within boxes) h0 done k = [] := by
        unfold binMembers
        rw [List.filter_eq_nil_iff]
        intro q hq h
        exact hnk ((hi.keys k).2 ⟨q, hq, by simpa using h⟩)
      obtain ⟨pr, hp1, hp2, hp3, hp4, hp5⟩ := newTrace_entries boxes box k.2 _ _ hnew
      refine ⟨r, box, pr, ?_, hbox, hp1, ?_⟩
      · rw [binMembers_append, hempty, if_pos hk]
        rfl
      · simp only [Heap.set_self]
        exact ⟨hp2, hp3, hp4, hp5⟩
  · have hmem := lookup_some _ _ _ hl
    obtain ⟨b1, b2, b3, b4, -, b7⟩ := addTrace_ok _ _ _ hadd
    obtain ⟨c1, c2, c3⟩ := addTrace_codes _ _ _ hadd
    intro e he
    simp only [] at he ⊢
    obtain ⟨x, box', pr, h1, h2, h3, h4, h5, h6, h7⟩ := hh e he
    refine ⟨x, box', pr, happ _ _ h1, h2, h3, ?_⟩
    by_cases heq : e.2 = q
    · rw [← heq, Heap.set_self]
      rw [← heq] at b7 c1 c2 c3
      exact ⟨fun key hkey => by rw [b7 key hkey, h4 key hkey], by rw [c1, h5], by rw [c2, h6], by rw [c3, h7]⟩
    · rw [Heap.set_ne _ _ heq]
      exact ⟨h4, h5, h6, h7⟩

theorem loop_hinv (h0 : Heap K) (n0 : Nat) (s done : List Nat) (st st' : PState K)
    (hs : ∀ r ∈ s, r < n0) (hi : PInv within boxes h0 n0 done st) (hh : HInv within boxes h0 done st)
    (hok : loop within boxes crs st s = .ok st') : HInv within boxes h0 (done ++ s) st' := by
  induction s generalizing done st with
  | nil =>
    unfold loop at hok
    injection hok with hok
    subst hok
    simpa using hh
  | cons r s ih =>
    unfold loop at hok
    cases hstep : step within boxes crs st r with
    | error e => rw [hstep] at hok; simp at hok
    | ok st1 =>
      rw [hstep] at hok
      have h1 := step_inv within boxes crs h0 n0 done st st1 r (hs r List.mem_cons_self) hi hstep
      have h2 := step_hinv within boxes crs h0 n0 done st st1 r (hs r List.mem_cons_self) hi hh hstep
      have h3 := ih (done ++ [r]) st1 (fun q hq => hs q (List.mem_cons_of_mem _ hq)) h1 h2 hok
      simpa using h3

/-- C90: the header of a profile trace.  Box entries are those of the first box which encloses the piercing point,
slowness, phase, moveout and processing those of the first trace of the bin, and there are no other entries. -/
theorem C90_headers (h h' : Heap K) (s l : List Nat) (next : Nat) (hs : ∀ r ∈ s, r < next)
    (hok : profile within boxes crs h s next = .ok (h', l)) :
    ∀ q ∈ l, ∃ k r box pr, HasBin (h' q) k ∧ (binMembers (boxSets within boxes) h s k).head? = some r ∧
      boxOf within boxes (h r) = some box ∧ boxes.head?.bind (fun b => b.profile) = some pr ∧
      (h' q).net = [] ∧ (h' q).sta = [] ∧ (h' q).loc = [] ∧
      ∀ key, key ≠ "num" → (h' q).ext.get key =
        if key = "type" then some (.str "profile".toList) else profileEntry box pr (h r) key := by
  unfold profile at hok
  cases hl : loop within boxes crs ⟨h, [], next⟩ s with
  | error e => rw [hl] at hok; simp at hok
  | ok st =>
    rw [hl] at hok
    simp only [Except.ok.injEq, Prod.mk.injEq] at hok
    obtain ⟨hh', hll⟩ := hok
    have hi0 : PInv within boxes h next [] ⟨h, [], next⟩ :=
      ⟨le_refl _, by simp, by simp, by simp, fun _ _ => rfl, by simp, by simp⟩
    have hi : PInv within boxes h next s st := by
      have := loop_inv within boxes crs h next s [] ⟨h, [], next⟩ st hs hi0 hl
      simpa using this
    have hh : HInv within boxes h s st := by
      have := loop_hinv within boxes crs h next s [] ⟨h, [], next⟩ st hs hi0 (by intro e he; cases he) hl
      simpa using this
    set h1 := Heap.forEach divide st.heap (st.stack.map Prod.snd) with hh1
    have hperm : l.Perm (st.stack.map Prod.snd) := by rw [← hll]; exact sortProfile_perm _ _
    have hnd : l.Nodup := hperm.nodup_iff.2 hi.refs_nodup
    rw [hll] at hh'
    intro q hq
    have hq' := hperm.mem_iff.1 hq
    obtain ⟨e, he, rfl⟩ := List.mem_map.1 hq'
    have hval : h' e.2 = (divide (st.heap e.2)).put "type" (.str "profile".toList) := by
      rw [← hh', Heap.forEach_mem _ _ _ _ hnd hq, hh1, Heap.forEach_mem _ _ _ _ hi.refs_nodup hq']
    obtain ⟨r, box, pr, e1, e2, e3, e4, e5, e6, e7⟩ := hh e he
    obtain ⟨v1, v2, v3, -⟩ := hi.vals e he
    refine ⟨e.1, r, box, pr, ?_, e1, e2, e3, ?_, ?_, ?_, ?_⟩
    · rw [hval]
      refine ⟨?_, ?_⟩
      · rw [tput_get, if_neg (by decide)]
        exact v2
      · show (st.heap e.2).cha.getLast? = _
        rw [v3]
        rfl
    · rw [hval]; exact e5
    · rw [hval]; exact e6
    · rw [hval]; exact e7
    · intro key hkey
      rw [hval, tput_get]
      split
      · rfl
      · exact e4 key hkey

end profile

/-- The example of `Profile.lean`: positions and azimuths. -/
example : (profile exWithin exBoxes false exHeap [2, 0, 3, 1] 4).map
    (fun r => r.2.map fun q => ((r.1 q).getNum "box_pos", (r.1 q).getNum "profile_azimuth", (r.1 q).net))
    = .ok [(some 1, some 0, []), (some 2, some 0, [])] := by
  decide +kernel

/-- Hypotheses of the theorem on the middles: a straight line along the second coordinate. -/
example : ∃ (f : ℚ → ℚ × ℚ) (geo : ℚ × ℚ → ℚ → ℚ → ℚ × ℚ),
    (∀ x y : ℚ, geo (f x) 90 y = f (x + y)) ∧ f 0 = (1, 2) :=
  ⟨fun x => (1, 2 + x), fun p _ d => (p.1, p.2 + d), fun x y => by simp [add_assoc], by simp⟩

end Verif.Props
