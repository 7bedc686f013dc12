import Verif.Model.EventIter
import Verif.Props.StreamOps
import Mathlib.Data.List.Basic
import Mathlib.Algebra.Order.Ring.Rat

/-!
# Event iterators (C65-C68)
-/

set_option linter.unusedSimpArgs false
set_option linter.unusedSectionVars false

namespace Verif.Props
open Verif.Py Verif.Model.Headers Verif.Model.EventIter
open scoped List

/-! ## Generators -/

section gen
variable {ι α : Type} (body : ι → Outcome α)

/-- The yielded item, if any. -/
def Yields : Outcome α → Option α
  | .yield x => some x
  | _ => none

/-- The outcome is an exception. -/
def Aborts : Outcome α → Option PyErr
  | .abort e => some e
  | _ => none

theorem genLoop_ok (is : List ι) (h : ∀ i ∈ is, Aborts (body i) = none) :
    genLoop body is = ⟨is.filterMap (fun i => Yields (body i)), is.length, none⟩ := by
  induction is with
  | nil => rfl
  | cons i is ih =>
    have hi := h i (by simp)
    have ih := ih (fun j hj => h j (List.mem_cons_of_mem _ hj))
    unfold genLoop
    cases hb : body i with
    | abort e => rw [hb] at hi; cases hi
    | skip => simp [ih, hb, Yields]
    | yield x => simp [ih, hb, Yields]

theorem genLoop_abort (l1 l2 : List ι) (i : ι) (e : PyErr) (h : ∀ j ∈ l1, Aborts (body j) = none)
    (hi : Aborts (body i) = some e) :
    genLoop body (l1 ++ i :: l2) = ⟨l1.filterMap (fun i => Yields (body i)), l1.length + 1, some e⟩ := by
  induction l1 with
  | nil =>
    rw [List.nil_append]
    unfold genLoop
    cases hb : body i with
    | abort e' => rw [hb] at hi; cases hi; simp
    | skip => rw [hb] at hi; cases hi
    | yield x => rw [hb] at hi; cases hi
  | cons j l1 ih =>
    have hj := h j (by simp)
    have ih := ih (fun j hj => h j (List.mem_cons_of_mem _ hj))
    rw [List.cons_append]
    unfold genLoop
    cases hb : body j with
    | abort e => rw [hb] at hj; cases hj
    | skip => simp [ih, hb, Yields]
    | yield x => simp [ih, hb, Yields]

/-- Every list splits at the first exception. -/
theorem first_abort (is : List ι) : (∀ i ∈ is, Aborts (body i) = none) ∨
    ∃ l1 i l2 e, is = l1 ++ i :: l2 ∧ (∀ j ∈ l1, Aborts (body j) = none) ∧ Aborts (body i) = some e := by
  induction is with
  | nil => left; simp
  | cons i is ih =>
    cases hb : Aborts (body i) with
    | some e => exact Or.inr ⟨[], i, is, e, rfl, by simp, hb⟩
    | none =>
      rcases ih with h | ⟨l1, j, l2, e, rfl, h2, h3⟩
      · left
        intro j hj
        rcases List.mem_cons.1 hj with rfl | hj'
        · exact hb
        · exact h j hj'
      · right
        refine ⟨i :: l1, j, l2, e, rfl, fun k hk => ?_, h3⟩
        rcases List.mem_cons.1 hk with rfl | hk'
        · exact hb
        · exact h2 k hk'

theorem genLoop_none (is : List ι) (h : (genLoop body is).err = none) :
    ∀ i ∈ is, Aborts (body i) = none := by
  rcases first_abort body is with h1 | ⟨l1, i, l2, e, rfl, h2, h3⟩
  · exact h1
  · rw [genLoop_abort body l1 l2 i e h2 h3] at h; cases h

theorem genLoop_items (is : List ι) : ∃ l, l <+: is ∧
    (genLoop body is).items = l.filterMap (fun i => Yields (body i)) ∧
    (genLoop body is).pbar ≤ is.length ∧
    ((genLoop body is).err = none → l = is ∧ (genLoop body is).pbar = is.length) := by
  rcases first_abort body is with h1 | ⟨l1, i, l2, e, rfl, h2, h3⟩
  · rw [genLoop_ok body is h1]
    exact ⟨is, List.prefix_refl _, rfl, le_refl _, fun _ => ⟨rfl, rfl⟩⟩
  · rw [genLoop_abort body l1 l2 i e h2 h3]
    refine ⟨l1, List.prefix_append _ _, rfl, by simp, fun h => by cases h⟩

end gen

theorem pairs_length {α β : Type} (a : List α) (b : List β) :
    (pairs a b).length = a.length * b.length := by
  induction a with
  | nil => simp [pairs]
  | cons x a ih =>
    unfold pairs at ih ⊢
    rw [List.flatMap_cons, List.length_append, ih, List.length_map, List.length_cons, Nat.add_mul]
    omega

section
variable {K Ev C : Type} [Field K] (E : FmtEnv K)

/-! ## C65 -/

/-- The conditions under which a pair is yielded, with everything that is obtained on the way. -/
structure Good (S : Services K Ev C) (win : K × K) (pad : K) (ev : Ev) (st : Str × Char)
    (x : Item K Ev) where
  ot : K
  c : C
  onset : K
  stats : Dict (Val K)
  raw : List (WTrace K)
  stream : List (WTrace K)
  net : Str
  sta : Str
  loc : Str
  cha : Str
  h_time : S.originTime ev = .ok ot
  h_coords : S.coords (st.1.dropLast ++ [st.2]) ot = .ok c
  h_rfstats : S.rfstats c ev = .ok (some (onset, stats))
  h_id : splitOn '.' st.1 = [net, sta, loc, cha]
  h_request : x.request = ⟨net, sta, loc, cha, onset + win.1 - pad, onset + win.2 + pad⟩
  h_waveforms : S.waveforms x.request = .ok (some raw)
  h_trim : S.trimMerge (onset + win.1) (onset + win.2) raw = .ok stream
  h_three : stream.length = 3
  h_gaps : ∀ w ∈ stream, w.masked = false
  h_rf : toRF E (stream.map fun w => { w with tr := updTrace stats w.tr }) = .ok x.traces
  h_event : x.event = ev
  h_seedid : x.seedid = st.1

/-- **C65** A pair is yielded iff origin time, coordinates, ray and waveforms are available, the distance is
in range (`rfstats` does not return `None`) and there are exactly three components without gaps. -/
theorem C65_yield_iff (S : Services K Ev C) (win : K × K) (pad : K) (ev : Ev) (st : Str × Char)
    (x : Item K Ev) :
    step E S win pad ev st = .yield x ↔ Nonempty (Good E S win pad ev st x) := by
  constructor
  · intro h
    unfold step at h
    split at h
    · cases h
    · rename_i ot h1
      split at h
      · cases h
      · rename_i c h2
        split at h
        · cases h
        · cases h
        · rename_i onset stats h3
          unfold fetch at h
          split at h
          · rename_i net sta loc cha h4
            simp only [] at h
            split at h
            · cases h
            · cases h
            · rename_i raw h5
              split at h
              · cases h
              · rename_i stream h6
                split at h
                · cases h
                · rename_i h7
                  split at h
                  · cases h
                  · rename_i h8
                    split at h
                    · cases h
                    · rename_i ts h9
                      cases h
                      refine ⟨⟨ot, c, onset, stats, raw, stream, net, sta, loc, cha, h1, h2, h3, h4,
                        rfl, h5, h6, by simpa using h7, ?_, h9, rfl, rfl⟩⟩
                      simpa using h8
          · cases h
  · rintro ⟨g⟩
    have h8 : (g.stream.any fun w => w.masked) = false := by
      simpa using g.h_gaps
    unfold step
    simp only [g.h_time, g.h_coords, g.h_rfstats]
    unfold fetch
    have hw := g.h_waveforms
    rw [g.h_request] at hw
    simp only [g.h_id, hw, g.h_trim, g.h_three, ne_eq, not_true_eq_false, if_false, h8,
      Bool.false_eq_true, g.h_rf]
    congr 1
    rcases x with ⟨a, b, c, d⟩
    have e1 := g.h_event
    have e2 := g.h_seedid
    have e3 := g.h_request
    simp only at e1 e2 e3
    subst e1 e2
    rw [← e3]

/-- **C65** The reasons for skipping a pair: coordinates, `rfstats` or waveforms fail, the distance is out
of range, there are not three components or there are gaps. -/
theorem C65_skip_iff (S : Services K Ev C) (win : K × K) (pad : K) (ev : Ev) (st : Str × Char) (ot : K)
    (net sta loc cha : Str) (h1 : S.originTime ev = .ok ot)
    (h2 : splitOn '.' st.1 = [net, sta, loc, cha]) :
    step E S win pad ev st = .skip ↔
      (∃ e, S.coords (st.1.dropLast ++ [st.2]) ot = .error e) ∨
      ∃ c, S.coords (st.1.dropLast ++ [st.2]) ot = .ok c ∧
        ((∃ e, S.rfstats c ev = .error e) ∨ S.rfstats c ev = .ok none ∨
        ∃ onset stats, S.rfstats c ev = .ok (some (onset, stats)) ∧
          ((∃ e, S.waveforms ⟨net, sta, loc, cha, onset + win.1 - pad, onset + win.2 + pad⟩ = .error e) ∨
          ∃ raw stream,
            S.waveforms ⟨net, sta, loc, cha, onset + win.1 - pad, onset + win.2 + pad⟩ = .ok (some raw) ∧
            S.trimMerge (onset + win.1) (onset + win.2) raw = .ok stream ∧
            (stream.length ≠ 3 ∨ ∃ w ∈ stream, w.masked = true))) := by
  unfold step
  simp only [h1]
  cases hc : S.coords (st.1.dropLast ++ [st.2]) ot with
  | error e => simp
  | ok c =>
    simp only [reduceCtorEq, exists_false, false_or, Except.ok.injEq, exists_eq_left']
    cases hr : S.rfstats c ev with
    | error e => simp
    | ok o =>
      cases o with
      | none => simp
      | some p =>
        obtain ⟨onset, stats⟩ := p
        unfold fetch
        simp only [h2]
        constructor
        · intro h
          refine Or.inr (Or.inr ⟨onset, stats, rfl, ?_⟩)
          split at h
          · rename_i e hw; exact Or.inl ⟨e, hw⟩
          · cases h
          · rename_i raw hw
            right
            split at h
            · cases h
            · rename_i stream ht
              refine ⟨raw, stream, hw, ht, ?_⟩
              split at h
              · rename_i hl; exact Or.inl hl
              · split at h
                · rename_i hm
                  right
                  simpa using hm
                · split at h <;> cases h
        · rintro (⟨e, h⟩ | h | ⟨onset', stats', h0, h⟩)
          · cases h
          · cases h
          cases h0
          rcases h with ⟨e, hw⟩ | ⟨raw, stream, hw, ht, h⟩
          · simp only [hw]
          · simp only [hw, ht]
            by_cases hl : stream.length = 3
            · rcases h with h | h
              · exact absurd hl h
              · have : (stream.any fun w => w.masked) = true := by simpa using h
                simp [hl, this]
            · simp [hl]

/-- **C65** The yielded streams form a subsequence of the product of events and stations (events outermost,
each pair at most once), the progress bar never exceeds its total, and if the generator ends without
exception the yielded streams are those of all good pairs and the bar has been advanced once per pair. -/
theorem C65_order (S : Nat → Services K Ev C) (events : List Ev) (channels : List Str) (phase : Str)
    (win : Option (K × K)) (pad : K) (w : K × K) (stations : List (Str × Char))
    (hw : requestWindow phase win = .ok w) (hst : getStations channels = .ok stations) :
    let out := iterEventData E S events channels phase win pad
    out.1.items.map (fun x => (x.event, x.seedid)) <+
      (pairs events (stations.map Prod.fst)) ∧
    out.2 = (pairs events stations).length ∧ out.1.pbar ≤ out.2 ∧
    (out.1.err = none → out.1.pbar = out.2 ∧
      out.1.items = ((pairs events stations).zipIdx).filterMap
        (fun p => Yields (step E (S p.2) w pad p.1.1 p.1.2))) := by
  have hout : iterEventData E S events channels phase win pad =
      (genLoop (fun p => step E (S p.2) w pad p.1.1 p.1.2) (pairs events stations).zipIdx,
        events.length * stations.length) := by
    unfold iterEventData
    rw [hw]
    simp only [hst]
  rw [hout]
  simp only []
  obtain ⟨l, h1, h2, h3, h4⟩ := genLoop_items
    (fun p : (Ev × (Str × Char)) × Nat => step E (S p.2) w pad p.1.1 p.1.2) (pairs events stations).zipIdx
  rw [List.length_zipIdx] at h3 h4
  refine ⟨?_, (pairs_length _ _).symm, ?_, ?_⟩
  · rw [h2]
    have hsub : ∀ l : List ((Ev × (Str × Char)) × Nat),
        (l.filterMap (fun p => Yields (step E (S p.2) w pad p.1.1 p.1.2))).map
          (fun x => (x.event, x.seedid)) <+ l.map (fun p => (p.1.1, p.1.2.1)) := by
      intro l
      induction l with
      | nil => simp
      | cons p l ih =>
        cases hs : step E (S p.2) w pad p.1.1 p.1.2 with
        | skip =>
          rw [List.filterMap_cons, hs]
          exact List.Sublist.cons _ ih
        | abort e =>
          rw [List.filterMap_cons, hs]
          exact List.Sublist.cons _ ih
        | yield x =>
          obtain ⟨g⟩ := (C65_yield_iff E (S p.2) w pad p.1.1 p.1.2 x).1 hs
          rw [List.filterMap_cons, hs]
          simp only [Yields, List.map_cons]
          rw [g.h_event, g.h_seedid]
          exact List.Sublist.cons_cons _ ih
    refine (hsub l).trans ?_
    have h5 : l.map (fun p => (p.1.1, p.1.2.1)) <+
        ((pairs events stations).zipIdx).map (fun p => (p.1.1, p.1.2.1)) := h1.sublist.map _
    have h6 : ((pairs events stations).zipIdx).map (fun p => (p.1.1, p.1.2.1)) =
        pairs events (stations.map Prod.fst) := by
      have : ((pairs events stations).zipIdx).map (fun p => (p.1.1, p.1.2.1)) =
          (((pairs events stations).zipIdx).map Prod.fst).map (fun q => (q.1, q.2.1)) := by
        rw [List.map_map]; rfl
      rw [this, List.zipIdx_map_fst]
      unfold pairs
      rw [List.map_flatMap]
      congr 1
      funext e
      rw [List.map_map, List.map_map]
      rfl
    rw [h6] at h5
    exact h5
  · rw [pairs_length] at h3; exact h3
  · intro he
    obtain ⟨h5, h6⟩ := h4 he
    refine ⟨by rw [h6, pairs_length], ?_⟩
    rw [h2, h5]

end
end Verif.Props
