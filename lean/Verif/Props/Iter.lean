import Verif.Model.Iter
import Mathlib.Data.Finset.Sort
import Mathlib.Data.List.Perm.Basic

/-!
# Properties of `IterMultipleComponents`: C01, C02, C03
-/

namespace Verif.Props
open Verif.Py Verif.Model

section lemmas
variable {κ τ : Type} [DecidableEq κ]

theorem dictAppend_keys (d : List (κ × List τ)) (k : κ) (v : τ) :
    (dictAppend d k v).map Prod.fst =
      if k ∈ d.map Prod.fst then d.map Prod.fst else d.map Prod.fst ++ [k] := by
  induction d with
  | nil => simp [dictAppend]
  | cons p d ih =>
    obtain ⟨k', vs⟩ := p
    by_cases h : k' = k
    · simp [dictAppend, h]
    · simp only [dictAppend, h, if_false, List.map_cons, ih, List.mem_cons, Ne.symm h, false_or]
      split <;> simp

theorem dictAppend_mem (d : List (κ × List τ)) (hn : (d.map Prod.fst).Nodup) (k : κ) (v : τ)
    (k1 : κ) (vs1 : List τ) :
    (k1, vs1) ∈ dictAppend d k v ↔
      (k1 ≠ k ∧ (k1, vs1) ∈ d) ∨
      (k1 = k ∧ ((∃ vs, (k, vs) ∈ d ∧ vs1 = vs ++ [v]) ∨ (k ∉ d.map Prod.fst ∧ vs1 = [v]))) := by
  induction d with
  | nil => simp [dictAppend]
  | cons p d ih =>
    obtain ⟨k', vs⟩ := p
    simp only [List.map_cons, List.nodup_cons] at hn
    by_cases h : k' = k
    · subst h
      have hk : ∀ ws, (k', ws) ∉ d := fun ws hm => hn.1 (List.mem_map.2 ⟨_, hm, rfl⟩)
      simp only [dictAppend, if_true, List.mem_cons, Prod.mk.injEq, List.map_cons, true_or,
        not_true_eq_false, false_and, or_false, true_and]
      constructor
      · rintro (⟨rfl, rfl⟩ | hm)
        · right; exact ⟨rfl, vs, Or.inl rfl, rfl⟩
        · left
          refine ⟨?_, Or.inr hm⟩
          rintro rfl; exact hk _ hm
      · rintro (⟨hne, (⟨rfl, _⟩ | hm)⟩ | ⟨rfl, ws, (rfl | hm), rfl⟩)
        · exact absurd rfl hne
        · exact Or.inr hm
        · exact Or.inl ⟨rfl, rfl⟩
        · exact absurd hm (hk _)
    · simp only [dictAppend, h, if_false, List.mem_cons, ih hn.2, Prod.mk.injEq, List.map_cons,
        Ne.symm h, false_or]
      constructor
      · rintro (⟨rfl, rfl⟩ | ⟨hne, hm⟩ | ⟨rfl, (⟨ws, hm, rfl⟩ | ⟨hm, rfl⟩)⟩)
        · exact Or.inl ⟨h, Or.inl ⟨rfl, rfl⟩⟩
        · exact Or.inl ⟨hne, Or.inr hm⟩
        · exact Or.inr ⟨rfl, Or.inl ⟨ws, by simpa using hm, rfl⟩⟩
        · exact Or.inr ⟨rfl, Or.inr ⟨hm, rfl⟩⟩
      · rintro (⟨hne, (⟨rfl, rfl⟩ | hm)⟩ | ⟨rfl, (⟨ws, hm, rfl⟩ | ⟨hm, rfl⟩)⟩)
        · exact Or.inl ⟨rfl, rfl⟩
        · exact Or.inr (Or.inl ⟨hne, hm⟩)
        · exact Or.inr (Or.inr ⟨rfl, Or.inl ⟨ws, by simpa using hm, rfl⟩⟩)
        · exact Or.inr (Or.inr ⟨rfl, Or.inr ⟨hm, rfl⟩⟩)

/-- What the grouping loop has computed after the traces `l`. -/
structure GroupInv (keyOf : τ → κ) (l : List τ) (d : List (κ × List τ)) : Prop where
  nodup : (d.map Prod.fst).Nodup
  keys : ∀ k, k ∈ d.map Prod.fst ↔ k ∈ l.map keyOf
  vals : ∀ k vs, (k, vs) ∈ d → vs = l.filter (fun t => keyOf t = k)

theorem groupInv_step (keyOf : τ → κ) (l : List τ) (d : List (κ × List τ)) (t : τ)
    (h : GroupInv keyOf l d) : GroupInv keyOf (l ++ [t]) (dictAppend d (keyOf t) t) := by
  refine ⟨?_, ?_, ?_⟩
  · rw [dictAppend_keys]
    split
    · exact h.nodup
    · rename_i hk
      rw [List.nodup_append]
      refine ⟨h.nodup, by simp, ?_⟩
      rintro a ha b hb rfl
      simp only [List.mem_singleton] at hb
      subst hb
      exact hk ha
  · intro k
    rw [dictAppend_keys]
    have := h.keys k
    have hkt := h.keys (keyOf t)
    split
    · rename_i hk
      rw [this]
      simp only [List.map_append, List.mem_append, List.map_cons, List.map_nil, List.mem_singleton]
      constructor
      · exact Or.inl
      · rintro (h1 | rfl)
        · exact h1
        · exact hkt.1 hk
    · rw [List.mem_append, this]
      simp
  · intro k vs hm
    rw [dictAppend_mem d h.nodup] at hm
    rw [List.filter_append]
    rcases hm with ⟨hne, hm⟩ | ⟨rfl, (⟨ws, hm, rfl⟩ | ⟨hm, rfl⟩)⟩
    · rw [h.vals k vs hm]; simp [Ne.symm hne]
    · rw [h.vals _ _ hm]; simp
    · have : l.filter (fun x => decide (keyOf x = keyOf t)) = [] := by
        rw [List.filter_eq_nil_iff]
        intro a ha hka
        apply hm
        rw [h.keys]
        exact List.mem_map.2 ⟨a, ha, by simpa using hka⟩
      rw [this]; simp

theorem groupInv_loop (keyOf : τ → κ) (l : List τ) : GroupInv keyOf l (groupLoop keyOf l) := by
  have aux : ∀ (l l0 : List τ) (d : List (κ × List τ)), GroupInv keyOf l0 d →
      GroupInv keyOf (l0 ++ l) (l.foldl (fun d tr => dictAppend d (keyOf tr) tr) d) := by
    intro l
    induction l with
    | nil => intro l0 d h; simpa using h
    | cons t l ih =>
      intro l0 d h
      have := ih (l0 ++ [t]) _ (groupInv_step keyOf l0 d t h)
      simpa using this
  have := aux l [] [] ⟨by simp, by simp, by simp⟩
  simpa [groupLoop] using this

end lemmas

/-- Full characterisation of the iteration: for every key occurring in the stream, in increasing
order, the traces with this key in stream order; then the filter on the number of components. -/
theorem iterSubstreams_eq {κ τ : Type} [LinearOrder κ] (keyOf : τ → κ) (n : NumComp)
    (stream : List τ) :
    iterSubstreams keyOf n stream =
      (((stream.map keyOf).toFinset.sort (· ≤ ·)).map
        (fun k => stream.filter (fun t => keyOf t = k))).filter (fun s => n.accepts s.length) := by
  have inv := groupInv_loop keyOf stream
  unfold iterSubstreams
  congr 1
  generalize hd : groupLoop keyOf stream = d at inv
  set e := d.insertionSort (fun a b => a.1 ≤ b.1) with he
  have hperm : e.Perm d := List.perm_insertionSort _ _
  have hsorted : (e.map Prod.fst).Pairwise (· ≤ ·) := by
    rw [List.pairwise_map]
    have : Std.Total (fun a b : κ × List τ => a.1 ≤ b.1) := ⟨fun a b => le_total _ _⟩
    have : IsTrans (κ × List τ) (fun a b => a.1 ≤ b.1) := ⟨fun a b c h1 h2 => le_trans h1 h2⟩
    exact List.pairwise_insertionSort _ d
  have hnodup : (e.map Prod.fst).Nodup := (hperm.map Prod.fst).nodup_iff.2 inv.nodup
  have hkeys : e.map Prod.fst = (stream.map keyOf).toFinset.sort (· ≤ ·) := by
    have hp : (e.map Prod.fst).Perm ((stream.map keyOf).toFinset.sort (· ≤ ·)) := by
      rw [List.perm_ext_iff_of_nodup hnodup (Finset.sort_nodup _ _)]
      intro k
      rw [(hperm.map Prod.fst).mem_iff, inv.keys k, Finset.mem_sort, List.mem_toFinset]
    exact hp.eq_of_pairwise' hsorted (Finset.pairwise_sort _ _)
  rw [← hkeys, List.map_map]
  apply List.map_congr_left
  rintro ⟨k, vs⟩ hm
  exact inv.vals k vs (hperm.mem_iff.1 hm)

/-- The key used for a stream whose lookups all succeed. -/
theorem iterMultipleComponents_ok {τ : Type} (ident : τ → Str) (key : Option (τ → Res Str))
    (n : NumComp) (stream : List τ) (gs : List (List τ))
    (h : iterMultipleComponents ident key n stream = .ok gs) :
    ∃ (κ : Type) (_ : LinearOrder κ) (kf : τ → κ), gs = iterSubstreams kf n stream ∧
      (∀ a ∈ stream, ∀ b ∈ stream, kf a = kf b ↔
        ((ident a).dropLast = (ident b).dropLast ∧ ∀ f, key = some f → f a = f b)) ∧
      (∀ a ∈ stream, ∀ b ∈ stream, kf a < kf b ↔
        ((ident a).dropLast < (ident b).dropLast ∨ ((ident a).dropLast = (ident b).dropLast ∧
          ∃ f sa sb, key = some f ∧ f a = .ok sa ∧ f b = .ok sb ∧ sa < sb))) := by
  unfold iterMultipleComponents at h
  cases key with
  | none =>
    simp only [Except.ok.injEq] at h
    refine ⟨GroupKey, inferInstance, _, h.symm, ?_, ?_⟩
    · intro a _ b _; simp [groupKey]
    · intro a _ b _; simp [groupKey, Prod.Lex.toLex_lt_toLex]
  | some f =>
    simp only at h
    split at h
    · simp at h
    · rename_i hnone
      rw [List.findSome?_eq_none_iff] at hnone
      have hok : ∀ t ∈ stream, f t = .ok (okD [] (f t)) := by
        intro t ht
        have := hnone t ht
        cases hft : f t with
        | ok x => rfl
        | error e => rw [hft] at this; simp [errOf] at this
      simp only [Except.ok.injEq] at h
      refine ⟨GroupKey, inferInstance, _, h.symm, ?_, ?_⟩
      · intro a ha b hb
        simp only [groupKey, toLex_inj, Prod.mk.injEq, WithBot.coe_inj, Option.some.injEq,
          forall_eq']
        rw [hok a ha, hok b hb]
        simp [okD]
      · intro a ha b hb
        simp only [groupKey, Prod.Lex.toLex_lt_toLex, WithBot.coe_lt_coe, Option.some.injEq]
        constructor
        · rintro (h1 | ⟨h1, h2⟩)
          · exact Or.inl h1
          · exact Or.inr ⟨h1, f, _, _, rfl, hok a ha, hok b hb, h2⟩
        · rintro (h1 | ⟨h1, f', sa, sb, rfl, h2, h3, h4⟩)
          · exact Or.inl h1
          · right
            refine ⟨h1, ?_⟩
            rw [h2, h3]
            exact h4

/-- **C01.** Without number filter the substreams are non-empty and together are a rearrangement
of the stream (each trace, also a repeated one, exactly as often as in the stream). -/
theorem C01_partition {τ : Type} (ident : τ → Str) (key : Option (τ → Res Str))
    (stream : List τ) (gs : List (List τ))
    (h : iterMultipleComponents ident key .none stream = .ok gs) :
    (∀ g ∈ gs, g ≠ []) ∧ gs.flatten.Perm stream := by
  obtain ⟨κ, _, kf, rfl, -, -⟩ := iterMultipleComponents_ok ident key .none stream gs h
  rw [iterSubstreams_eq]
  simp only [NumComp.accepts, List.filter_true]
  constructor
  · intro g hg
    simp only [List.mem_map, Finset.mem_sort, List.mem_toFinset] at hg
    obtain ⟨k, ⟨a, ha, rfl⟩, rfl⟩ := hg
    intro hnil
    rw [List.filter_eq_nil_iff] at hnil
    exact hnil a ha (by simp)
  · have := Classical.decEq τ
    rw [List.perm_iff_count]
    intro a
    rw [List.count_flatten, List.map_map]
    have hcount : ∀ k, (List.count a ∘ fun k => stream.filter (fun t => decide (kf t = k))) k
        = if k = kf a then stream.count a else 0 := by
      intro k
      simp only [Function.comp]
      split
      · rename_i hk
        exact List.count_filter (by simp [hk])
      · rename_i hk
        rw [List.count_eq_zero]
        intro hm
        exact hk (by simpa [eq_comm] using (List.mem_filter.1 hm).2)
    rw [List.map_congr_left (fun k _ => hcount k)]
    by_cases ha : a ∈ stream
    · have hka : kf a ∈ (stream.map kf).toFinset.sort (· ≤ ·) := by
        simp only [Finset.mem_sort, List.mem_toFinset]; exact List.mem_map.2 ⟨a, ha, rfl⟩
      have hnd : ((stream.map kf).toFinset.sort (· ≤ ·)).Nodup := Finset.sort_nodup _ _
      generalize (stream.map kf).toFinset.sort (· ≤ ·) = ks at hka hnd
      induction ks with
      | nil => simp at hka
      | cons k ks ih =>
        rw [List.nodup_cons] at hnd
        simp only [List.map_cons, List.sum_cons]
        rcases List.mem_cons.1 hka with rfl | hk
        · have h0 : ∀ x ∈ ks.map (fun k => if k = kf a then stream.count a else 0), x = 0 := by
            intro x hx
            obtain ⟨k, hk, rfl⟩ := List.mem_map.1 hx
            have : k ≠ kf a := by rintro rfl; exact hnd.1 hk
            simp [this]
          rw [List.sum_eq_zero_iff_forall_eq_nat.2 h0]; simp
        · have : k ≠ kf a := by rintro rfl; exact hnd.1 hk
          rw [ih hk hnd.2]; simp [this]
    · rw [List.count_eq_zero.2 ha]
      simp

/-- **C02.** The substreams are exactly the classes of the relation "same id up to the last
character and same string of the key entry", each in stream order; different substreams share
no class. -/
theorem C02_same_group {τ : Type} (ident : τ → Str) (key : Option (τ → Res Str))
    (stream : List τ) (gs : List (List τ))
    (h : iterMultipleComponents ident key .none stream = .ok gs)
    (assoc : τ → τ → Bool)
    (hassoc : ∀ a b, assoc a b = true ↔
      ((ident a).dropLast = (ident b).dropLast ∧ ∀ f, key = some f → f a = f b)) :
    (∀ g ∈ gs, ∃ t ∈ stream, g = stream.filter (assoc t)) ∧
    (∀ t ∈ stream, stream.filter (assoc t) ∈ gs) ∧
    gs.Pairwise (fun g g' => ∀ a ∈ g, ∀ b ∈ g', assoc a b = false) := by
  obtain ⟨κ, _, kf, rfl, heq, -⟩ := iterMultipleComponents_ok ident key .none stream gs h
  rw [iterSubstreams_eq]
  simp only [NumComp.accepts, List.filter_true]
  have key1 : ∀ t ∈ stream, stream.filter (fun x => decide (kf x = kf t))
      = stream.filter (assoc t) := by
    intro t ht
    apply List.filter_congr
    intro x hx
    rw [Bool.eq_iff_iff, hassoc, decide_eq_true_iff, ← heq t ht x hx, eq_comm]
  refine ⟨?_, ?_, ?_⟩
  · intro g hg
    simp only [List.mem_map, Finset.mem_sort, List.mem_toFinset] at hg
    obtain ⟨k, ⟨a, ha, rfl⟩, rfl⟩ := hg
    exact ⟨a, ha, key1 a ha⟩
  · intro t ht
    simp only [List.mem_map, Finset.mem_sort, List.mem_toFinset]
    exact ⟨kf t, ⟨t, ht, rfl⟩, key1 t ht⟩
  · rw [List.pairwise_map]
    refine List.Pairwise.imp ?_ (List.nodup_iff_pairwise_ne.1
      (Finset.sort_nodup (stream.map kf).toFinset (· ≤ ·)))
    intro k k' hne a ha b hb
    simp only [List.mem_filter, decide_eq_true_eq] at ha hb
    rw [Bool.eq_false_iff]
    intro hab
    rw [hassoc, ← heq a ha.1 b hb.1] at hab
    exact hne (by rw [← ha.2, ← hb.2, hab])

/-- **C03, order.** Substreams come in strictly increasing order of (id prefix, key string). -/
theorem C03_sorted {τ : Type} (ident : τ → Str) (key : Option (τ → Res Str)) (n : NumComp)
    (stream : List τ) (gs : List (List τ))
    (h : iterMultipleComponents ident key n stream = .ok gs) :
    gs.Pairwise (fun g g' => ∀ a ∈ g, ∀ b ∈ g',
      (ident a).dropLast < (ident b).dropLast ∨ ((ident a).dropLast = (ident b).dropLast ∧
        ∃ f sa sb, key = some f ∧ f a = .ok sa ∧ f b = .ok sb ∧ sa < sb)) := by
  obtain ⟨κ, _, kf, rfl, -, hlt⟩ := iterMultipleComponents_ok ident key n stream gs h
  rw [iterSubstreams_eq]
  apply List.Pairwise.filter
  rw [List.pairwise_map]
  refine List.Pairwise.imp ?_ (Finset.sortedLT_sort (stream.map kf).toFinset).pairwise
  intro k k' hlt' a ha b hb
  simp only [List.mem_filter, decide_eq_true_eq] at ha hb
  rw [← hlt a ha.1 b hb.1, ha.2, hb.2]
  exact hlt'

/-- **C03, stream order.** For a permuted stream the same substreams come out in the same
order, only the order inside the substreams follows the stream. -/
theorem C03_order_independent {τ : Type} (ident : τ → Str) (key : Option (τ → Res Str))
    (n : NumComp) (stream stream' : List τ) (hp : stream.Perm stream') (gs : List (List τ))
    (h : iterMultipleComponents ident key n stream = .ok gs) :
    ∃ gs', iterMultipleComponents ident key n stream' = .ok gs' ∧
      List.Forall₂ List.Perm gs gs' := by
  have main : ∀ (κ : Type) [LinearOrder κ] (kf : τ → κ),
      List.Forall₂ List.Perm (iterSubstreams kf n stream) (iterSubstreams kf n stream') := by
    intro κ _ kf
    rw [iterSubstreams_eq, iterSubstreams_eq]
    have : (stream'.map kf).toFinset = (stream.map kf).toFinset :=
      List.toFinset_eq_of_perm _ _ (hp.symm.map kf)
    rw [this]
    generalize (stream.map kf).toFinset.sort (· ≤ ·) = ks
    induction ks with
    | nil => simp
    | cons k ks ih =>
      have hpk : (stream.filter (fun t => decide (kf t = k))).Perm
          (stream'.filter (fun t => decide (kf t = k))) := hp.filter _
      simp only [List.map_cons, List.filter_cons, ← hpk.length_eq]
      split
      · exact List.Forall₂.cons hpk ih
      · exact ih
  unfold iterMultipleComponents at h ⊢
  cases key with
  | none =>
    simp only [Except.ok.injEq] at h ⊢
    subst h
    exact ⟨_, rfl, main _ _⟩
  | some f =>
    simp only at h ⊢
    split at h
    · simp at h
    · rename_i hnone
      simp only [Except.ok.injEq] at h
      subst h
      rw [List.findSome?_eq_none_iff] at hnone
      have : stream'.findSome? (fun tr => errOf (f tr)) = none := by
        rw [List.findSome?_eq_none_iff]
        exact fun x hx => hnone x (hp.mem_iff.2 hx)
      rw [this]
      exact ⟨_, rfl, main _ _⟩

/-- **C03, filter.** `number_components` keeps exactly the substreams of the unfiltered iteration
with an accepted size; it does not influence whether the call fails. -/
theorem C03_number_components {τ : Type} (ident : τ → Str) (key : Option (τ → Res Str))
    (n : NumComp) (stream : List τ) :
    iterMultipleComponents ident key n stream =
      (iterMultipleComponents ident key .none stream).map (List.filter fun g =>
        match n with
        | .none => true
        | .int m => g.length = m
        | .tuple ms => g.length ∈ ms) := by
  have main : ∀ (κ : Type) [LinearOrder κ] (kf : τ → κ), iterSubstreams kf n stream
      = (iterSubstreams kf .none stream).filter (fun g =>
        match n with
        | .none => true
        | .int m => g.length = m
        | .tuple ms => g.length ∈ ms) := by
    intro κ _ kf
    rw [iterSubstreams_eq, iterSubstreams_eq]
    simp only [NumComp.accepts, List.filter_true]
    apply List.filter_congr
    intro g _
    cases n <;> simp [beq_eq_decide]
  unfold iterMultipleComponents
  cases key with
  | none => simp only [main, Except.map]
  | some f =>
    simp only
    split
    · simp [Except.map]
    · simp only [main, Except.map]

/-- The call fails (with the exception of the lookup) iff the key entry of some trace is missing. -/
theorem C03_fails_iff {τ : Type} (ident : τ → Str) (f : τ → Res Str) (n : NumComp)
    (stream : List τ) :
    (∃ e, iterMultipleComponents ident (some f) n stream = .error e) ↔
      ∃ t ∈ stream, ∃ e, f t = .error e := by
  unfold iterMultipleComponents
  simp only
  cases hs : stream.findSome? (fun tr => errOf (f tr)) with
  | some e =>
    simp only [Except.error.injEq, exists_eq', true_iff]
    obtain ⟨t, ht, hte⟩ := List.exists_of_findSome?_eq_some hs
    refine ⟨t, ht, ?_⟩
    cases hf : f t with
    | ok x => rw [hf] at hte; simp [errOf] at hte
    | error e' => exact ⟨e', rfl⟩
  | none =>
    simp only [reduceCtorEq, exists_false, false_iff, not_exists, not_and]
    intro t ht e hte
    rw [List.findSome?_eq_none_iff] at hs
    have := hs t ht
    rw [hte] at this
    simp [errOf] at this

/-! Non-vacuity: five traces, two stations, two onsets, repeated trace object. -/
section example_
abbrev exTr := List Char × List Char

def exStream : List exTr :=
  [("X.B..BHZ".toList, "t1".toList), ("X.A..BHZ".toList, "t2".toList),
   ("X.B..BHN".toList, "t1".toList), ("X.A..BHE".toList, "t1".toList),
   ("X.B..BHZ".toList, "t1".toList)]

def exKey : exTr → Res Str := fun t => .ok t.2

example : iterMultipleComponents Prod.fst (some exKey) .none exStream = .ok
    [[("X.A..BHE".toList, "t1".toList)], [("X.A..BHZ".toList, "t2".toList)],
     [("X.B..BHZ".toList, "t1".toList), ("X.B..BHN".toList, "t1".toList),
      ("X.B..BHZ".toList, "t1".toList)]] := by decide

example : iterMultipleComponents Prod.fst (some exKey) (.tuple [2, 3]) exStream = .ok
    [[("X.B..BHZ".toList, "t1".toList), ("X.B..BHN".toList, "t1".toList),
      ("X.B..BHZ".toList, "t1".toList)]] := by decide
end example_

end Verif.Props
