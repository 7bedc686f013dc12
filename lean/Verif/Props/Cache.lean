import Verif.Model.Cache

/-!
# The cached example streams (C69)
-/

set_option linter.unusedSimpArgs false

namespace Verif.Props
open Verif.Py Verif.Model.Cache

variable {T : Type}

theorem alloc_old (s : CState T) (ts : List T) (r : Nat) (h : r < s.next) :
    (alloc s ts).1.heap r = s.heap r := by
  show (if s.next ≤ r then _ else s.heap r) = _
  rw [if_neg (Nat.not_le.2 h)]

theorem alloc_new (s : CState T) (ts : List T) :
    (alloc s ts).2.map (alloc s ts).1.heap = ts := by
  show (List.range' s.next ts.length).map (fun r => if s.next ≤ r then (ts[r - s.next]?).getD (s.heap r)
    else s.heap r) = ts
  apply List.ext_getElem
  · simp
  · intro i h1 h2
    simp only [List.length_map, List.length_range'] at h1
    simp [List.getElem_range', h1]

theorem alloc_mem (s : CState T) (ts : List T) (r : Nat) :
    r ∈ (alloc s ts).2 ↔ s.next ≤ r ∧ r < s.next + ts.length := by
  show r ∈ List.range' s.next ts.length ↔ _
  rw [List.mem_range'_1]

/-- What holds after every history: the cached streams are complete and unreachable for the caller. -/
structure CInv (build : Fn → Res (List T)) (s : CState T) : Prop where
  owned_lt : ∀ r ∈ s.owned, r < s.next
  cached : ∀ f refs, s.cache.get (cacheKey f) = some refs →
    (∀ r ∈ refs, r < s.next ∧ r ∉ s.owned) ∧ build f = .ok (refs.map s.heap)

theorem map_heap_congr {s s' : CState T} (refs : List Nat) (n : Nat) (h : ∀ r ∈ refs, r < n)
    (hs : ∀ r, r < n → s'.heap r = s.heap r) : refs.map s'.heap = refs.map s.heap :=
  List.map_congr_left fun r hr => hs r (h r hr)

/-- Handing objects with given contents to the caller. -/
theorem give_inv (build : Fn → Res (List T)) (s : CState T) (ts : List T) (h : CInv build s) :
    CInv build { (alloc s ts).1 with owned := (alloc s ts).1.owned ++ (alloc s ts).2 } := by
  constructor
  · intro r hr
    rcases List.mem_append.1 hr with hr | hr
    · exact Nat.lt_add_right _ (h.owned_lt r hr)
    · exact ((alloc_mem s ts r).1 hr).2
  · intro f refs hf
    obtain ⟨h1, h2⟩ := h.cached f refs hf
    refine ⟨fun r hr => ⟨Nat.lt_add_right _ (h1 r hr).1, fun hc => ?_⟩, ?_⟩
    · rcases List.mem_append.1 hc with hc | hc
      · exact (h1 r hr).2 hc
      · exact absurd (h1 r hr).1 (Nat.not_lt.2 ((alloc_mem s ts r).1 hc).1)
    · rw [h2]
      congr 1
      exact (map_heap_congr (s := s) refs s.next (fun r hr => (h1 r hr).1) (fun r hr => alloc_old s ts r hr)).symm

theorem copyOut_inv (build : Fn → Res (List T)) (s : CState T) (refs : List Nat) (h : CInv build s) :
    CInv build (copyOut s refs).1 ∧ (copyOut s refs).2.map (copyOut s refs).1.heap = refs.map s.heap ∧
      ∀ r ∈ (copyOut s refs).2, s.next ≤ r :=
  ⟨give_inv build s _ h, alloc_new s _, fun r hr => ((alloc_mem s _ r).1 hr).1⟩

theorem cacheKey_inj (f g : Fn) (h : cacheKey f = cacheKey g) : f = g := by
  cases f <;> cases g <;> first | rfl | (exact absurd h (by decide))

/-- One call: the invariant is kept, the contents are those computed by `build`, all returned objects are
new. -/
theorem cacheCall_inv (build : Fn → Res (List T)) (s : CState T) (f : Fn) (h : CInv build s) :
    CInv build (call build s f).1 ∧
      (call build s f).2.map (fun refs => refs.map (call build s f).1.heap) = build f ∧
      ∀ refs, (call build s f).2 = .ok refs → ∀ r ∈ refs, s.next ≤ r := by
  unfold call
  cases hc : s.cache.get (cacheKey f) with
  | some refs =>
    obtain ⟨i1, i2, i3⟩ := copyOut_inv build s refs h
    refine ⟨i1, ?_, ?_⟩
    · rw [(h.cached f refs hc).2, ← i2]
      rfl
    · intro refs' hr
      cases hr
      exact i3
  | none =>
    cases hb : build f with
    | error e => exact ⟨h, rfl, fun refs hr => by cases hr⟩
    | ok ts =>
      have hi : CInv build { (alloc s ts).1 with cache := (alloc s ts).1.cache.set (cacheKey f) (alloc s ts).2 } := by
        constructor
        · intro r hr
          exact Nat.lt_add_right _ (h.owned_lt r hr)
        · intro g refs hg
          by_cases hfg : cacheKey g = cacheKey f
          · have := cacheKey_inj g f hfg
            subst this
            rw [Dict.get_set_self] at hg
            cases hg
            refine ⟨fun r hr => ⟨((alloc_mem s ts r).1 hr).2, fun hc' => ?_⟩, ?_⟩
            · exact absurd (h.owned_lt r hc') (Nat.not_lt.2 ((alloc_mem s ts r).1 hr).1)
            · rw [hb]
              congr 1
              exact (alloc_new s ts).symm
          · rw [Dict.get_set_ne _ _ hfg] at hg
            obtain ⟨h1, h2⟩ := h.cached g refs hg
            refine ⟨fun r hr => ⟨Nat.lt_add_right _ (h1 r hr).1, (h1 r hr).2⟩, ?_⟩
            rw [h2]
            congr 1
            exact (map_heap_congr (s := s) refs s.next (fun r hr => (h1 r hr).1)
              (fun r hr => alloc_old s ts r hr)).symm
      obtain ⟨i1, i2, i3⟩ := copyOut_inv build _ (alloc s ts).2 hi
      refine ⟨i1, ?_, ?_⟩
      · exact congrArg Except.ok (i2.trans (alloc_new s ts))
      · intro refs' hr
        cases hr
        intro r hr
        have hle : s.next ≤ (alloc s ts).1.next := Nat.le_add_right _ _
        exact Nat.le_trans hle (i3 r hr)

theorem cacheStep_inv (build : Fn → Res (List T)) (s : CState T) (op : Op T) (h : CInv build s) :
    CInv build (step build s op).1 ∧ ∀ f r, (step build s op).2 = some (f, r) → r = build f := by
  cases op with
  | call f =>
    obtain ⟨i1, i2, -⟩ := cacheCall_inv build s f h
    refine ⟨i1, fun g r hr => ?_⟩
    simp only [step, Option.some.injEq, Prod.mk.injEq] at hr
    obtain ⟨rfl, rfl⟩ := hr
    exact i2
  | modify r t =>
    refine ⟨?_, fun g r' hr => by simp [step] at hr⟩
    show CInv build (if r ∈ s.owned then _ else s)
    by_cases hr : r ∈ s.owned
    · rw [if_pos hr]
      constructor
      · exact h.owned_lt
      · intro f refs hf
        obtain ⟨h1, h2⟩ := h.cached f refs hf
        refine ⟨h1, ?_⟩
        rw [h2]
        congr 1
        apply List.map_congr_left
        intro r' hr'
        show s.heap r' = if r' = r then t else s.heap r'
        rw [if_neg (fun hc => (h1 r' hr').2 (by rw [hc]; exact hr))]
    · rw [if_neg hr]
      exact h
  | create t =>
    exact ⟨give_inv build s [t] h, fun g r hr => by simp [step] at hr⟩

theorem cacheRun_inv (build : Fn → Res (List T)) (ops : List (Op T)) (s : CState T) (h : CInv build s) :
    CInv build (run build s ops).1 ∧ ∀ p ∈ (run build s ops).2, p.2 = build p.1 := by
  induction ops generalizing s with
  | nil => exact ⟨h, by simp [run]⟩
  | cons op ops ih =>
    obtain ⟨i1, i2⟩ := cacheStep_inv build s op h
    obtain ⟨j1, j2⟩ := ih _ i1
    refine ⟨j1, fun p hp => ?_⟩
    simp only [run, List.mem_append, Option.mem_toList] at hp
    rcases hp with hp | hp
    · exact i2 p.1 p.2 hp
    · exact j2 p hp

/-- **C69** Whatever the caller does with earlier results, every call of `minimal_example_rf` and
`minimal_example_Srf` returns the contents computed by the processing steps (or their exception). -/
theorem C69_isolated (build : Fn → Res (List T)) (heap : Nat → T) (next : Nat) (owned : List Nat)
    (ho : ∀ r ∈ owned, r < next) (ops : List (Op T)) :
    ∀ p ∈ (run build (initial heap next owned) ops).2, p.2 = build p.1 :=
  (cacheRun_inv build ops _ ⟨ho, fun f refs hf => by simp [initial] at hf⟩).2

/-- **C69** The returned traces are new objects: none of them was reachable for the caller before. -/
theorem C69_fresh (build : Fn → Res (List T)) (heap : Nat → T) (next : Nat) (owned : List Nat)
    (ho : ∀ r ∈ owned, r < next) (ops : List (Op T)) (f : Fn) (refs : List Nat)
    (h : (call build (run build (initial heap next owned) ops).1 f).2 = .ok refs) :
    ∀ r ∈ refs, r ∉ (run build (initial heap next owned) ops).1.owned := by
  have hi := (cacheRun_inv build ops (initial heap next owned) ⟨ho, fun f refs hf => by simp [initial] at hf⟩).1
  intro r hr hc
  exact absurd (hi.owned_lt r hc) (Nat.not_lt.2 ((cacheCall_inv build _ f hi).2.2 refs h r hr))

/-- Every call in a history is answered. -/
theorem C69_answers (build : Fn → Res (List T)) (s : CState T) (ops : List (Op T)) :
    (run build s ops).2.map Prod.fst = ops.filterMap fun
      | .call f => some f
      | _ => none := by
  induction ops generalizing s with
  | nil => rfl
  | cons op ops ih =>
    simp only [run, List.map_append, ih, List.filterMap_cons]
    cases op <;> rfl

/-- A history: the first result is spoilt by the caller, the second call still returns the computed data. -/
example : ((run (fun f => match f with | .rf => .ok [10, 20] | .srf => .ok [30]) (initial (fun _ => 0) 0 [])
      [.call .rf, .modify 2 99, .modify 0 99, .call .rf, .call .srf, .call .rf]).2 :
      List (Fn × Res (List Nat))) =
    [(.rf, .ok [10, 20]), (.rf, .ok [10, 20]), (.srf, .ok [30]), (.rf, .ok [10, 20])] := by decide +kernel

end Verif.Props
