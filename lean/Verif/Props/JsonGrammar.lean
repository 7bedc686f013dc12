import Verif.Props.JsonProps
import Verif.Model.ConfTemplate

/-!
# C180, C181: the numbers of JSON texts and keys which occur twice
-/

set_option linter.unusedSimpArgs false
set_option linter.unusedSectionVars false

namespace Verif.Props
open Verif.Py Verif.Model.JsonText Verif.Model.Batch Verif.Model.ConfTemplate Verif.Spec

theorem isDigit_iff (c : Char) : isDigit c = true ↔ '0' ≤ c ∧ c ≤ '9' := by
  unfold isDigit; simp

theorem digits_all (s : Str) (h : ∀ c ∈ s, '0' ≤ c ∧ c ≤ '9') : digits s = (s, []) := by
  induction s with
  | nil => rfl
  | cons c s ih =>
    have h1 := (isDigit_iff c).2 (h c List.mem_cons_self)
    simp only [digits, h1, if_true, ih fun d hd => h d (List.mem_cons_of_mem _ hd)]

theorem digits_of (s : Str) : s = (digits s).1 ++ (digits s).2 ∧ ∀ c ∈ (digits s).1, '0' ≤ c ∧ c ≤ '9' := by
  induction s with
  | nil => exact ⟨rfl, fun c hc => by cases hc⟩
  | cons c s ih =>
    unfold digits
    split
    · rename_i h
      refine ⟨by simp only [List.cons_append]; rw [← ih.1], fun d hd => ?_⟩
      rcases List.mem_cons.1 hd with rfl | hd
      · exact (isDigit_iff _).1 h
      · exact ih.2 d hd
    · exact ⟨rfl, fun d hd => by cases hd⟩

theorem lexExp_cons (c : Char) (r : Str) : lexExp (c :: r) = if c = 'e' ∨ c = 'E' then
    (if (digits (lexExpSign r).2).1 = [] then ([], c :: r)
      else (c :: ((lexExpSign r).1 ++ (digits (lexExpSign r).2).1), (digits (lexExpSign r).2).2)) else ([], c :: r) := rfl

theorem lexExp_of (s : Str) (h : (lexExp s).2 = []) : s = [] ∨ ∃ c g d, (c = 'e' ∨ c = 'E') ∧
    (g = [] ∨ g = ['+'] ∨ g = ['-']) ∧ Digits d ∧ s = c :: (g ++ d) := by
  cases s with
  | nil => exact Or.inl rfl
  | cons c r =>
    right
    rw [lexExp_cons] at h
    split at h
    · rename_i hc
      split at h
      · cases h
      · rename_i hd
        simp only at h
        have hq := digits_of (lexExpSign r).2
        rw [h, List.append_nil] at hq
        refine ⟨c, (lexExpSign r).1, (lexExpSign r).2, hc, ?_, ⟨?_, fun x hx => ?_⟩, ?_⟩
        · cases r with
          | nil => exact Or.inl rfl
          | cons d r =>
            simp only [lexExpSign]
            split
            · rename_i hs; rcases hs with rfl | rfl <;> simp
            · exact Or.inl rfl
        · rw [hq.1]; exact hd
        · exact hq.2 x (by rw [← hq.1]; exact hx)
        · cases r with
          | nil => rfl
          | cons d r =>
            simp only [lexExpSign]
            split <;> rfl
    · cases h

/-- C180: `lexNumber` takes exactly the numbers of the grammar as a whole. -/
theorem C180_number (s : Str) : lexNumber s = some (s, []) ↔ IsNumber s := by
  constructor
  · intro h
    unfold lexNumber at h
    cases hi : lexInt (lexSign s).2 with
    | none => rw [hi] at h; cases h
    | some p =>
      obtain ⟨i, r⟩ := p
      rw [hi] at h
      simp only [Option.some.injEq, Prod.mk.injEq] at h
      obtain ⟨h1, h2⟩ := h
      have he := lexExp_of _ h2
      refine ⟨(lexSign s).1, i, (lexFrac r).1, (lexExp (lexFrac r).2).1, h1.symm, ?_, ?_, ?_, ?_⟩
      · unfold lexSign; split <;> simp
      · cases hs : (lexSign s).2 with
        | nil => rw [hs] at hi; cases hi
        | cons c q =>
          rw [hs] at hi
          simp only [lexInt] at hi
          split at hi
          · left; cases hi; rfl
          · rename_i hc0
            split at hi
            · rename_i hcd
              right
              simp only [Option.some.injEq, Prod.mk.injEq] at hi
              rw [← hi.1]
              refine ⟨⟨by simp, fun x hx => ?_⟩, by simpa using hc0⟩
              rcases List.mem_cons.1 hx with rfl | hx
              · exact (isDigit_iff _).1 hcd
              · exact (digits_of q).2 x hx
            · cases hi
      · unfold lexFrac
        split
        · rename_i r
          split
          · exact Or.inl rfl
          · rename_i hd
            exact Or.inr ⟨_, ⟨hd, (digits_of r).2⟩, rfl⟩
        · exact Or.inl rfl
      · have : (lexExp (lexFrac r).2).1 = (lexFrac r).2 := by
          generalize hq : (lexFrac r).2 = q at h2 ⊢
          cases q with
          | nil => rfl
          | cons c q =>
            rw [lexExp_cons] at h2 ⊢
            split
            · rename_i hc
              rw [if_pos hc] at h2
              split
              · rename_i hd; rw [if_pos hd] at h2; cases h2
              · rename_i hd
                rw [if_neg hd] at h2
                simp only at h2 ⊢
                have hq' := (digits_of (lexExpSign q).2).1
                rw [h2, List.append_nil] at hq'
                rw [← hq']
                congr 1
                cases q with
                | nil => rfl
                | cons d q => simp only [lexExpSign]; split <;> rfl
            · rename_i hc; rw [if_neg hc] at h2; cases h2
        rw [this]
        exact he
  · rintro ⟨sg, i, f, e, rfl, hsg, hi, hf, he⟩
    -- the exponent
    have hE : lexExp e = (e, []) := by
      rcases he with rfl | ⟨c, g, d, hc, hg, hd, rfl⟩
      · rfl
      · have hsig : lexExpSign (g ++ d) = (g, d) := by
          obtain ⟨hd0, hd1⟩ := hd
          rcases hg with rfl | rfl | rfl
          · cases d with
            | nil => exact absurd rfl hd0
            | cons x d =>
              have hx := (hd1 x List.mem_cons_self)
              simp only [List.nil_append, lexExpSign]
              rw [if_neg]
              rintro (rfl | rfl)
              · exact absurd hx.1 (by decide)
              · exact absurd hx.1 (by decide)
          · rfl
          · rfl
        rw [lexExp_cons, if_pos hc]
        simp only [hsig, digits_all d hd.2, hd.1, if_false]
    have hhead : ∀ c, e.head? = some c → isDigit c = false ∧ c ≠ '.' := by
      intro c hc
      rcases he with rfl | ⟨c', g, d, hc', -, -, rfl⟩
      · cases hc
      · cases hc; rcases hc' with rfl | rfl <;> decide
    have hdig : ∀ d : Str, (∀ c ∈ d, '0' ≤ c ∧ c ≤ '9') → ∀ t : Str, (∀ c, t.head? = some c → isDigit c = false) →
        digits (d ++ t) = (d, t) := by
      intro d hd t ht
      induction d with
      | nil =>
        cases t with
        | nil => rfl
        | cons c t =>
          have hc := ht c rfl
          simp only [List.nil_append, digits, hc, Bool.false_eq_true, if_false]
      | cons c d ih =>
        have h1 := (isDigit_iff c).2 (hd c List.mem_cons_self)
        simp only [List.cons_append, digits, h1, if_true, ih fun x hx => hd x (List.mem_cons_of_mem _ hx)]
    have hF : lexFrac (f ++ e) = (f, e) := by
      rcases hf with rfl | ⟨d, hd, rfl⟩
      · cases e with
        | nil => rfl
        | cons c e =>
          have := (hhead c rfl).2
          simp only [List.nil_append]
          unfold lexFrac
          split
          · rename_i h; cases h; exact absurd rfl this
          · rfl
      · simp only [List.cons_append, lexFrac, hdig d hd.2 e fun c hc => (hhead c hc).1, hd.1, if_false]
    have hhead2 : ∀ c, (f ++ e).head? = some c → isDigit c = false := by
      intro c hc
      rcases hf with rfl | ⟨d, -, rfl⟩
      · exact (hhead c hc).1
      · cases hc; decide
    have hI : lexInt (i ++ (f ++ e)) = some (i, f ++ e) := by
      rcases hi with rfl | ⟨⟨h0, h1⟩, h2⟩
      · rfl
      · cases i with
        | nil => exact absurd rfl h0
        | cons c i =>
          have hc0 : c ≠ '0' := by simpa using h2
          have hc1 := (isDigit_iff c).2 (h1 c List.mem_cons_self)
          simp only [List.cons_append, lexInt, hc0, if_false, hc1, if_true,
            hdig i (fun x hx => h1 x (List.mem_cons_of_mem _ hx)) _ hhead2]
    have hS : lexSign (sg ++ (i ++ (f ++ e))) = (sg, i ++ (f ++ e)) := by
      rcases hsg with rfl | rfl
      · have : ∃ c q, i ++ (f ++ e) = c :: q ∧ c ≠ '-' := by
          rcases hi with rfl | ⟨⟨h0, h1⟩, -⟩
          · exact ⟨'0', f ++ e, rfl, by decide⟩
          · cases i with
            | nil => exact absurd rfl h0
            | cons c i =>
              refine ⟨c, i ++ (f ++ e), rfl, ?_⟩
              rintro rfl
              exact absurd (h1 '-' List.mem_cons_self).1 (by decide)
        obtain ⟨c, q, hcq, hc⟩ := this
        rw [List.nil_append, hcq]
        unfold lexSign
        split
        · rename_i h; cases h; exact absurd rfl hc
        · rfl
      · rfl
    unfold lexNumber
    rw [hS]
    simp only [hI, hF, hE]

/-- A number with all parts. -/
example : IsNumber "-12.50e+03".toList ∧ ¬ IsNumber "01".toList ∧ ¬ IsNumber "1.".toList ∧ ¬ IsNumber "+1".toList := by
  simp only [← C180_number]
  decide +kernel

section
variable {K : Type}

theorem valueDict_get (m : Members K) (d : Dict (Value K)) (k : Str) :
    (valueDict d m).get (String.ofList k) =
      match lastMember k m with | some v => some (toValue v) | none => d.get (String.ofList k) := by
  match m with
  | .nil => rfl
  | .cons j v m =>
    rw [valueDict, valueDict_get m _ k, lastMember]
    cases lastMember k m with
    | some w => rfl
    | none =>
      by_cases hj : j = k
      · subst hj
        simp only [Option.none_or, if_true, Dict.get_set_self]
      · have hne : String.ofList k ≠ String.ofList j := fun h => hj (String.ofList_injective h).symm
        simp only [Option.none_or, hj, if_false]
        rw [Dict.get_set_ne _ _ hne]

/-- C181: a key which occurs several times in the configuration has the value given last. -/
theorem C181_last (T : NumText K) (s : Str) (m : Members K) (hs : loads T s = some (.obj m)) :
    ∃ d, confLoads T s = .ok (some d) ∧ ∀ k : Str, d.get (String.ofList k) = (lastMember k m).map toValue := by
  refine ⟨valueDict [] m, by unfold confLoads; rw [hs], fun k => ?_⟩
  rw [valueDict_get]
  cases lastMember k m <;> rfl

end
end Verif.Props
