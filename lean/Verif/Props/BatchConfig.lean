import Verif.Spec.Config
import Verif.Model.Batch
import Verif.Props.StreamOps

/-!
# Comments of configuration files (C77)
-/

set_option linter.unusedSimpArgs false
set_option linter.unusedSectionVars false

namespace Verif.Props
open Verif.Py Verif.Model.Batch Verif.Spec

theorem joinWith_cons_ne (c : Char) (w : Str) (ws : List Str) (h : ws ≠ []) :
    joinWith c (w :: ws) = w ++ c :: joinWith c ws := by
  cases ws with
  | nil => exact absurd rfl h
  | cons v ws => rfl

theorem splitOn_head_not_mem (c : Char) (s w : Str) (ws : List Str) (h : splitOn c s = w :: ws) : c ∉ w := by
  induction s generalizing w ws with
  | nil =>
    simp only [splitOn, List.cons.injEq] at h
    rw [← h.1]
    simp
  | cons d s ih =>
    unfold splitOn at h
    split at h
    · simp only [List.cons.injEq] at h
      rw [← h.1]
      simp
    · rename_i hd
      cases hs : splitOn c s with
      | nil => exact absurd hs (splitOn_ne_nil _ _)
      | cons v vs =>
        rw [hs] at h
        simp only [List.cons.injEq] at h
        rw [← h.1]
        simp only [List.mem_cons, not_or]
        exact ⟨fun e => hd e.symm, ih v vs hs⟩

/-- Inside a comment everything up to the end of the line is lost. -/
theorem dropComments_line (s : Str) :
    dropComments true s = match splitOn '\n' s with
      | [] => []
      | _ :: ws => match ws with
        | [] => []
        | v :: vs => '\n' :: dropComments false (joinWith '\n' (v :: vs)) := by
  induction s with
  | nil => rfl
  | cons c s ih =>
    unfold splitOn
    by_cases h : c = '\n'
    · subst h
      simp only [dropComments, if_true]
      cases hs : splitOn '\n' s with
      | nil => exact absurd hs (splitOn_ne_nil _ _)
      | cons v vs =>
        simp only []
        rw [← hs, joinWith_splitOn]
    · simp only [dropComments, if_neg h]
      rw [ih]
      cases splitOn '\n' s with
      | nil => rfl
      | cons w ws => rfl

/-- **C77** Everything from a `#` to the end of the line is ignored, everything else is passed on. -/
theorem C77_comments (s : Str) : stripComments s = dropComments false s := by
  have main : ∀ n (s : Str), s.length = n → stripComments s = dropComments false s := by
    intro n
    induction n using Nat.strongRecOn with
    | _ n ih =>
      intro s hs
      cases s with
      | nil => rfl
      | cons c t =>
        simp only [List.length_cons] at hs
        have iht := ih t.length (by omega) t rfl
        have hne := splitOn_ne_nil '\n' t
        unfold stripComments at iht ⊢
        unfold splitOn
        by_cases h : c = '\n'
        · subst h
          have h2 : ¬ ('\n' = '#') := by decide
          simp only [if_true, List.map_cons, List.takeWhile_nil, dropComments, if_neg h2]
          rw [joinWith_cons_ne _ _ _ (by simpa using hne), iht]
          rfl
        · rw [if_neg h]
          cases hw : splitOn '\n' t with
          | nil => exact absurd hw hne
          | cons w ws =>
            rw [hw] at iht
            simp only [List.map_cons] at iht ⊢
            by_cases h2 : c = '#'
            · subst h2
              simp only [dropComments, if_true]
              rw [dropComments_line, hw]
              rw [List.takeWhile_cons_of_neg (by simp)]
              cases ws with
              | nil => rfl
              | cons v vs =>
                simp only [List.map_cons]
                rw [joinWith_cons_ne _ _ _ (by simp)]
                have hlen : (joinWith '\n' (v :: vs)).length < n := by
                  have h3 := joinWith_splitOn '\n' t
                  rw [hw, joinWith_cons_ne _ _ _ (by simp)] at h3
                  have := congrArg List.length h3
                  simp only [List.length_append, List.length_cons] at this
                  omega
                have h4 := ih _ hlen (joinWith '\n' (v :: vs)) rfl
                unfold stripComments at h4
                have hsplit : splitOn '\n' (joinWith '\n' (v :: vs)) = v :: vs := by
                  have h3 := joinWith_splitOn '\n' t
                  rw [hw, joinWith_cons_ne _ _ _ (by simp)] at h3
                  have hwn : '\n' ∉ w := splitOn_head_not_mem '\n' t w (v :: vs) hw
                  have h5 := splitOn_append '\n' w (joinWith '\n' (v :: vs)) hwn
                  rw [h3, hw] at h5
                  exact (List.cons.inj h5).2.symm
                rw [hsplit] at h4
                simp only [List.map_cons] at h4
                rw [h4]
                rfl
            · simp only [dropComments, if_neg h2]
              rw [List.takeWhile_cons_of_pos (by simpa using h2), ← iht]
              cases ws with
              | nil => rfl
              | cons v vs =>
                simp only [List.map_cons]
                rfl
  exact main _ s rfl

/-- **C77** A text without `#` is not changed. -/
theorem C77_unchanged (s : Str) (h : '#' ∉ s) : stripComments s = s := by
  rw [C77_comments]
  induction s with
  | nil => rfl
  | cons c s ih =>
    simp only [List.mem_cons, not_or] at h
    simp only [dropComments, if_neg (fun e => h.1 (Eq.symm e)), ih h.2]

/-- The result contains no `#`. -/
theorem C77_no_hash (s : Str) : '#' ∉ stripComments s := by
  rw [C77_comments]
  have : ∀ b, '#' ∉ dropComments b s := by
    induction s with
    | nil => intro b; cases b <;> simp [dropComments]
    | cons c s ih =>
      intro b
      cases b <;> simp only [dropComments]
      · split
        · exact ih true
        · rename_i h
          simp only [List.mem_cons, not_or]
          exact ⟨fun e => h e.symm, ih false⟩
      · split
        · rename_i h
          subst h
          simp only [List.mem_cons, not_or]
          exact ⟨by decide, ih false⟩
        · exact ih true
  exact this false

/-- **C77** Stripping twice is stripping once. -/
theorem C77_idempotent (s : Str) : stripComments (stripComments s) = stripComments s :=
  C77_unchanged _ (C77_no_hash s)

/-- **C77** The number of lines is kept, so that the positions in error messages of the JSON decoder are right. -/
theorem C77_lines (s : Str) : (stripComments s).count '\n' = s.count '\n' := by
  rw [C77_comments]
  have : ∀ b, (dropComments b s).count '\n' = s.count '\n' := by
    induction s with
    | nil => intro b; cases b <;> simp [dropComments]
    | cons c s ih =>
      intro b
      cases b <;> simp only [dropComments]
      · split
        · rename_i h
          subst h
          rw [ih true, List.count_cons_of_ne (by decide)]
        · simp only [List.count_cons, ih false]
      · split
        · simp only [List.count_cons, ih false]
        · rename_i h
          rw [ih true, List.count_cons_of_ne h]
  exact this false

/-- **C77, part that holds**: if no string contains `#`, exactly the comments are removed.
Missing: strings which contain `#` (see the counterexample). -/
theorem C77_strings_partial (s : Str) (h : NoHashInStrings .outside s) :
    stripComments s = dropJsonComments .outside s := by
  rw [C77_comments]
  have main : ∀ st, NoHashInStrings st s → dropComments (decide (st = .comment)) s = dropJsonComments st s := by
    clear h
    induction s with
    | nil => intro st _; cases st <;> rfl
    | cons c s ih =>
      intro st hst
      obtain ⟨h1, h2⟩ := hst
      have h3 := ih _ h2
      cases st with
      | outside =>
        simp only [dropComments, dropJsonComments, reduceCtorEq, decide_false]
        simp only [Lex.next] at h3 ⊢
        by_cases e1 : c = '"'
        · subst e1
          simpa using h3
        · by_cases e2 : c = '#'
          · subst e2
            simpa using h3
          · simp only [if_neg e1, if_neg e2] at h3 ⊢
            simpa using h3
      | string =>
        have e := h1 (.inl rfl)
        simp only [dropComments, dropJsonComments, reduceCtorEq, decide_false, if_neg e]
        have hn : Lex.string.next c ≠ .comment := by simp only [Lex.next]; split_ifs <;> simp
        rw [if_neg hn]
        rw [decide_eq_false hn] at h3
        rw [h3]
      | escape =>
        have e := h1 (.inr rfl)
        simp only [dropComments, dropJsonComments, reduceCtorEq, decide_false, if_neg e]
        have hn : Lex.escape.next c ≠ .comment := by simp only [Lex.next]; split_ifs <;> simp
        rw [if_neg hn]
        rw [decide_eq_false hn] at h3
        rw [h3]
      | comment =>
        simp only [dropComments, dropJsonComments, decide_true]
        by_cases e : c = '\n'
        · subst e
          have hn : Lex.comment.next '\n' = .outside := rfl
          rw [hn] at h3 ⊢
          simpa using h3
        · have hn : Lex.comment.next c = .comment := by simp [Lex.next, e]
          rw [hn] at h3 ⊢
          simpa [e] using h3
  exact main .outside h

/-- **C77 is false**: a file name which contains `#` is cut, the string is not even closed. -/
theorem C77_counterexample :
    stripComments "{\"data\": \"run#1.mseed\"}".toList = "{\"data\": \"run".toList ∧
    dropJsonComments .outside "{\"data\": \"run#1.mseed\"}".toList = "{\"data\": \"run#1.mseed\"}".toList := by
  decide +kernel

/-- The hypothesis of the partial theorem holds for a text with comments. -/
example : NoHashInStrings .outside "# x\n{\"a\": 1} # \"y\"".toList ∧
    stripComments "# x\n{\"a\": 1} # \"y\"".toList = "\n{\"a\": 1} ".toList := by
  constructor
  · simp [NoHashInStrings, Lex.next]
  · decide +kernel

end Verif.Props
