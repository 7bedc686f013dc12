import Verif.Props.HeaderStale
import Verif.Props.Write
import Mathlib.Tactic.NormNum

/-!
# Entries of the header set before an `RFTrace` is made (C188)

The property expected: `RFTrace(trace=tr)`, hence `RFStream(stream)`, keeps the entries of `tr.stats`, adds those of the
format specific header, and making an `RFTrace` of the result changes nothing.  It is false of the code: the format specific
header wins (`C188_counterexample`), and an undefined time field (`-12345`) together with an entry for that time is a
`TypeError` (`C188_counterexample_null`).  Proved: the entries found in the format specific header replace those of the stats,
all others are kept, success does not depend on the entries (`C188_file_headers_partial`), and the second time nothing
changes (`C188_again_partial`).
-/

set_option linter.unusedSimpArgs false
set_option linter.unusedSectionVars false

namespace Verif.Props
open Verif.Py Verif.Model.Headers

section
variable {K : Type} [Field K] (E : FmtEnv K)

/-- The field `p.2` of the format specific header `d` defines the entry `k`: it is its field in the table, or the comment with
this entry in the text. -/
def Defines (fmt : Fmt) (d : Option (Dict (Val K))) (p : String × String) (k : String) : Prop :=
  ∃ v, d.bind (fun d => d.get p.2) = some v ∧
    if fmt = .sh ∧ p.2 = "COMMENT" then ∃ s e, v = .str s ∧ E.loads s = .ok e ∧ k ∈ Dict.keys e
    else k = p.1 ∧ ¬ (fmt = .sac ∧ E.isNull v = true)

/-- The fields with times are absent or defined. -/
def TimesDefined (d : Option (Dict (Val K))) : Prop :=
  ∀ f v, (f = "a" ∨ f = "o") → d.bind (fun d => d.get f) = some v → E.isNull v = false

theorem get_reverse_none {V : Type} (d : Dict V) (k : String) : Dict.get d.reverse k ≠ none ↔ k ∈ Dict.keys d := by
  rw [ne_eq, Dict.get_eq_none_iff, not_not]
  simp [Dict.keys]

theorem conversion_field : ∀ p ∈ headerMap .sac, hasConversion .sac p.1 = true → p.2 = "a" ∨ p.2 = "o" := by decide

theorem readStep_override (fmt : Fmt) (sac sh : Option (Dict (Val K))) (p : String × String)
    (hp : fmt = .sac → hasConversion .sac p.1 = true → ∀ v, sac.bind (fun d => d.get p.2) = some v → E.isNull v = false) :
    (∃ e, ∀ (f : Option Str) (top : Dict (Val K)), readStep E fmt ⟨f, top, sac, sh⟩ p = .error e) ∨
    ∃ O : String → Option (Val K), (∀ k, O k ≠ none ↔ Defines E fmt (FStats.sub ⟨none, [], sac, sh⟩ fmt) p k) ∧
      ∀ (f : Option Str) (top : Dict (Val K)), ∃ top' : Dict (Val K),
        readStep E fmt ⟨f, top, sac, sh⟩ p = .ok ⟨f, top', sac, sh⟩ ∧ ∀ k, top'.get k = (O k).or (top.get k) := by
  have hsub : ∀ (f : Option Str) (top : Dict (Val K)),
      FStats.sub ⟨f, top, sac, sh⟩ fmt = FStats.sub (⟨none, [], sac, sh⟩ : FStats K) fmt := by
    intro f top
    cases fmt <;> rfl
  unfold readStep Defines
  simp only [hsub]
  cases hv : (FStats.sub (⟨none, [], sac, sh⟩ : FStats K) fmt).bind (fun d => d.get p.2) with
  | none =>
    right
    exact ⟨fun _ => none, fun k => by simp, fun f top => ⟨top, rfl, fun k => rfl⟩⟩
  | some v =>
    simp only [Option.some.injEq, exists_eq_left']
    by_cases hc : fmt = .sh ∧ p.2 = "COMMENT"
    · simp only [if_pos hc]
      have hbad : ∀ {e : PyErr}, (∃ e', ∀ (_ : Option Str) (_ : Dict (Val K)), (.error e : Res (FStats K)) = .error e') :=
        ⟨_, fun _ _ => rfl⟩
      cases v with
      | str s =>
        simp only [Val.str.injEq, exists_and_left, exists_eq_left']
        cases hl : E.loads s with
        | ok d =>
          right
          refine ⟨fun k => Dict.get d.reverse k, fun k => ?_, fun f top => ⟨top.update d, rfl, fun k => Dict.get_update _ _ _⟩⟩
          simp only [get_reverse_none, Except.ok.injEq, exists_eq_left']
        | error e =>
          by_cases he : e = .parseError
          · right
            subst he
            exact ⟨fun _ => none, fun k => by simp, fun f top => ⟨top, rfl, fun k => rfl⟩⟩
          · left
            refine ⟨e, fun f top => ?_⟩
            cases e <;> first | rfl | exact absurd rfl he
      | _ => exact Or.inl ⟨.typeError, fun _ _ => rfl⟩
    · simp only [if_neg hc]
      by_cases hn : fmt = .sac ∧ E.isNull v = true
      · right
        simp only [if_pos hn]
        have hcv : hasConversion fmt p.1 = false := by
          by_contra h
          rw [Bool.not_eq_false] at h
          obtain ⟨rfl, hn⟩ := hn
          rw [hp rfl h v hv] at hn
          simp at hn
        simp only [hcv, Bool.false_eq_true, if_false]
        exact ⟨fun _ => none, fun k => by simp [hn], fun f top => ⟨top, rfl, fun k => rfl⟩⟩
      · simp only [if_neg hn]
        by_cases hcv : hasConversion fmt p.1 = true
        · have hfmt : fmt = .sac := by
            cases fmt with
            | sac => rfl
            | sh => simp [hasConversion] at hcv
          subst hfmt
          simp only [hcv, if_true]
          cases hs : sac with
          | none => rw [hs] at hv; simp [FStats.sub] at hv
          | some d =>
            simp only [convertRead, FStats.put, Dict.get_set_self]
            cases hr : E.reftime d with
            | error e =>
              by_cases he : e = .keyError
              · right
                subst he
                refine ⟨fun k => if k = p.1 then some v else none, fun k => ?_, fun f top => ⟨top.set p.1 v, rfl, fun k => ?_⟩⟩
                · by_cases hk : k = p.1
                  · simp only [hk, if_true, ne_eq, reduceCtorEq, not_false_eq_true, true_and, true_iff]
                    exact fun h => hn ⟨rfl, h⟩
                  · simp [hk]
                · rw [Dict.get_set]
                  by_cases hk : k = p.1 <;> simp [hk]
              · left
                refine ⟨e, fun f top => ?_⟩
                cases e <;> first | rfl | exact absurd rfl he
            | ok t0 =>
              cases v with
              | num x =>
                right
                refine ⟨fun k => if k = p.1 then some (.time (t0 + x)) else none, fun k => ?_, fun f top => ⟨_, rfl, fun k => ?_⟩⟩
                · by_cases hk : k = p.1
                  · simp only [hk, if_true, ne_eq, reduceCtorEq, not_false_eq_true, true_and, true_iff]
                    exact fun h => hn ⟨rfl, h⟩
                  · simp [hk]
                · rw [Dict.get_set, Dict.get_set]
                  by_cases hk : k = p.1 <;> simp [hk]
              | _ => exact Or.inl ⟨.typeError, fun _ _ => rfl⟩
        · right
          simp only [Bool.not_eq_true] at hcv
          simp only [hcv, Bool.false_eq_true, if_false]
          refine ⟨fun k => if k = p.1 then some v else none, fun k => ?_, fun f top => ⟨top.set p.1 v, rfl, fun k => ?_⟩⟩
          · by_cases hk : k = p.1 <;> simp [hk, hn]
          · rw [Dict.get_set]
            by_cases hk : k = p.1 <;> simp [hk]

theorem readFold_override (fmt : Fmt) (sac sh : Option (Dict (Val K))) (L : List (String × String))
    (hp : ∀ p ∈ L, fmt = .sac → hasConversion .sac p.1 = true →
      ∀ v, sac.bind (fun d => d.get p.2) = some v → E.isNull v = false) :
    (∃ e, ∀ (f : Option Str) (top : Dict (Val K)), L.foldlM (readStep E fmt) ⟨f, top, sac, sh⟩ = .error e) ∨
    ∃ O : String → Option (Val K),
      (∀ k, O k ≠ none ↔ ∃ p ∈ L, Defines E fmt (FStats.sub ⟨none, [], sac, sh⟩ fmt) p k) ∧
      ∀ (f : Option Str) (top : Dict (Val K)), ∃ top' : Dict (Val K),
        L.foldlM (readStep E fmt) ⟨f, top, sac, sh⟩ = .ok ⟨f, top', sac, sh⟩ ∧ ∀ k, top'.get k = (O k).or (top.get k) := by
  induction L with
  | nil => exact Or.inr ⟨fun _ => none, fun k => by simp, fun f top => ⟨top, rfl, fun k => rfl⟩⟩
  | cons p L ih =>
    simp only [List.foldlM_cons, bind, Except.bind]
    rcases readStep_override E fmt sac sh p (hp p List.mem_cons_self) with ⟨e, h1⟩ | ⟨O1, hO1, h1⟩
    · left
      exact ⟨e, fun f top => by rw [h1 f top]⟩
    · rcases ih fun q hq => hp q (List.mem_cons_of_mem _ hq) with ⟨e, h2⟩ | ⟨O2, hO2, h2⟩
      · left
        refine ⟨e, fun f top => ?_⟩
        obtain ⟨top1, e1, -⟩ := h1 f top
        rw [e1]
        exact h2 f top1
      · right
        refine ⟨fun k => (O2 k).or (O1 k), fun k => ?_, fun f top => ?_⟩
        · have : (O2 k).or (O1 k) ≠ none ↔ O1 k ≠ none ∨ O2 k ≠ none := by
            cases O2 k <;> cases O1 k <;> simp
          rw [this, hO1, hO2]
          simp
        · obtain ⟨top1, e1, g1⟩ := h1 f top
          obtain ⟨top2, e2, g2⟩ := h2 f top1
          refine ⟨top2, by rw [e1]; exact e2, fun k => ?_⟩
          rw [g2, g1, Option.or_assoc]

/-- The entry `k` is defined by the format specific header of the trace. -/
def FromFile (st : FStats K) (k : String) : Prop :=
  ∃ f fmt, st.format = some f ∧ fmtOf f = some fmt ∧ ∃ p ∈ headerMap fmt, Defines E fmt (st.sub fmt) p k

theorem readHeader_override (st : FStats K) (ht : TimesDefined E st.sac) :
    (∃ e, ∀ top : Dict (Val K), readHeader E { st with top := top } = .error e) ∨
    ∃ O : String → Option (Val K), (∀ k, O k ≠ none ↔ FromFile E st k) ∧ ∀ top : Dict (Val K), ∃ top' : Dict (Val K),
      readHeader E { st with top := top } = .ok { st with top := top' } ∧ ∀ k, top'.get k = (O k).or (top.get k) := by
  obtain ⟨format, top0, sac, sh⟩ := st
  simp only [readHeader, FromFile]
  cases format with
  | none => exact Or.inr ⟨fun _ => none, fun k => by simp, fun top => ⟨top, rfl, fun k => rfl⟩⟩
  | some f =>
    simp only [Option.some.injEq, exists_and_left, exists_eq_left']
    cases hf : fmtOf f with
    | none => exact Or.inr ⟨fun _ => none, fun k => by simp, fun top => ⟨top, rfl, fun k => rfl⟩⟩
    | some fmt =>
      simp only [Option.some.injEq, exists_eq_left']
      rcases readFold_override E fmt sac sh (headerMap fmt) (by
        rintro p hp rfl hc v hv
        exact ht p.2 v (conversion_field p hp hc) hv) with ⟨e, h⟩ | ⟨O, hO, h⟩
      · exact Or.inl ⟨e, fun top => h (some f) top⟩
      · refine Or.inr ⟨O, fun k => ?_, fun top => h (some f) top⟩
        rw [hO]
        have : FStats.sub ⟨some f, top0, sac, sh⟩ fmt = FStats.sub (⟨none, [], sac, sh⟩ : FStats K) fmt := by
          cases fmt <;> rfl
        rw [this]

theorem splitOn_parts (c : Char) (s : Str) : ∀ w ∈ splitOn c s, c ∉ w := by
  induction s with
  | nil => intro w hw; simp [splitOn] at hw; rw [hw]; simp
  | cons d s ih =>
    intro w hw
    unfold splitOn at hw
    split at hw
    · rcases List.mem_cons.1 hw with rfl | hw
      · simp
      · exact ih w hw
    · rename_i hd
      cases he : splitOn c s with
      | nil => exact absurd he (splitOn_ne_nil _ _)
      | cons w' ws =>
        rw [he] at ih hw
        rcases List.mem_cons.1 hw with rfl | hw
        · have := ih w' List.mem_cons_self
          simp only [List.mem_cons, not_or]
          exact ⟨fun h => hd h.symm, this⟩
        · exact ih w (List.mem_cons_of_mem _ hw)

/-- The trace with other entries in its stats. -/
def withTop (t : FTrace K) (top : Dict (Val K)) : FTrace K :=
  ⟨t.net, t.sta, t.loc, t.cha, ⟨t.st.format, top, t.st.sac, t.st.sh⟩⟩

/-- The codes after `RFTrace.__init__`. -/
theorem initTrace_eq (t : FTrace K) : ∃ n s l, (∀ top : Dict (Val K), initTrace E (withTop t top) =
      (readHeader E ⟨t.st.format, top, t.st.sac, t.st.sh⟩).map fun st => ⟨n, s, l, t.cha, st⟩) ∧
    ∀ st : FStats K, st.format = t.st.format → initTrace E ⟨n, s, l, t.cha, st⟩ =
      (readHeader E st).map fun st => ⟨n, s, l, t.cha, st⟩ := by
  obtain ⟨net, sta, loc, cha, format, top0, sac, sh⟩ := t
  have hmap : ∀ (r : Res (FStats K)) (g : FStats K → FTrace K),
      (match r with | .ok st => .ok (g st) | .error e => .error e : Res (FTrace K)) = r.map g := by
    intro r g
    cases r <;> rfl
  have plain : ∀ (n s l : Str) (st : FStats K), (∀ f, st.format = some f → ¬ (upper f = "Q".toList ∧ s.count '.' > 1)) →
      initTrace E ⟨n, s, l, cha, st⟩ = (readHeader E st).map fun st => ⟨n, s, l, cha, st⟩ := by
    intro n s l st h
    unfold initTrace
    cases hf : st.format with
    | none => simp only [hf]; exact hmap _ _
    | some f => simp only [hf, if_neg (h f hf)]; exact hmap _ _
  by_cases hq : ∃ f, format = some f ∧ upper f = "Q".toList ∧ sta.count '.' > 1
  · obtain ⟨f, rfl, hq⟩ := hq
    have hone : ∀ w : Str, splitOn '.' sta ≠ [w] := by
      intro w hw
      have h1 := joinWith_splitOn '.' sta
      have h2 := splitOn_parts '.' sta w (by rw [hw]; simp)
      rw [hw] at h1
      simp only [joinWith] at h1
      rw [h1] at h2
      rw [List.count_eq_zero_of_not_mem h2] at hq
      omega
    have htwo : ∀ w x : Str, splitOn '.' sta ≠ [w, x] := by
      intro w x hw
      have h1 := joinWith_splitOn '.' sta
      have h2 := splitOn_parts '.' sta w (by rw [hw]; simp)
      have h3 := splitOn_parts '.' sta x (by rw [hw]; simp)
      rw [hw] at h1
      simp only [joinWith] at h1
      rw [← h1, List.count_append, List.count_cons_self, List.count_eq_zero_of_not_mem h2,
        List.count_eq_zero_of_not_mem h3] at hq
      omega
    rcases hsp : splitOn '.' sta with _ | ⟨n, _ | ⟨s, _ | ⟨l, rest⟩⟩⟩
    · exact absurd hsp (splitOn_ne_nil _ _)
    · exact absurd hsp (hone n)
    · exact absurd hsp (htwo n s)
    · refine ⟨n, s, l, fun top => ?_, fun st hst => plain n s l st fun f' _ h => ?_⟩
      · unfold initTrace withTop
        simp only [if_pos hq, hsp]
        exact hmap _ _
      · have := splitOn_parts '.' sta s (by rw [hsp]; simp)
        rw [List.count_eq_zero_of_not_mem this] at h
        omega
  · have : ∀ f, format = some f → ¬ (upper f = "Q".toList ∧ sta.count '.' > 1) := fun f hf h => hq ⟨f, hf, h⟩
    exact ⟨net, sta, loc, fun top => plain _ _ _ _ this, fun st hst => plain _ _ _ _ fun f hf => this f (hst.symm.trans hf)⟩

/-- **C188, partial.**  Fields with times are absent or defined.  Whether an `RFTrace` can be made of a trace does not depend on
the entries of its stats; if it can, the entries defined by the format specific header are taken from there, whatever the
entries are, and all others are kept. -/
theorem C188_file_headers_partial (t : FTrace K) (ht : TimesDefined E t.st.sac) :
    (∃ e, ∀ top : Dict (Val K), initTrace E (withTop t top) = .error e) ∨
    ∃ O : String → Option (Val K), (∀ k, O k ≠ none ↔ FromFile E t.st k) ∧ ∀ top : Dict (Val K), ∃ t',
      initTrace E (withTop t top) = .ok t' ∧ t'.cha = t.cha ∧
        ∀ k, t'.st.top.get k = (O k).or (top.get k) := by
  obtain ⟨n, s, l, h1, -⟩ := initTrace_eq E t
  rcases readHeader_override E t.st ht with ⟨e, h⟩ | ⟨O, hO, h⟩
  · exact Or.inl ⟨e, fun top => by rw [h1, h]; rfl⟩
  · refine Or.inr ⟨O, hO, fun top => ?_⟩
    obtain ⟨top', e, g⟩ := h top
    exact ⟨⟨n, s, l, t.cha, ⟨t.st.format, top', t.st.sac, t.st.sh⟩⟩, by rw [h1, e]; rfl, rfl, g⟩

/-- **C188, partial.**  Making an `RFTrace` of an `RFTrace` changes nothing. -/
theorem C188_again_partial (t t' : FTrace K) (ht : TimesDefined E t.st.sac) (h : initTrace E t = .ok t') :
    ∃ t'', initTrace E t' = .ok t'' ∧ t''.net = t'.net ∧ t''.sta = t'.sta ∧ t''.loc = t'.loc ∧ t''.cha = t'.cha ∧
      t''.st.format = t'.st.format ∧ t''.st.sac = t'.st.sac ∧ t''.st.sh = t'.st.sh ∧
      ∀ k, t''.st.top.get k = t'.st.top.get k := by
  obtain ⟨n, s, l, h1, h2⟩ := initTrace_eq E t
  have e0 := h1 t.st.top
  replace e0 : initTrace E t = _ := e0
  rw [h] at e0
  rcases readHeader_override E t.st ht with ⟨e, h3⟩ | ⟨O, -, h3⟩
  · have := h3 t.st.top
    replace this : readHeader E t.st = _ := this
    replace e0 : _ = (readHeader E t.st).map _ := e0
    rw [this] at e0
    simp [Except.map] at e0
  · obtain ⟨top1, e1, g1⟩ := h3 t.st.top
    obtain ⟨top2, e2, g2⟩ := h3 top1
    rw [e1] at e0
    simp only [Except.map, Except.ok.injEq] at e0
    refine ⟨⟨n, s, l, t.cha, ⟨t.st.format, top2, t.st.sac, t.st.sh⟩⟩, ?_, ?_⟩
    · rw [e0, h2 ⟨t.st.format, top1, t.st.sac, t.st.sh⟩ rfl, e2]
      rfl
    · rw [e0]
      refine ⟨rfl, rfl, rfl, rfl, rfl, rfl, rfl, fun k => ?_⟩
      show top2.get k = top1.get k
      rw [g2, g1]
      cases O k <;> rfl

theorem readStep_absent (st : FStats K) (d : Dict (Val K)) (hd : st.sac = some d) (p : String × String)
    (hp : d.get p.2 = none) : readStep E .sac st p = .ok st := by
  unfold readStep
  simp only [FStats.sub, hd, Option.bind_some, hp]

theorem readFold_absent (st : FStats K) (d : Dict (Val K)) (hd : st.sac = some d) (L : List (String × String))
    (hL : ∀ p ∈ L, d.get p.2 = none) : L.foldlM (readStep E .sac) st = .ok st := by
  induction L with
  | nil => rfl
  | cons p L ih =>
    simp only [List.foldlM_cons, bind, Except.bind, readStep_absent E st d hd p (hL p List.mem_cons_self)]
    exact ih fun q hq => hL q (List.mem_cons_of_mem _ hq)

theorem sac_parts : ∃ L1 L2, headerMap .sac = L1 ++ ("onset", "a") :: L2 ∧ (∀ p ∈ L1, p.2 ≠ "a") ∧ ∀ p ∈ L2, p.2 ≠ "a" :=
  ⟨(headerMap .sac).take 8, (headerMap .sac).drop 9, rfl, by decide, by decide⟩

/-- Reading a SAC header with the field `a` only. -/
theorem read_pick (top : Dict (Val K)) (v : Val K) (r : Res (FStats K))
    (hr : readStep E .sac ⟨some "SAC".toList, top, some [("a", v)], none⟩ ("onset", "a") = r)
    (hs : ∀ st, r = .ok st → st.sac = some [("a", v)]) :
    initTrace E ⟨[], [], [], [], ⟨some "SAC".toList, top, some [("a", v)], none⟩⟩ = r.map fun st => ⟨[], [], [], [], st⟩ := by
  have hq : ¬ (upper "SAC".toList = "Q".toList ∧ ([] : Str).count '.' > 1) := by decide
  have hf : fmtOf "SAC".toList = some .sac := by decide
  obtain ⟨L1, L2, hL, h1, h2⟩ := sac_parts
  have hget : ∀ f, f ≠ "a" → Dict.get [("a", v)] f = none := by
    intro f hf
    simp [Dict.get, Ne.symm hf]
  have hread : readHeader E ⟨some "SAC".toList, top, some [("a", v)], none⟩ = r := by
    simp only [readHeader, hf, hL, List.foldlM_append, bind, Except.bind]
    rw [readFold_absent E _ _ rfl L1 fun p hp => hget _ (h1 p hp)]
    simp only [List.foldlM_cons, bind, Except.bind]
    rw [hr]
    cases hr' : r with
    | error e => rfl
    | ok st => exact readFold_absent E st _ (hs st hr') L2 fun p hp => hget _ (h2 p hp)
  unfold initTrace
  simp only [if_neg hq, hread]
  cases r <;> rfl

/-- **C188 is false of the code.**  An onset set by hand before the `RFTrace` is made of a trace read from a SAC file is
replaced by the pick in field `a`. -/
theorem C188_counterexample (x y t0 : K) (hr : ∀ d, E.reftime d = .ok t0) (hn : E.isNull (.num x) = false) :
    ∃ t t' : FTrace K, t.st.top.get "onset" = some (.time y) ∧ initTrace E t = .ok t' ∧
      t'.st.top.get "onset" = some (.time (t0 + x)) := by
  refine ⟨_, _, rfl, read_pick E [("onset", .time y)] (.num x)
    (.ok ⟨some "SAC".toList, [("onset", .time (t0 + x))], some [("a", .num x)], none⟩) ?_ ?_, rfl⟩
  · have hc : hasConversion .sac "onset" = true := by decide
    simp [readStep, FStats.sub, Dict.get, hc, convertRead, hr, hn, FStats.put, Dict.set]
  · intro st hst
    injection hst with hst
    rw [← hst]

/-- **C188, the exception.**  Field `a` is undefined (`-12345`) and the onset was set before: `TypeError`. -/
theorem C188_counterexample_null (v : Val K) (y t0 : K) (hr : ∀ d, E.reftime d = .ok t0) (hn : E.isNull v = true) :
    initTrace E ⟨[], [], [], [], ⟨some "SAC".toList, [("onset", .time y)], some [("a", v)], none⟩⟩ = .error .typeError := by
  refine read_pick E [("onset", .time y)] v (.error .typeError) ?_ (fun st hst => by cases hst)
  have hc : hasConversion .sac "onset" = true := by decide
  simp [readStep, FStats.sub, Dict.get, hc, convertRead, hr, hn, FStats.put, Dict.set]

/-- One step of the loop for an entry whose field is absent or undefined. -/
theorem readStep_undefined (k : String) (st st' : FStats K) (p : String × String) (hk : st.top.get k = none)
    (hp : p.1 = k → ∀ v, st.sac.bind (fun d => d.get p.2) = some v → E.isNull v = true)
    (h : readStep E .sac st p = .ok st') : st'.top.get k = none ∧ st'.sac = st.sac := by
  unfold readStep at h
  rw [show FStats.sub st .sac = st.sac from rfl] at h
  cases hv : st.sac.bind (fun d => d.get p.2) with
  | none => rw [hv] at h; cases h; exact ⟨hk, rfl⟩
  | some v =>
    rw [hv] at h
    simp only [show ¬ (Fmt.sac = .sh ∧ p.2 = "COMMENT") by simp, if_false, true_and] at h
    have hconv : ∀ st1 : FStats K, st1.top.get k = none → st1.sac = st.sac →
        (if hasConversion .sac p.1 then convertRead E st1 p.1 else .ok st1) = .ok st' →
        st'.top.get k = none ∧ st'.sac = st.sac := by
      intro st1 h1 h2 h3
      split at h3
      · unfold convertRead at h3
        rw [h2] at h3
        split at h3
        · cases h3
        · split at h3
          · cases h3; exact ⟨h1, h2⟩
          · cases h3
          · split at h3
            · cases h3; exact ⟨h1, h2⟩
            · rename_i hx
              cases h3
              refine ⟨?_, h2⟩
              unfold FStats.put
              rw [Dict.get_set_ne]
              · exact h1
              · rintro rfl; rw [h1] at hx; cases hx
            · cases h3
      · cases h3; exact ⟨h1, h2⟩
    by_cases hn : E.isNull v = true
    · rw [if_pos hn] at h
      exact hconv st hk rfl h
    · rw [if_neg hn] at h
      refine hconv (st.put p.1 v) ?_ rfl h
      unfold FStats.put
      rw [Dict.get_set_ne]
      · exact hk
      · rintro rfl; exact hn (hp rfl v hv)

/-- C188: an entry which is not set and whose field of the SAC header is absent or undefined is not set afterwards; in
particular an undefined time does not become the reference time. -/
theorem C188_undefined (t t' : FTrace K) (k : String) (hf : t.st.format = some "SAC".toList) (hk : t.st.top.get k = none)
    (hp : ∀ f, (k, f) ∈ headerMap .sac → ∀ v, t.st.sac.bind (fun d => d.get f) = some v → E.isNull v = true)
    (h : initTrace E t = .ok t') : t'.st.top.get k = none := by
  obtain ⟨n, s, l, h1, -⟩ := initTrace_eq E t
  have e0 := h1 t.st.top
  replace e0 : initTrace E t = _ := e0
  rw [h] at e0
  have hloop : ∀ (L : List (String × String)) (st st' : FStats K), (∀ p ∈ L, p ∈ headerMap .sac) →
      st.top.get k = none → st.sac = t.st.sac → L.foldlM (readStep E .sac) st = .ok st' → st'.top.get k = none := by
    intro L
    induction L with
    | nil => intro st st' _ h1 _ h2; cases h2; exact h1
    | cons p L ih =>
      intro st st' hL h1 h2 h3
      simp only [List.foldlM_cons, bind, Except.bind] at h3
      cases hs : readStep E .sac st p with
      | error e => rw [hs] at h3; cases h3
      | ok st1 =>
        rw [hs] at h3
        obtain ⟨q1, q2⟩ := readStep_undefined E k st st1 p h1 (fun hpk v hv => by
          rw [h2] at hv
          exact hp p.2 (by rw [← hpk]; exact hL p List.mem_cons_self) v hv) hs
        exact ih st1 st' (fun q hq => hL q (List.mem_cons_of_mem _ hq)) q1 (q2.trans h2) h3
  have hfm : fmtOf "SAC".toList = some .sac := by decide
  rw [hf] at e0
  simp only [readHeader, hfm] at e0
  cases hl : (headerMap .sac).foldlM (readStep E .sac) ⟨some "SAC".toList, t.st.top, t.st.sac, t.st.sh⟩ with
  | error e => rw [hl] at e0; cases e0
  | ok st =>
    rw [hl] at e0
    cases e0
    exact hloop _ ⟨some "SAC".toList, t.st.top, t.st.sac, t.st.sh⟩ _ (fun _ hp => hp) hk rfl hl

end

/-- External functions for the case below: the reference time is 1000. -/
def pickEnv : FmtEnv ℚ where
  toSac _ d := d.getD []
  reftime _ := .ok 1000
  isNull v := decide (v = .num (-12345))
  dumps _ := .ok []
  loads _ := .error .parseError

/-- C188 for a trace with a pick, a station latitude and an undefined back azimuth: the pick and the latitude are taken from the
SAC header, the back azimuth and the entry `note` from the stats. -/
example : ∃ t', initTrace pickEnv ⟨[], "S".toList, [], "BHZ".toList, ⟨some "SAC".toList,
      [("onset", .time 7), ("back_azimuth", .num 30), ("note", .num 1)],
      some [("stla", .num 5), ("a", .num 10), ("baz", .num (-12345))], none⟩⟩ = .ok t' ∧
    t'.st.top = [("onset", .time 1010), ("back_azimuth", .num 30), ("note", .num 1), ("station_latitude", .num 5)] ∧
    ∃ t'', initTrace pickEnv t' = .ok t'' ∧ ∀ k, t''.st.top.get k = t'.st.top.get k := by
  let t : FTrace ℚ := ⟨[], "S".toList, [], "BHZ".toList, ⟨some "SAC".toList,
      [("onset", .time 7), ("back_azimuth", .num 30), ("note", .num 1)],
      some [("stla", .num 5), ("a", .num 10), ("baz", .num (-12345))], none⟩⟩
  have h : initTrace pickEnv t = .ok ⟨[], "S".toList, [], "BHZ".toList, ⟨some "SAC".toList,
      [("onset", .time 1010), ("back_azimuth", .num 30), ("note", .num 1), ("station_latitude", .num 5)],
      some [("stla", .num 5), ("a", .num 10), ("baz", .num (-12345))], none⟩⟩ := by decide +kernel
  have ht : TimesDefined pickEnv t.st.sac := by
    intro f v hf hv
    rcases hf with rfl | rfl
    · have : v = .num 10 := by
        have h : t.st.sac.bind (fun d => d.get "a") = some (.num 10) := by decide +kernel
        rw [h] at hv
        exact (Option.some.inj hv).symm
      rw [this]
      decide +kernel
    · have h : t.st.sac.bind (fun d => d.get "o") = none := by decide +kernel
      rw [h] at hv
      simp at hv
  obtain ⟨t'', e, -, -, -, -, -, -, -, hk⟩ := C188_again_partial pickEnv t _ ht h
  exact ⟨_, h, rfl, t'', e, hk⟩

/-- C188 for an undefined pick: there is no onset afterwards. -/
example : ∃ t', initTrace pickEnv ⟨[], "S".toList, [], "BHZ".toList, ⟨some "SAC".toList, [],
      some [("a", .num (-12345))], none⟩⟩ = .ok t' ∧ t'.st.top.get "onset" = none := by
  refine ⟨_, by rfl, ?_⟩
  refine C188_undefined pickEnv ⟨[], "S".toList, [], "BHZ".toList, ⟨some "SAC".toList, [], some [("a", .num (-12345))], none⟩⟩ _
    "onset" rfl rfl (fun f hf v hv => ?_) rfl
  have key : ∀ p ∈ headerMap .sac, p.1 = "onset" → p.2 = "a" := by decide
  have : f = "a" := key _ hf rfl
  subst this
  cases hv
  decide

/-- The back azimuth is not defined by this SAC header, the onset is. -/
example : FromFile pickEnv ⟨some "SAC".toList, [], some [("a", .num 10), ("baz", .num (-12345))], none⟩ "onset" :=
  ⟨_, .sac, rfl, by decide, ("onset", "a"), by decide, .num 10, rfl, by simp [pickEnv]; norm_num⟩

end Verif.Props
