import Verif.Model.Headers
import Mathlib.Data.List.Basic
import Mathlib.Tactic.Ring

/-!
# Format specific headers (C55-C58)
-/

set_option linter.unusedSimpArgs false
set_option linter.unusedSectionVars false

namespace Verif.Props
open Verif.Py Verif.Model.Headers

/-! ## C55: the tables -/

/-- **C55** The pairing `zip` drops no header: every header of `_HEADERS` has a field in both formats,
and the headers are distinct. -/
theorem C55_complete : headers.Nodup ∧
    (headerMap .sac).map Prod.fst = headers ∧ (headerMap .sac).map Prod.snd = sacFields ∧
    (headerMap .sh).map Prod.fst = headers ∧ (headerMap .sh).map Prod.snd = shFields := by decide

/-- **C55** Two headers never share a SAC field, and two headers stored outside COMMENT never share an
SH field. -/
theorem C55_distinct (h h' f : String) :
    ((h, f) ∈ headerMap .sac → (h', f) ∈ headerMap .sac → h = h') ∧
    (f ≠ "COMMENT" → (h, f) ∈ headerMap .sh → (h', f) ∈ headerMap .sh → h = h') := by
  have h1 : ∀ p ∈ headerMap .sac, ∀ q ∈ headerMap .sac, p.2 = q.2 → p.1 = q.1 := by decide
  have h2 : ∀ p ∈ headerMap .sh, ∀ q ∈ headerMap .sh, p.2 ≠ "COMMENT" → p.2 = q.2 → p.1 = q.1 := by
    decide
  exact ⟨fun a b => h1 _ a _ b rfl, fun hc a b => h2 _ a _ b hc rfl⟩

/-- Every header has exactly one field in each format. -/
theorem C55_exactly_one (fmt : Fmt) (h : String) (hh : h ∈ headers) :
    ∃! f, (h, f) ∈ headerMap fmt := by
  have h1 : ∀ h ∈ headers, ∃ p ∈ headerMap fmt, p.1 = h := by cases fmt <;> decide
  have h2 : ∀ p ∈ headerMap fmt, ∀ q ∈ headerMap fmt, p.1 = q.1 → p.2 = q.2 := by cases fmt <;> decide
  obtain ⟨p, hp, rfl⟩ := h1 h hh
  exact ⟨p.2, hp, fun f hf => h2 _ hf _ hp rfl⟩

/-! ## Dictionaries -/

/-- The inverse of a table. -/
def swapDict (L : Dict String) : Dict String := L.map fun p => (p.2, p.1)

theorem dict_mem_of_get {V : Type _} (d : Dict V) (k : String) (v : V) (h : d.get k = some v) :
    (k, v) ∈ d := by
  induction d with
  | nil => simp at h
  | cons p d ih =>
    obtain ⟨k', v'⟩ := p
    unfold Dict.get at h
    split at h
    · rename_i hk
      cases h; subst hk; simp
    · exact List.mem_cons_of_mem _ (ih h)

theorem dict_get_of_mem {V : Type _} (d : Dict V) (hd : d.NodupKeys) (k : String) (v : V)
    (h : (k, v) ∈ d) : d.get k = some v := by
  induction d with
  | nil => simp at h
  | cons p d ih =>
    obtain ⟨k', v'⟩ := p
    simp only [Dict.NodupKeys, Dict.keys, List.map_cons, List.nodup_cons] at hd
    rcases List.mem_cons.1 h with h1 | h1
    · cases h1; simp [Dict.get]
    · have : k' ≠ k := by
        rintro rfl
        exact hd.1 (List.mem_map.2 ⟨_, h1, rfl⟩)
      simp only [Dict.get, this, if_false]
      exact ih hd.2 h1

/-! ## SAC -/

section
variable {K : Type} [Field K] (E : FmtEnv K)

/-- The value stored in the SAC header for an entry of the stats: times relative to the reference time. -/
def sacVal (t0 : K) (h : String) (v : Val K) : Val K :=
  if hasConversion .sac h then
    match v with
    | .time x => .num (x - t0)
    | v => v
  else v

/-- Entries that can be stored: the two time headers hold times. -/
def TimesOk (top : Dict (Val K)) : Prop :=
  ∀ h v, hasConversion .sac h = true → top.get h = some v → ∃ x, v = .time x

/-- `get_sac_reftime` does not look at the fields used for rf headers. -/
def ReftimeIndep (E : FmtEnv K) : Prop :=
  ∀ d f v, f ∈ sacFields → E.reftime (d.set f v) = E.reftime d

theorem sac_writeLoop (hi : ReftimeIndep E) (t0 : K) (L : Dict String)
    (hf : ∀ p ∈ L, p.2 ∈ sacFields) (hn : (L.map Prod.snd).Nodup)
    (fm : Option Str) (top : Dict (Val K)) (sh : Option (Dict (Val K))) (ht : TimesOk top)
    (c d : Dict (Val K)) (hr : E.reftime d = .ok t0) :
    ∃ d', L.foldlM (writeStep E .sac) (⟨fm, top, some d, sh⟩, c) =
        .ok (⟨fm, top, some d', sh⟩, c) ∧ E.reftime d' = .ok t0 ∧
      ∀ f, d'.get f = (((swapDict L).get f).bind
        (fun h => (top.get h).map (sacVal t0 h))).or (d.get f) := by
  induction L generalizing d with
  | nil => exact ⟨d, rfl, hr, fun f => by simp [swapDict]⟩
  | cons p L ih =>
    obtain ⟨h, f0⟩ := p
    have hf' : ∀ p ∈ L, p.2 ∈ sacFields := fun p hp => hf p (List.mem_cons_of_mem _ hp)
    simp only [List.map_cons, List.nodup_cons] at hn
    have hnot : (swapDict L).get f0 = none := by
      rw [Dict.get_eq_none_iff]
      intro hm
      apply hn.1
      simpa [swapDict, Dict.keys, List.map_map, Function.comp] using hm
    rw [List.foldlM_cons]
    cases hv : top.get h with
    | none =>
      have : writeStep E .sac (⟨fm, top, some d, sh⟩, c) (h, f0) = .ok (⟨fm, top, some d, sh⟩, c) := by
        simp [writeStep, hv]
      rw [this]
      obtain ⟨d', h1, h2, h3⟩ := ih hf' hn.2 d hr
      refine ⟨d', h1, h2, fun f => ?_⟩
      rw [h3 f]
      by_cases hff : f0 = f
      · subst hff
        simp [swapDict, Dict.get, hv] at hnot ⊢
        simp [hnot]
      · simp [swapDict, Dict.get, hff]
    | some v =>
      have : writeStep E .sac (⟨fm, top, some d, sh⟩, c) (h, f0) =
          .ok (⟨fm, top, some (d.set f0 (sacVal t0 h v)), sh⟩, c) := by
        by_cases hc : hasConversion .sac h = true
        · obtain ⟨x, rfl⟩ := ht h v hc hv
          simp [writeStep, hv, hc, convertWrite, hr, sacVal, FStats.setSub, FStats.sub]
        · simp [writeStep, hv, hc, sacVal, FStats.setSub, FStats.sub]
      rw [this]
      have hr' : E.reftime (d.set f0 (sacVal t0 h v)) = .ok t0 := by
        rw [hi _ _ _ (hf (h, f0) (by simp)), hr]
      obtain ⟨d', h1, h2, h3⟩ := ih hf' hn.2 _ hr'
      refine ⟨d', h1, h2, fun f => ?_⟩
      rw [h3 f, Dict.get_set]
      by_cases hff : f0 = f
      · subst hff
        rw [hnot]
        simp [swapDict, Dict.get, hv]
      · simp [swapDict, Dict.get, hff, Ne.symm hff]

/-- The stats entry read from a SAC field. -/
def sacRead (t0 : K) (h : String) (v : Val K) : Val K :=
  if hasConversion .sac h then
    match v with
    | .num x => .time (t0 + x)
    | v => v
  else v

/-- Fields that can be read: not the undefined value, numbers for the two times. -/
def FieldsOk (E : FmtEnv K) (L : Dict String) (d : Dict (Val K)) : Prop :=
  ∀ p ∈ L, ∀ v, d.get p.2 = some v → E.isNull v = false ∧
    (hasConversion .sac p.1 = true → ∃ x, v = .num x)

theorem sac_readLoop (t0 : K) (L : Dict String) (hn : L.NodupKeys)
    (fm : Option Str) (sh : Option (Dict (Val K)))
    (d : Dict (Val K)) (hr : E.reftime d = .ok t0) (hd : FieldsOk E L d) (top : Dict (Val K)) :
    ∃ top', L.foldlM (readStep E .sac) ⟨fm, top, some d, sh⟩ = .ok ⟨fm, top', some d, sh⟩ ∧
      ∀ k, top'.get k = ((L.get k).bind fun f => (d.get f).map (sacRead t0 k)).or (top.get k) := by
  induction L generalizing top with
  | nil => exact ⟨top, rfl, fun k => by simp⟩
  | cons p L ih =>
    obtain ⟨h, f0⟩ := p
    have hd' : FieldsOk E L d := fun p hp => hd p (List.mem_cons_of_mem _ hp)
    simp only [Dict.NodupKeys, Dict.keys, List.map_cons, List.nodup_cons] at hn
    have hnot : Dict.get L h = none := (Dict.get_eq_none_iff L h).2 hn.1
    rw [List.foldlM_cons]
    cases hv : d.get f0 with
    | none =>
      have : readStep E .sac ⟨fm, top, some d, sh⟩ (h, f0) = .ok ⟨fm, top, some d, sh⟩ := by
        simp [readStep, FStats.sub, hv]
      rw [this]
      obtain ⟨top', h1, h2⟩ := ih hn.2 hd' top
      refine ⟨top', h1, fun k => ?_⟩
      rw [h2 k]
      by_cases hk : h = k
      · subst hk; simp [Dict.get, hnot, hv]
      · simp [Dict.get, hk]
    | some v =>
      obtain ⟨hnull, hnum⟩ := hd (h, f0) (by simp) v hv
      have : readStep E .sac ⟨fm, top, some d, sh⟩ (h, f0) =
          .ok ⟨fm, (if hasConversion .sac h then (top.set h v).set h (sacRead t0 h v) else top.set h v),
            some d, sh⟩ := by
        by_cases hc : hasConversion .sac h = true
        · obtain ⟨x, rfl⟩ := hnum hc
          simp [readStep, FStats.sub, hv, hnull, hc, FStats.put, convertRead, hr, sacRead]
        · simp [readStep, FStats.sub, hv, hnull, hc, FStats.put]
      rw [this]
      obtain ⟨top', h1, h2⟩ := ih hn.2 hd'
        (if hasConversion .sac h then (top.set h v).set h (sacRead t0 h v) else top.set h v)
      refine ⟨top', h1, fun k => ?_⟩
      rw [h2 k]
      by_cases hk : h = k
      · subst hk
        by_cases hc : hasConversion .sac h = true <;> simp [Dict.get, hnot, hv, hc, sacRead]
      · have hk' : k ≠ h := Ne.symm hk
        by_cases hc : hasConversion .sac h = true <;>
          simp [Dict.get, hk, hc, Dict.get_set_ne _ _ hk']

/-! ## SH -/

theorem set_nodupKeys {V : Type _} (d : Dict V) (k : String) (v : V) (h : d.NodupKeys) :
    (d.set k v).NodupKeys := by
  induction d with
  | nil => simp [Dict.set, Dict.NodupKeys, Dict.keys]
  | cons p d ih =>
    obtain ⟨k', v'⟩ := p
    simp only [Dict.NodupKeys, Dict.keys, List.map_cons, List.nodup_cons] at h
    by_cases hk : k' = k
    · simp only [Dict.set, hk, if_true, Dict.NodupKeys, Dict.keys, List.map_cons, List.nodup_cons]
      subst hk
      exact h
    · simp only [Dict.set, hk, if_false, Dict.NodupKeys, Dict.keys, List.map_cons, List.nodup_cons]
      refine ⟨?_, ih h.2⟩
      have h0 : Dict.get d k' = none := (Dict.get_eq_none_iff d k').2 h.1
      have h1 : Dict.get (Dict.set d k v) k' = none := by rw [Dict.get_set_ne _ _ hk, h0]
      exact (Dict.get_eq_none_iff _ k').1 h1

/-- The part of a table stored in COMMENT, and the rest. -/
def inComment (L : Dict String) : Dict String := L.filter fun p => p.2 = "COMMENT"
def notComment (L : Dict String) : Dict String := L.filter fun p => p.2 ≠ "COMMENT"

theorem sh_writeLoop (L : Dict String) (hn : L.NodupKeys)
    (hn2 : ((notComment L).map Prod.snd).Nodup)
    (fm : Option Str) (top : Dict (Val K)) (sac : Option (Dict (Val K)))
    (c d : Dict (Val K)) (hc : c.NodupKeys) :
    ∃ d' c', L.foldlM (writeStep E .sh) (⟨fm, top, sac, some d⟩, c) =
        .ok (⟨fm, top, sac, some d'⟩, c') ∧ c'.NodupKeys ∧
      (∀ f, d'.get f = (((swapDict (notComment L)).get f).bind (fun h => top.get h)).or (d.get f)) ∧
      (∀ k, c'.get k = (((inComment L).get k).bind (fun _ => top.get k)).or (c.get k)) := by
  induction L generalizing d c with
  | nil => exact ⟨d, c, rfl, hc, fun f => by simp [swapDict, notComment],
      fun k => by simp [inComment]⟩
  | cons p L ih =>
    obtain ⟨h, f0⟩ := p
    simp only [Dict.NodupKeys, Dict.keys, List.map_cons, List.nodup_cons] at hn
    have hnotc : Dict.get (inComment L) h = none := by
      rw [Dict.get_eq_none_iff]
      intro hm
      apply hn.1
      obtain ⟨q, hq, hq'⟩ := List.mem_map.1 hm
      exact List.mem_map.2 ⟨q, (List.mem_filter.1 hq).1, hq'⟩
    rw [List.foldlM_cons]
    by_cases hf : f0 = "COMMENT"
    · subst hf
      have e1 : notComment ((h, "COMMENT") :: L) = notComment L := by simp [notComment]
      have e2 : inComment ((h, "COMMENT") :: L) = (h, "COMMENT") :: inComment L := by simp [inComment]
      rw [e1] at hn2 ⊢
      rw [e2]
      cases hv : top.get h with
      | none =>
        have : writeStep E .sh (⟨fm, top, sac, some d⟩, c) (h, "COMMENT") =
            .ok (⟨fm, top, sac, some d⟩, c) := by simp [writeStep, hv]
        rw [this]
        obtain ⟨d', c', h1, h2, h3, h4⟩ := ih hn.2 hn2 c d hc
        refine ⟨d', c', h1, h2, h3, fun k => ?_⟩
        rw [h4 k]
        by_cases hk : h = k
        · subst hk; simp [Dict.get, hv]
        · simp [Dict.get, hk]
      | some v =>
        have : writeStep E .sh (⟨fm, top, sac, some d⟩, c) (h, "COMMENT") =
            .ok (⟨fm, top, sac, some d⟩, c.set h v) := by simp [writeStep, hv]
        rw [this]
        obtain ⟨d', c', h1, h2, h3, h4⟩ := ih hn.2 hn2 (c.set h v) d (set_nodupKeys c h v hc)
        refine ⟨d', c', h1, h2, h3, fun k => ?_⟩
        rw [h4 k, Dict.get_set]
        by_cases hk : h = k
        · subst hk; simp [Dict.get, hv, hnotc]
        · simp [Dict.get, hk, Ne.symm hk]
    · have e1 : notComment ((h, f0) :: L) = (h, f0) :: notComment L := by simp [notComment, hf]
      have e2 : inComment ((h, f0) :: L) = inComment L := by simp [inComment, hf]
      rw [e1] at hn2 ⊢
      rw [e2]
      simp only [List.map_cons, List.nodup_cons] at hn2
      have hnot : (swapDict (notComment L)).get f0 = none := by
        rw [Dict.get_eq_none_iff]
        intro hm
        apply hn2.1
        simpa [swapDict, Dict.keys, List.map_map, Function.comp] using hm
      have hconv : hasConversion .sh h = false := rfl
      cases hv : top.get h with
      | none =>
        have : writeStep E .sh (⟨fm, top, sac, some d⟩, c) (h, f0) =
            .ok (⟨fm, top, sac, some d⟩, c) := by simp [writeStep, hv, hf]
        rw [this]
        obtain ⟨d', c', h1, h2, h3, h4⟩ := ih hn.2 hn2.2 c d hc
        refine ⟨d', c', h1, h2, fun f => ?_, h4⟩
        rw [h3 f]
        by_cases hff : f0 = f
        · subst hff
          rw [hnot]
          simp [swapDict, Dict.get, hv]
        · simp [swapDict, Dict.get, hff]
      | some v =>
        have : writeStep E .sh (⟨fm, top, sac, some d⟩, c) (h, f0) =
            .ok (⟨fm, top, sac, some (d.set f0 v)⟩, c) := by
          simp [writeStep, hv, hf, hconv, FStats.setSub, FStats.sub]
        rw [this]
        obtain ⟨d', c', h1, h2, h3, h4⟩ := ih hn.2 hn2.2 c (d.set f0 v) hc
        refine ⟨d', c', h1, h2, fun f => ?_, h4⟩
        rw [h3 f, Dict.get_set]
        by_cases hff : f0 = f
        · subst hff
          rw [hnot]
          simp [swapDict, Dict.get, hv]
        · simp [swapDict, Dict.get, hff, Ne.symm hff]

/-- The dictionary decoded from a COMMENT field (`[]` if there is none or it is not valid JSON). -/
def shComment (E : FmtEnv K) (d : Dict (Val K)) : Res (Dict (Val K)) :=
  match d.get "COMMENT" with
  | none => .ok []
  | some (.str s) =>
    match E.loads s with
    | .error .parseError => .ok []
    | r => r
  | some _ => .error .typeError

theorem sh_readLoop (L : Dict String) (hn : L.NodupKeys)
    (fm : Option Str) (sac : Option (Dict (Val K)))
    (d : Dict (Val K)) (c : Dict (Val K)) (hcm : shComment E d = .ok c) (hc : c.NodupKeys)
    (hdis : ∀ k, Dict.get (notComment L) k ≠ none → c.get k = none) (top : Dict (Val K)) :
    ∃ top', L.foldlM (readStep E .sh) ⟨fm, top, sac, some d⟩ = .ok ⟨fm, top', sac, some d⟩ ∧
      ∀ k, top'.get k = ((Dict.get (notComment L) k).bind fun f => d.get f).or
        (if inComment L = [] then top.get k else (c.get k).or (top.get k)) := by
  induction L generalizing top with
  | nil => exact ⟨top, rfl, fun k => by simp [notComment, inComment]⟩
  | cons p L ih =>
    obtain ⟨h, f0⟩ := p
    simp only [Dict.NodupKeys, Dict.keys, List.map_cons, List.nodup_cons] at hn
    have hnotc : Dict.get (notComment L) h = none := by
      rw [Dict.get_eq_none_iff]
      intro hm
      apply hn.1
      obtain ⟨q, hq, hq'⟩ := List.mem_map.1 hm
      exact List.mem_map.2 ⟨q, (List.mem_filter.1 hq).1, hq'⟩
    rw [List.foldlM_cons]
    by_cases hf : f0 = "COMMENT"
    · subst hf
      have e1 : notComment ((h, "COMMENT") :: L) = notComment L := by simp [notComment]
      have e2 : inComment ((h, "COMMENT") :: L) = (h, "COMMENT") :: inComment L := by simp [inComment]
      rw [e1] at hdis ⊢
      rw [e2]
      have hstep : ∃ top1, readStep E .sh ⟨fm, top, sac, some d⟩ (h, "COMMENT") =
          .ok ⟨fm, top1, sac, some d⟩ ∧ ∀ k, top1.get k = (c.get k).or (top.get k) := by
        unfold shComment at hcm
        cases hv : d.get "COMMENT" with
        | none =>
          rw [hv] at hcm; cases hcm
          exact ⟨top, by simp [readStep, FStats.sub, hv], fun k => by simp⟩
        | some v =>
          rw [hv] at hcm
          cases v with
          | str s =>
            simp only [] at hcm
            cases hl : E.loads s with
            | ok d' =>
              rw [hl] at hcm
              simp only [] at hcm
              cases hcm
              exact ⟨top.update c, by simp [readStep, FStats.sub, hv, hl],
                fun k => by rw [Dict.get_update, Dict.get_reverse _ hc]⟩
            | error e =>
              rw [hl] at hcm
              cases e <;> simp at hcm
              subst hcm
              exact ⟨top, by simp [readStep, FStats.sub, hv, hl], fun k => by simp⟩
          | num x => simp at hcm
          | time x => simp at hcm
          | list x => simp at hcm
      obtain ⟨top1, hs1, hs2⟩ := hstep
      rw [hs1]
      obtain ⟨top', h1, h2⟩ := ih hn.2 hdis top1
      refine ⟨top', h1, fun k => ?_⟩
      rw [h2 k, hs2 k]
      congr 1
      by_cases hi : inComment L = []
      · simp [hi]
      · simp only [hi, if_false, reduceCtorEq]
        cases c.get k <;> simp
    · have e1 : notComment ((h, f0) :: L) = (h, f0) :: notComment L := by simp [notComment, hf]
      have e2 : inComment ((h, f0) :: L) = inComment L := by simp [inComment, hf]
      rw [e1] at hdis ⊢
      rw [e2]
      have hconv : hasConversion .sh h = false := rfl
      have hdis' : ∀ k, Dict.get (notComment L) k ≠ none → c.get k = none := by
        intro k hk
        apply hdis k
        by_cases hkk : h = k
        · simp [Dict.get, hkk]
        · simpa [Dict.get, hkk] using hk
      have hch : c.get h = none := hdis h (by simp [Dict.get])
      cases hv : d.get f0 with
      | none =>
        have : readStep E .sh ⟨fm, top, sac, some d⟩ (h, f0) = .ok ⟨fm, top, sac, some d⟩ := by
          simp [readStep, FStats.sub, hv]
        rw [this]
        obtain ⟨top', h1, h2⟩ := ih hn.2 hdis' top
        refine ⟨top', h1, fun k => ?_⟩
        rw [h2 k]
        by_cases hk : h = k
        · subst hk; simp [Dict.get, hnotc, hv]
        · simp [Dict.get, hk]
      | some v =>
        have : readStep E .sh ⟨fm, top, sac, some d⟩ (h, f0) =
            .ok ⟨fm, top.set h v, sac, some d⟩ := by
          simp [readStep, FStats.sub, hv, hf, hconv, FStats.put]
        rw [this]
        obtain ⟨top', h1, h2⟩ := ih hn.2 hdis' (top.set h v)
        refine ⟨top', h1, fun k => ?_⟩
        rw [h2 k]
        by_cases hk : h = k
        · subst hk
          simp [Dict.get, hnotc, hv, hch]
        · simp [Dict.get, hk, Dict.get_set_ne _ _ (Ne.symm hk)]

end
end Verif.Props
