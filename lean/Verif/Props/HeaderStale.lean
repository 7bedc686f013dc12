import Verif.Props.HeaderRoundtrip
import Mathlib.Logic.Encodable.Basic
import Mathlib.Data.Rat.Denumerable
import Mathlib.Logic.Equiv.List

/-!
# Stale format headers (C58) and cases meeting the hypotheses of C56-C58
-/

set_option linter.unusedSimpArgs false
set_option linter.unusedSectionVars false

namespace Verif.Props
open Verif.Py Verif.Model.Headers

section
variable {K : Type} [Field K] (E : FmtEnv K)

/-- **C58 is false**: whatever the external functions do, a trace read from a Q file (SH header with a
LAT field) whose `event_latitude` was deleted is written with the old value, which comes back on reading. -/
theorem C58_counterexample (x : K) :
    ∃ st st' d st'', st.top.get "event_latitude" = none ∧
      writeHeader E "Q".toList false st = .ok st' ∧ st'.sh = some d ∧
      readHeader E ⟨some "Q".toList, [], none, some d⟩ = .ok st'' ∧
      st''.top.get "event_latitude" = some (.num x) := by
  refine ⟨⟨none, [], none, some [("LAT", .num x)]⟩, ⟨none, [], none, some [("LAT", .num x)]⟩,
    [("LAT", .num x)], ⟨some "Q".toList, [("event_latitude", .num x)], none, some [("LAT", .num x)]⟩,
    rfl, rfl, rfl, ?_, rfl⟩
  rfl

/-- **C58 is false** for SAC as well if `obspy_to_sac_header` keeps the fields of an existing SAC header
(as ObsPy does): a deleted header comes back from its old field. -/
theorem C58_counterexample_sac (hi : ReftimeIndep E) (st : FStats K) (t0 : K)
    (hr : E.reftime (E.toSac st.top st.sac) = .ok t0) (ht : TimesOk st.top)
    (hnull : ∀ h v, st.top.get h = some v → E.isNull (sacVal t0 h v) = false)
    (hbase : BaseOk E (E.toSac st.top st.sac)) (x : K)
    (hkeep : (E.toSac st.top st.sac).get "user1" = some (.num x))
    (hdel : st.top.get "slowness" = none) :
    ∃ st' d st'', writeHeader E "SAC".toList false st = .ok st' ∧ st'.sac = some d ∧
      readHeader E ⟨some "SAC".toList, [], some d, none⟩ = .ok st'' ∧
      st''.top.get "slowness" = some (.num x) := by
  obtain ⟨st', d, st'', h1, -, h3, h4, h5, -⟩ := sac_roundtrip E hi st "SAC".toList "SAC".toList false
    (by decide) (by decide) t0 hr ht hnull hbase [] (by simp) none
  refine ⟨st', d, st'', h1, h3, h4, ?_⟩
  rw [h5 "slowness" "user1" (by decide), hdel, hkeep]
  simp [sacRead, hasConversion]

/-- **C58, SAC part that holds**: a header absent from the stats stays absent if the SAC header prepared by
ObsPy does not hold an old value in its field.  Missing: old fields are not removed. -/
theorem C58_sac_partial (hi : ReftimeIndep E) (st : FStats K) (format format' : Str) (compat : Bool)
    (hf : lower format = "sac".toList) (hf' : lower format' = "sac".toList) (t0 : K)
    (hr : E.reftime (E.toSac st.top st.sac) = .ok t0) (ht : TimesOk st.top)
    (hnull : ∀ h v, st.top.get h = some v → E.isNull (sacVal t0 h v) = false)
    (hbase : BaseOk E (E.toSac st.top st.sac))
    (top0 : Dict (Val K)) (hfresh : ∀ h ∈ headers, top0.get h = none) :
    ∃ st' d st'', writeHeader E format compat st = .ok st' ∧ st'.sac = some d ∧
      readHeader E ⟨some format', top0, some d, none⟩ = .ok st'' ∧
      ∀ h f, (h, f) ∈ headerMap .sac → st.top.get h = none →
        ((E.toSac st.top st.sac).get f = none ↔ st''.top.get h = none) := by
  obtain ⟨st', d, st'', h1, -, h3, h4, h5, -⟩ := sac_roundtrip E hi st format format' compat
    hf hf' t0 hr ht hnull hbase top0 hfresh none
  refine ⟨st', d, st'', h1, h3, h4, fun h f hm hn => ?_⟩
  rw [h5 h f hm, hn]
  simp

/-- **C58, SH/Q part that holds**: headers kept in COMMENT do not come back if COMMENT is rewritten (at
least one such header is present), removed (`sh_compat`) or was not there, the other headers if their field
was not there.  Missing: old fields, and an old COMMENT if no header for it is present, are not removed. -/
theorem C58_sh_partial (hj : JsonOk E) (st : FStats K) (format format' : Str) (compat : Bool)
    (hf : lower format = "q".toList) (hf' : lower format' = "q".toList)
    (hv : ∀ h ∈ commentHeaders, ∀ v, st.top.get h = some v → JsonVal v)
    (hcom : compat = true ∨ (∃ h ∈ commentHeaders, (st.top.get h).isSome) ∨
      (st.sh.getD []).get "COMMENT" = none)
    (top0 : Dict (Val K)) (hfresh : ∀ h ∈ headers, top0.get h = none) :
    ∃ st' d st'', writeHeader E format compat st = .ok st' ∧ st'.sh = some d ∧
      readHeader E ⟨some format', top0, none, some d⟩ = .ok st'' ∧
      (∀ h ∈ commentHeaders, st.top.get h = none → st''.top.get h = none) ∧
      ∀ h f, (h, f) ∈ headerMap .sh → f ≠ "COMMENT" → st.top.get h = none →
        ((st.sh.getD []).get f = none ↔ st''.top.get h = none) := by
  obtain ⟨d, h1, h2, h3, h4⟩ := sh_writeHeader E hj st format compat hf hv
  have hcm : ∃ c, shComment E d = .ok c ∧ c.NodupKeys ∧
      ∀ k, c.get k = if compat = false ∧ k ∈ commentHeaders then st.top.get k else none := by
    cases compat with
    | true =>
      exact ⟨[], by simp [shComment, h3 rfl], by simp [Dict.NodupKeys, Dict.keys], by simp⟩
    | false =>
      obtain ⟨h5, h6⟩ := h4 rfl
      by_cases hex : ∃ h ∈ commentHeaders, (st.top.get h).isSome
      · obtain ⟨c, a, b, hc⟩ := h5 hex
        exact ⟨c, a, b, by simpa using hc⟩
      · have hall : ∀ h ∈ commentHeaders, st.top.get h = none := by
          intro h hh
          by_contra hcon
          exact hex ⟨h, hh, Option.isSome_iff_ne_none.2 hcon⟩
        have hno : (st.sh.getD []).get "COMMENT" = none := by
          rcases hcom with h | h | h
          · cases h
          · exact absurd h hex
          · exact h
        refine ⟨[], by simp [shComment, h6 hall, hno], by simp [Dict.NodupKeys, Dict.keys], fun k => ?_⟩
        by_cases hk : k ∈ commentHeaders
        · simp [hk, hall k hk]
        · simp [hk]
  obtain ⟨c, hc1, hc2, hc3⟩ := hcm
  obtain ⟨top, h7, h8, h9⟩ := sh_readHeader E format' hf' top0 none d c hc1 hc2
    (fun h _ hh => by rw [hc3 h]; simp [hh])
  have hsub : ∀ p ∈ headerMap .sh, p.1 ∈ headers := by decide
  refine ⟨_, d, _, h1, rfl, h7, fun h hh hn => ?_, fun h f hm hfc hn => ?_⟩
  · have hm := (mem_commentHeaders h).1 hh
    rw [h9 h (Or.inr hh), hc3 h, hfresh h (hsub _ hm), hn]
    simp
  · rw [h8 h f hm hfc, h2 h f hm hfc, hfresh h (hsub _ hm), hn]
    simp

end

/-! ## Concrete cases -/

/-- A JSON encoding exists for dictionaries of rational numbers and strings. -/
theorem json_exists : ∃ (dumps : Dict (Val ℚ) → Str) (loads : Str → Option (Dict (Val ℚ))),
    ∀ c, loads (dumps c) = some c := by
  have hval : ∃ f : Val ℚ → ℕ, Function.Injective f := by
    have hc : Function.Injective Char.toNat := fun a b h => Char.toNat_inj.1 h
    have henc : Encodable Char := Encodable.ofInj Char.toNat hc
    let g : Val ℚ → (List Char ⊕ ℚ) ⊕ (ℚ ⊕ List (List Char)) := fun v =>
      match v with
      | .str s => .inl (.inl s)
      | .num x => .inl (.inr x)
      | .time x => .inr (.inl x)
      | .list l => .inr (.inr l)
    have hg : Function.Injective g := by
      intro a b hab
      cases a <;> cases b <;> simp_all [g]
    exact ⟨fun v => Encodable.encode (g v), fun a b h => hg (Encodable.encode_injective h)⟩
  obtain ⟨f, hf⟩ := hval
  have hc : Function.Injective Char.toNat := fun a b h => Char.toNat_inj.1 h
  have henc : Encodable Char := Encodable.ofInj Char.toNat hc
  have hstr : Encodable String := Encodable.ofInj String.toList (fun a b h => String.toList_inj.1 h)
  have hv : Encodable (Val ℚ) := Encodable.ofInj f hf
  refine ⟨fun c => List.replicate (Encodable.encode c) 'a',
    fun s => Encodable.decode s.length, fun c => ?_⟩
  simp

/-- External functions for the concrete cases: reference time in `nzyear`, an existing SAC header is kept. -/
def caseEnv (dumps : Dict (Val ℚ) → Str) (loads : Str → Option (Dict (Val ℚ))) : FmtEnv ℚ where
  toSac _ old := old.getD [("nzyear", .num 5)]
  reftime d := match d.get "nzyear" with
    | some (.num x) => .ok x
    | _ => .error .keyError
  isNull v := v == .num (-12345)
  dumps c := .ok (dumps c)
  loads s := match loads s with
    | some c => .ok c
    | none => .error .parseError

theorem caseEnv_indep (dumps : Dict (Val ℚ) → Str) (loads : Str → Option (Dict (Val ℚ))) :
    ReftimeIndep (caseEnv dumps loads) := by
  intro d f v hf
  have hne : "nzyear" ≠ f := by
    rintro rfl
    exact absurd hf (by decide)
  simp only [caseEnv, Dict.get_set_ne _ _ hne]

theorem caseEnv_json (dumps : Dict (Val ℚ) → Str) (loads : Str → Option (Dict (Val ℚ)))
    (h : ∀ c, loads (dumps c) = some c) : JsonOk (caseEnv dumps loads) := by
  intro c _ _
  exact ⟨dumps c, rfl, by simp [caseEnv, h]⟩

/-- Stats with a time, a number and a string among the rf headers. -/
def caseStats : FStats ℚ :=
  ⟨none, [("onset", .time 10), ("slowness", .num 6), ("phase", .str "P".toList), ("event_id", .str [])], none, none⟩

theorem caseStats_times : TimesOk caseStats.top := by
  intro h v hc hv
  simp only [hasConversion, Bool.or_eq_true, decide_eq_true_eq] at hc
  rcases hc with h1 | h1
  · rw [h1] at hv
    have : some (Val.time 10) = some v := hv
    cases this
    exact ⟨10, rfl⟩
  · rw [h1] at hv
    exact absurd hv (by simp [caseStats, Dict.get])

/-- Hypotheses of C56 and C57 are met by these stats. -/
theorem caseStats_case : ∃ E : FmtEnv ℚ, ReftimeIndep E ∧ JsonOk E ∧
    E.reftime (E.toSac caseStats.top caseStats.sac) = .ok 5 ∧ TimesOk caseStats.top ∧
    (∀ h v, caseStats.top.get h = some v → E.isNull (sacVal 5 h v) = false) ∧
    (∀ f ∈ sacFields, (E.toSac caseStats.top caseStats.sac).get f = none) ∧
    (∀ h ∈ commentHeaders, ∀ v, caseStats.top.get h = some v → JsonVal v) ∧ caseStats.sh = none := by
  obtain ⟨dumps, loads, hl⟩ := json_exists
  refine ⟨caseEnv dumps loads, caseEnv_indep _ _, caseEnv_json _ _ hl, by rfl, caseStats_times,
    ?_, ?_, ?_, rfl⟩
  · intro h v hv
    have hm := dict_mem_of_get _ _ _ hv
    simp only [caseStats, List.mem_cons, Prod.mk.injEq, List.not_mem_nil, or_false] at hm
    rcases hm with ⟨rfl, rfl⟩ | ⟨rfl, rfl⟩ | ⟨rfl, rfl⟩ | ⟨rfl, rfl⟩ <;>
      simp only [caseEnv] <;> decide +kernel
  · have : ∀ f ∈ sacFields, Dict.get [("nzyear", Val.num (5 : ℚ))] f = none := by decide
    exact this
  · intro h hh v hv
    have hm := dict_mem_of_get _ _ _ hv
    simp only [caseStats, List.mem_cons, Prod.mk.injEq, List.not_mem_nil, or_false] at hm
    rcases hm with ⟨rfl, rfl⟩ | ⟨rfl, rfl⟩ | ⟨rfl, rfl⟩ | ⟨rfl, rfl⟩
    · exact absurd hh (by decide)
    · trivial
    · trivial
    · trivial

/-- The situation of `C58_counterexample_sac`: a SAC header with an old slowness. -/
example : ∃ (E : FmtEnv ℚ) (st : FStats ℚ), ReftimeIndep E ∧
    E.reftime (E.toSac st.top st.sac) = .ok 5 ∧ TimesOk st.top ∧
    BaseOk E (E.toSac st.top st.sac) ∧
    (E.toSac st.top st.sac).get "user1" = some (.num 6) ∧ st.top.get "slowness" = none := by
  refine ⟨caseEnv (fun _ => []) (fun _ => none), ⟨none, [], some [("nzyear", .num 5), ("user1", .num 6)], none⟩,
    caseEnv_indep _ _, rfl, ?_, ?_, rfl, rfl⟩
  · intro h v _ hv
    exact absurd hv (by simp [Dict.get])
  intro p hp v hv
  have hm := dict_mem_of_get _ _ _ hv
  simp only [caseEnv, Option.getD_some, List.mem_cons, Prod.mk.injEq, List.not_mem_nil, or_false] at hm
  rcases hm with ⟨h1, rfl⟩ | ⟨h1, rfl⟩
  · exact ⟨by simp only [caseEnv]; decide +kernel, fun _ => ⟨_, rfl⟩⟩
  · exact ⟨by simp only [caseEnv]; decide +kernel, fun _ => ⟨_, rfl⟩⟩

end Verif.Props
