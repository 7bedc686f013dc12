import Verif.Props.Headers
import Mathlib.Algebra.Order.Ring.Rat

/-!
# Header round trips through SAC and SH/Q (C56-C58)

Reading starts from the stats of the trace read by ObsPy: `_format`, the standard entries `top0` (none of the
rf headers) and the sub-dictionary stored in the file.
-/

set_option linter.unusedSimpArgs false
set_option linter.unusedSectionVars false

namespace Verif.Props
open Verif.Py Verif.Model.Headers

section
variable {K : Type} [Field K] (E : FmtEnv K)

theorem fmtOf_sac (f : Str) (h : lower f = "sac".toList) : fmtOf f = some .sac := by
  simp only [fmtOf, h]; decide

theorem fmtOf_q (f : Str) (h : lower f = "q".toList) : fmtOf f = some .sh := by
  simp only [fmtOf, h]; decide

theorem sac_swap (h f : String) (hm : (h, f) ∈ headerMap .sac) :
    (swapDict (headerMap .sac)).get f = some h ∧ (headerMap .sac).get h = some f := by
  have h1 : ∀ p ∈ headerMap .sac, (swapDict (headerMap .sac)).get p.2 = some p.1 := by decide
  have h2 : ∀ p ∈ headerMap .sac, (headerMap .sac).get p.1 = some p.2 := by decide
  exact ⟨h1 _ hm, h2 _ hm⟩

theorem sac_fields_mem : ∀ p ∈ headerMap .sac, p.2 ∈ sacFields := by decide

theorem sac_not_header (fmt : Fmt) (k : String) (hk : k ∉ headers) : (headerMap fmt).get k = none := by
  rw [Dict.get_eq_none_iff]
  have : ∀ fmt, (headerMap fmt).keys = headers := by intro fmt; cases fmt <;> decide
  rw [this]; exact hk

theorem sac_writeHeader (hi : ReftimeIndep E) (st : FStats K) (format : Str) (compat : Bool)
    (hf : lower format = "sac".toList) (t0 : K)
    (hr : E.reftime (E.toSac st.top st.sac) = .ok t0) (ht : TimesOk st.top) :
    ∃ d, writeHeader E format compat st = .ok ⟨st.format, st.top, some d, st.sh⟩ ∧
      E.reftime d = .ok t0 ∧
      ∀ h f, (h, f) ∈ headerMap .sac →
        d.get f = ((st.top.get h).map (sacVal t0 h)).or ((E.toSac st.top st.sac).get f) := by
  obtain ⟨d, h1, h2, h3⟩ := sac_writeLoop E hi t0 (headerMap .sac) sac_fields_mem (by decide)
    st.format st.top st.sh ht [] (E.toSac st.top st.sac) hr
  refine ⟨d, ?_, h2, fun h f hm => ?_⟩
  · have hinit : writeInit E .sac st = ⟨st.format, st.top, some (E.toSac st.top st.sac), st.sh⟩ := by
      simp [writeInit, FStats.sub]
    simp only [writeHeader, fmtOf_sac format hf, hinit, h1, writeComment]
  · rw [h3 f, (sac_swap h f hm).1]; simp

theorem sac_readHeader (format : Str) (hf : lower format = "sac".toList) (t0 : K)
    (top0 : Dict (Val K)) (sh : Option (Dict (Val K))) (d : Dict (Val K)) (hr : E.reftime d = .ok t0)
    (hd : FieldsOk E (headerMap .sac) d) :
    ∃ top, readHeader E ⟨some format, top0, some d, sh⟩ = .ok ⟨some format, top, some d, sh⟩ ∧
      (∀ h f, (h, f) ∈ headerMap .sac →
        top.get h = ((d.get f).map (sacRead t0 h)).or (top0.get h)) ∧
      (∀ k, k ∉ headers → top.get k = top0.get k) := by
  obtain ⟨top, h1, h2⟩ := sac_readLoop E t0 (headerMap .sac) (by unfold Dict.NodupKeys; decide)
    (some format) sh d hr hd top0
  refine ⟨top, ?_, fun h f hm => ?_, fun k hk => ?_⟩
  · simp only [readHeader, fmtOf_sac format hf, h1]
  · rw [h2 h, (sac_swap h f hm).2]; simp
  · rw [h2 k, sac_not_header .sac k hk]; simp

theorem sacRead_sacVal (t0 : K) (top : Dict (Val K)) (ht : TimesOk top) (h : String) (v : Val K)
    (hv : top.get h = some v) : sacRead t0 h (sacVal t0 h v) = v := by
  by_cases hc : hasConversion .sac h = true
  · obtain ⟨x, rfl⟩ := ht h v hc hv
    simp [sacRead, sacVal, hc]
  · simp [sacRead, sacVal, hc]

/-- The SAC header that `obspy_to_sac_header` prepares contains only readable values. -/
def BaseOk (E : FmtEnv K) (base : Dict (Val K)) : Prop := FieldsOk E (headerMap .sac) base

/-- What a SAC round trip restores, for every earlier content of the SAC header. -/
theorem sac_roundtrip (hi : ReftimeIndep E) (st : FStats K) (format format' : Str) (compat : Bool)
    (hf : lower format = "sac".toList) (hf' : lower format' = "sac".toList) (t0 : K)
    (hr : E.reftime (E.toSac st.top st.sac) = .ok t0) (ht : TimesOk st.top)
    (hnull : ∀ h v, st.top.get h = some v → E.isNull (sacVal t0 h v) = false)
    (hbase : BaseOk E (E.toSac st.top st.sac))
    (top0 : Dict (Val K)) (hfresh : ∀ h ∈ headers, top0.get h = none) (sh : Option (Dict (Val K))) :
    ∃ st' d st'', writeHeader E format compat st = .ok st' ∧ st'.top = st.top ∧ st'.sac = some d ∧
      readHeader E ⟨some format', top0, some d, sh⟩ = .ok st'' ∧
      (∀ h f, (h, f) ∈ headerMap .sac → st''.top.get h =
        (st.top.get h).or (((E.toSac st.top st.sac).get f).map (sacRead t0 h))) ∧
      (∀ k, k ∉ headers → st''.top.get k = top0.get k) := by
  obtain ⟨d, h1, h2, h3⟩ := sac_writeHeader E hi st format compat hf t0 hr ht
  have hd : FieldsOk E (headerMap .sac) d := by
    rintro ⟨h, f⟩ hp v hv
    rw [h3 h f hp] at hv
    cases hv' : st.top.get h with
    | none =>
      rw [hv'] at hv
      exact hbase (h, f) hp v (by simpa using hv)
    | some w =>
      rw [hv'] at hv
      have hv2 : sacVal t0 h w = v := by simpa using hv
      subst hv2
      refine ⟨hnull h w hv', fun hc => ?_⟩
      obtain ⟨x, rfl⟩ := ht h w hc hv'
      exact ⟨x - t0, by simp only [] at hc; simp [sacVal, hc]⟩
  obtain ⟨top, h4, h5, h6⟩ := sac_readHeader E format' hf' t0 top0 sh d h2 hd
  refine ⟨_, d, _, h1, rfl, rfl, h4, fun h f hm => ?_, h6⟩
  have hh : h ∈ headers := by
    have : ∀ p ∈ headerMap .sac, p.1 ∈ headers := by decide
    exact this _ hm
  rw [h5 h f hm, h3 h f hm, hfresh h hh]
  cases hv : st.top.get h with
  | none => simp
  | some v => simp [sacRead_sacVal t0 st.top ht h v hv]

/-- **C56** Writing the stats into a SAC header that `obspy_to_sac_header` made from scratch and reading it
back into fresh stats restores exactly the rf headers that were present (`onset` and `event_time` as
times), and changes no other entry.  Representable: the time headers hold times and no stored value
contains '-12345'. -/
theorem C56_roundtrip (hi : ReftimeIndep E) (st : FStats K) (format format' : Str) (compat : Bool)
    (hf : lower format = "sac".toList) (hf' : lower format' = "sac".toList) (t0 : K)
    (hr : E.reftime (E.toSac st.top st.sac) = .ok t0) (ht : TimesOk st.top)
    (hnull : ∀ h v, st.top.get h = some v → E.isNull (sacVal t0 h v) = false)
    (hscratch : ∀ f ∈ sacFields, (E.toSac st.top st.sac).get f = none)
    (top0 : Dict (Val K)) (hfresh : ∀ h ∈ headers, top0.get h = none) (sh : Option (Dict (Val K))) :
    ∃ st' d st'', writeHeader E format compat st = .ok st' ∧ st'.top = st.top ∧ st'.sac = some d ∧
      readHeader E ⟨some format', top0, some d, sh⟩ = .ok st'' ∧
      (∀ h ∈ headers, st''.top.get h = st.top.get h) ∧
      (∀ k, k ∉ headers → st''.top.get k = top0.get k) := by
  have hbase : BaseOk E (E.toSac st.top st.sac) := by
    intro p hp v hv
    rw [hscratch p.2 (sac_fields_mem p hp)] at hv
    cases hv
  obtain ⟨st', d, st'', h1, h2, h3, h4, h5, h6⟩ := sac_roundtrip E hi st format format' compat hf hf' t0 hr
    ht hnull hbase top0 hfresh sh
  refine ⟨st', d, st'', h1, h2, h3, h4, fun h hh => ?_, h6⟩
  obtain ⟨f, hf, -⟩ := C55_exactly_one .sac h hh
  rw [h5 h f hf, hscratch f (sac_fields_mem _ hf)]
  simp

/-! ## SH -/

theorem sh_swap (h f : String) (hm : (h, f) ∈ headerMap .sh) (hf : f ≠ "COMMENT") :
    (swapDict (notComment (headerMap .sh))).get f = some h ∧
    (notComment (headerMap .sh)).get h = some f ∧ (inComment (headerMap .sh)).get h = none := by
  have h1 : ∀ p ∈ headerMap .sh, p.2 ≠ "COMMENT" →
      (swapDict (notComment (headerMap .sh))).get p.2 = some p.1 := by decide
  have h2 : ∀ p ∈ headerMap .sh, p.2 ≠ "COMMENT" →
      (notComment (headerMap .sh)).get p.1 = some p.2 := by decide
  have h3 : ∀ p ∈ headerMap .sh, p.2 ≠ "COMMENT" →
      (inComment (headerMap .sh)).get p.1 = none := by decide
  exact ⟨h1 _ hm hf, h2 _ hm hf, h3 _ hm hf⟩

theorem sh_comment (h : String) (hm : (h, "COMMENT") ∈ headerMap .sh) :
    (notComment (headerMap .sh)).get h = none ∧
    (inComment (headerMap .sh)).get h = some "COMMENT" := by
  have h1 : ∀ p ∈ headerMap .sh, p.2 = "COMMENT" → (notComment (headerMap .sh)).get p.1 = none ∧
    (inComment (headerMap .sh)).get p.1 = some "COMMENT" := by decide
  exact h1 _ hm rfl

/-- The headers kept in the COMMENT field of Q files. -/
def commentHeaders : List String :=
  ["station_latitude", "station_longitude", "station_elevation", "type", "phase", "moveout",
   "pp_latitude", "pp_longitude", "pp_depth", "box_pos", "box_length"]

theorem mem_commentHeaders (h : String) : h ∈ commentHeaders ↔ (h, "COMMENT") ∈ headerMap .sh := by
  have h1 : ∀ h ∈ commentHeaders, (h, "COMMENT") ∈ headerMap .sh := by decide
  have h2 : ∀ p ∈ headerMap .sh, p.2 = "COMMENT" → p.1 ∈ commentHeaders := by decide
  exact ⟨fun a => h1 h a, fun a => h2 _ a rfl⟩

/-- Values that JSON can represent. -/
def JsonVal : Val K → Prop
  | .num _ => True
  | .str _ => True
  | _ => False

/-- `json.loads(json.dumps(c)) == c` for dictionaries of numbers and strings. -/
def JsonOk (E : FmtEnv K) : Prop :=
  ∀ c : Dict (Val K), c.NodupKeys → (∀ k v, c.get k = some v → JsonVal v) →
    ∃ s, E.dumps c = .ok s ∧ E.loads s = .ok c

theorem sh_writeHeader (hj : JsonOk E) (st : FStats K) (format : Str) (compat : Bool)
    (hf : lower format = "q".toList)
    (hv : ∀ h ∈ commentHeaders, ∀ v, st.top.get h = some v → JsonVal v) :
    ∃ d, writeHeader E format compat st = .ok ⟨st.format, st.top, st.sac, some d⟩ ∧
      (∀ h f, (h, f) ∈ headerMap .sh → f ≠ "COMMENT" →
        d.get f = (st.top.get h).or ((st.sh.getD []).get f)) ∧
      (compat = true → d.get "COMMENT" = none) ∧
      (compat = false → ((∃ h ∈ commentHeaders, (st.top.get h).isSome) →
        ∃ c, shComment E d = .ok c ∧ c.NodupKeys ∧
          ∀ k, c.get k = if k ∈ commentHeaders then st.top.get k else none) ∧
        ((∀ h ∈ commentHeaders, st.top.get h = none) →
          d.get "COMMENT" = (st.sh.getD []).get "COMMENT")) := by
  obtain ⟨d, c, h1, h2, h3, h4⟩ := sh_writeLoop E (headerMap .sh) (by unfold Dict.NodupKeys; decide)
    (by decide) st.format st.top st.sac [] (st.sh.getD []) (by simp [Dict.NodupKeys, Dict.keys])
  have hinit : writeInit E .sh st = ⟨st.format, st.top, st.sac, some (st.sh.getD [])⟩ := by
    rcases st with ⟨a, b, c, sh⟩
    cases sh <;> simp [writeInit, FStats.sub, FStats.setSub]
  have hc : ∀ k, c.get k = if k ∈ commentHeaders then st.top.get k else none := by
    intro k
    rw [h4 k]
    by_cases hk : k ∈ commentHeaders
    · rw [(sh_comment k ((mem_commentHeaders k).1 hk)).2]; simp [hk]
    · have : (inComment (headerMap .sh)).get k = none := by
        rw [Dict.get_eq_none_iff]
        intro hm
        have h0 : ∀ k ∈ (inComment (headerMap .sh)).keys, k ∈ commentHeaders := by decide
        exact hk (h0 k hm)
      simp [this, hk]
  have hd : ∀ h f, (h, f) ∈ headerMap .sh → f ≠ "COMMENT" →
      d.get f = (st.top.get h).or ((st.sh.getD []).get f) := by
    intro h f hm hfc
    rw [h3 f, (sh_swap h f hm hfc).1]; simp
  have hdc : d.get "COMMENT" = (st.sh.getD []).get "COMMENT" := by
    rw [h3 "COMMENT"]
    have : (swapDict (notComment (headerMap .sh))).get "COMMENT" = none := by decide
    simp [this]
  cases compat with
  | true =>
    refine ⟨d.erase "COMMENT", ?_, fun h f hm hfc => ?_, fun _ => ?_, by simp⟩
    · simp [writeHeader, fmtOf_q format hf, hinit, h1, writeComment, FStats.setSub, FStats.sub]
    · rw [Dict.get_erase, if_neg hfc, hd h f hm hfc]
    · rw [Dict.get_erase]; simp
  | false =>
    by_cases hex : ∃ h ∈ commentHeaders, (st.top.get h).isSome
    · have hne : c ≠ [] := by
        rintro rfl
        obtain ⟨h, hh, hs⟩ := hex
        have := hc h
        rw [if_pos hh] at this
        rw [← this] at hs
        simp at hs
      obtain ⟨s, hs1, hs2⟩ := hj c h2 (by
        intro k v hkv
        rw [hc k] at hkv
        split at hkv
        · exact hv k (by assumption) v hkv
        · cases hkv)
      refine ⟨d.set "COMMENT" (.str s), ?_, fun h f hm hfc => ?_, by simp, fun _ => ⟨fun _ => ?_, ?_⟩⟩
      · have hl : 0 < c.length := List.length_pos_iff.2 hne
        simp [writeHeader, fmtOf_q format hf, hinit, h1, writeComment, FStats.setSub, FStats.sub, hl, hs1]
      · rw [Dict.get_set_ne _ _ hfc, hd h f hm hfc]
      · exact ⟨c, by simp [shComment, hs2], h2, hc⟩
      · intro hall
        obtain ⟨h, hh, hs⟩ := hex
        rw [hall h hh] at hs
        simp at hs
    · have hnil : c = [] := by
        cases hcc : c with
        | nil => rfl
        | cons p c' =>
          exfalso
          have h0 : c.get p.1 = some p.2 := by rw [hcc]; simp [Dict.get]
          rw [hc p.1] at h0
          split at h0
          · rename_i hk
            exact hex ⟨p.1, hk, by simp [h0]⟩
          · cases h0
      subst hnil
      refine ⟨d, ?_, hd, by simp, fun _ => ⟨fun h => absurd h hex, fun _ => hdc⟩⟩
      simp [writeHeader, fmtOf_q format hf, hinit, h1, writeComment]

theorem sh_readHeader (format : Str) (hf : lower format = "q".toList)
    (top0 : Dict (Val K)) (sac : Option (Dict (Val K))) (d c : Dict (Val K))
    (hcm : shComment E d = .ok c) (hc : c.NodupKeys)
    (hdis : ∀ h ∈ headers, h ∉ commentHeaders → c.get h = none) :
    ∃ top, readHeader E ⟨some format, top0, sac, some d⟩ = .ok ⟨some format, top, sac, some d⟩ ∧
      (∀ h f, (h, f) ∈ headerMap .sh → f ≠ "COMMENT" → top.get h = (d.get f).or (top0.get h)) ∧
      (∀ k, k ∉ headers ∨ k ∈ commentHeaders → top.get k = (c.get k).or (top0.get k)) := by
  have hnc : ∀ k, (notComment (headerMap .sh)).get k ≠ none → k ∈ headers ∧ k ∉ commentHeaders := by
    intro k hk
    have : k ∈ (notComment (headerMap .sh)).keys := by
      by_contra hcon
      exact hk ((Dict.get_eq_none_iff _ k).2 hcon)
    have h0 : ∀ k ∈ (notComment (headerMap .sh)).keys, k ∈ headers ∧ k ∉ commentHeaders := by decide
    exact h0 k this
  obtain ⟨top, h1, h2⟩ := sh_readLoop E (headerMap .sh) (by unfold Dict.NodupKeys; decide)
    (some format) sac d c hcm hc (fun k hk => hdis k (hnc k hk).1 (hnc k hk).2) top0
  have hne : inComment (headerMap .sh) ≠ [] := by decide
  refine ⟨top, ?_, fun h f hm hfc => ?_, fun k hk => ?_⟩
  · simp only [readHeader, fmtOf_q format hf, h1]
  · have hh : h ∈ headers ∧ h ∉ commentHeaders := hnc h (by rw [(sh_swap h f hm hfc).2.1]; simp)
    rw [h2 h, (sh_swap h f hm hfc).2.1, if_neg hne, hdis h hh.1 hh.2]
    simp
  · have : (notComment (headerMap .sh)).get k = none := by
      by_contra hcon
      obtain ⟨ha, hb⟩ := hnc k hcon
      rcases hk with hk | hk
      · exact hk ha
      · exact hb hk
    rw [h2 k, this, if_neg hne]
    simp

/-- **C57** Writing the stats into a new SH header and reading it back into fresh stats restores exactly the
rf headers that were present and changes no other entry; with `sh_compat=True` exactly the headers kept
in COMMENT are missing. -/
theorem C57_roundtrip (hj : JsonOk E) (st : FStats K) (format format' : Str) (compat : Bool)
    (hf : lower format = "q".toList) (hf' : lower format' = "q".toList) (hnew : st.sh = none)
    (hv : ∀ h ∈ commentHeaders, ∀ v, st.top.get h = some v → JsonVal v)
    (top0 : Dict (Val K)) (hfresh : ∀ h ∈ headers, top0.get h = none) (sac : Option (Dict (Val K))) :
    ∃ st' d st'', writeHeader E format compat st = .ok st' ∧ st'.top = st.top ∧ st'.sh = some d ∧
      readHeader E ⟨some format', top0, sac, some d⟩ = .ok st'' ∧
      (∀ h ∈ headers, st''.top.get h =
        if compat = true ∧ h ∈ commentHeaders then none else st.top.get h) ∧
      (∀ k, k ∉ headers → st''.top.get k = top0.get k) := by
  obtain ⟨d, h1, h2, h3, h4⟩ := sh_writeHeader E hj st format compat hf hv
  have hcm : ∃ c, shComment E d = .ok c ∧ c.NodupKeys ∧
      ∀ k, c.get k = if compat = false ∧ k ∈ commentHeaders then st.top.get k else none := by
    cases compat with
    | true =>
      exact ⟨[], by simp [shComment, h3 rfl], by simp [Dict.NodupKeys, Dict.keys], by simp⟩
    | false =>
      obtain ⟨h5, h6⟩ := h4 rfl
      by_cases hex : ∃ h ∈ commentHeaders, (st.top.get h).isSome
      · obtain ⟨c, a, b, hc⟩ := h5 hex
        exact ⟨c, a, b, by simpa using hc⟩
      · have hall : ∀ h ∈ commentHeaders, st.top.get h = none := by
          intro h hh
          by_contra hcon
          exact hex ⟨h, hh, Option.isSome_iff_ne_none.2 hcon⟩
        refine ⟨[], by simp [shComment, h6 hall, hnew], by simp [Dict.NodupKeys, Dict.keys], fun k => ?_⟩
        by_cases hk : k ∈ commentHeaders
        · simp [hk, hall k hk]
        · simp [hk]
  obtain ⟨c, hc1, hc2, hc3⟩ := hcm
  obtain ⟨top, h7, h8, h9⟩ := sh_readHeader E format' hf' top0 sac d c hc1 hc2
    (fun h _ hh => by rw [hc3 h]; simp [hh])
  refine ⟨_, d, _, h1, rfl, rfl, h7, fun h hh => ?_, fun k hk => ?_⟩
  · by_cases hcom : h ∈ commentHeaders
    · rw [h9 h (Or.inr hcom), hc3 h, hfresh h hh]
      cases compat <;> simp [hcom]
    · obtain ⟨f, hm, -⟩ := C55_exactly_one .sh h hh
      have hfc : f ≠ "COMMENT" := by
        rintro rfl
        exact hcom ((mem_commentHeaders h).2 hm)
      rw [h8 h f hm hfc, h2 h f hm hfc, hnew, hfresh h hh]
      simp [hcom]
  · have hkc : k ∉ commentHeaders := by
      have : ∀ k ∈ commentHeaders, k ∈ headers := by decide
      exact fun h => hk (this k h)
    rw [h9 k (Or.inl hk), hc3 k]
    simp [hkc]

end
end Verif.Props
