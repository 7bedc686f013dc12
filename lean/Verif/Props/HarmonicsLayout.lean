import Verif.Props.HarmonicsExamples

/-!
# Harmonic decomposition: the returned traces (C76)
-/

set_option linter.unusedSimpArgs false
set_option linter.unusedSectionVars false

namespace Verif.Props
open Verif.Py Verif.Model Verif.Model.Harmonics Verif.Spec Finset

/-- Entries which belong to one event and are listed in the code. -/
def eventEntries : List String :=
  ["event_id", "event_depth", "event_latitude", "event_longitude", "event_magnitude", "inclination", "slowness",
   "event_time", "back_azimuth"]

/-- Header entries of the returned trace `k`, given those of the first trace of the stream. -/
def layoutEntry {K : Type} (first : Dict (Val K)) (comps info : Str) (k : ℕ) (key : String) : Option (Val K) :=
  if key = "processing" then some (.list [info])
  else if key = "type" then some (.str "harmonic".toList)
  else if key = "term" then some (.str (["constant", "cos", "sin", "cos2", "sin2"].getD (k % 5) "").toList)
  else if key = "components" ∧ (k < 5 ∨ k = 9) then some (.str comps)
  else if key ∈ eventEntries then none
  else first.get key

theorem get_erases {V : Type} (ks : List String) (d : Dict V) (key : String) :
    (ks.foldl (fun d k => d.erase k) d).get key = if key ∈ ks then none else d.get key := by
  induction ks generalizing d with
  | nil => simp
  | cons k ks ih =>
    rw [List.foldl_cons, ih, Dict.get_erase]
    by_cases h1 : key ∈ ks
    · simp [h1]
    · by_cases h2 : key = k
      · simp [h2]
      · simp [h1, h2]

theorem cleanTrace_get {K : Type} (t : Trace K) (key : String) : (cleanTrace t).ext.get key =
    if key = "type" then some (.str "harmonic".toList) else if key ∈ poppedKeys then none else t.ext.get key := by
  unfold cleanTrace Trace.put
  simp only [Dict.get_set, get_erases]

/-- Codes of an unmodelled trace. -/
def unmodTrace {K : Type} (t : Trace K) (k : ℕ) (d : List K) : Trace K :=
  { t with data := d, cha := (toString (k - 5)).toList, loc := "unmod".toList }

/-- The header of a returned trace. -/
theorem harmTrace_header {K : Type} (first : Trace K) (comps info : Str) (two : Bool) (k : ℕ) (d : List K)
    (hk : k < if two then 10 else 5) (t : Trace K)
    (ht : ∀ t', addInfo info (harmTrace (cleanTrace first) comps two k d) = .ok t' → t = t') :
    t.net = first.net ∧ t.sta = first.sta ∧ t.start = first.start ∧ t.sr = first.sr ∧
    t.cha = (toString (k % 5)).toList ∧ t.loc = (if k < 5 then "mod".toList else "unmod".toList) ∧ t.data = d ∧
    ∀ key, t.ext.get key = layoutEntry first.ext comps info k key := by
  have hp : (harmTrace (cleanTrace first) comps two k d).ext.get "processing" = none := by
    unfold harmTrace
    simp only []
    split
    · simp only [Trace.put, Dict.get_set]
      rw [if_neg (by decide), if_neg (by decide), cleanTrace_get]
      rfl
    · split
      · split
        · simp only [Trace.put, Dict.get_set]
          rw [if_neg (by decide), if_neg (by decide), cleanTrace_get]
          rfl
        · simp only [Trace.put, Dict.get_set]
          rw [if_neg (by decide), cleanTrace_get]
          rfl
      · rw [cleanTrace_get]; rfl
  have ha : addInfo info (harmTrace (cleanTrace first) comps two k d) =
      .ok ((harmTrace (cleanTrace first) comps two k d).put "processing" (.list [info])) := by
    unfold addInfo
    rw [hp]
  replace ht := ht _ ha
  have hpop : ∀ key, key ∈ poppedKeys ↔ key = "processing" ∨ key ∈ eventEntries := by
    intro key
    simp [poppedKeys, eventEntries]
  have he : ∀ key ∈ eventEntries, key ≠ "processing" ∧ key ≠ "type" ∧ key ≠ "term" ∧ key ≠ "components" := by
    decide
  subst ht
  by_cases h5 : k < 5
  · have hm : k % 5 = k := Nat.mod_eq_of_lt h5
    have ht : harmTrace (cleanTrace first) comps two k d =
        (({ cleanTrace first with data := d, cha := (toString k).toList, loc := "mod".toList }).put "term"
          (.str (terms.getD k "").toList)).put "components" (.str comps) := by
      unfold harmTrace
      simp only []
      rw [if_pos h5]
    rw [ht, hm, if_pos h5]
    refine ⟨?_, ?_, ?_, ?_, ?_, ?_, ?_, ?_⟩
    iterate 7 · simp only [Trace.put, cleanTrace, unmodTrace]
    intro key
    simp only [Trace.put, Dict.get_set, cleanTrace_get, layoutEntry, hm, terms, unmodTrace]
    by_cases c1 : key = "processing"
    · rw [if_pos c1, if_pos c1]
    · rw [if_neg c1, if_neg c1]
      by_cases c2 : key = "type"
      · subst c2; simp
      · by_cases c3 : key = "term"
        · subst c3; simp
        · by_cases c4 : key = "components"
          · subst c4; simp [h5]
          · simp only [if_neg c2, if_neg c3, if_neg c4, c4, false_and, if_false, hpop, c1, false_or]
  · cases two with
    | false => simp at hk; omega
    | true =>
      simp only [if_true] at hk
      have hm : k % 5 = k - 5 := by omega
      have ht : harmTrace (cleanTrace first) comps true k d =
          if k = 9 then ((unmodTrace (cleanTrace first) k d).put "term" (.str (terms.getD (k - 5) "").toList)).put "components" (.str comps)
          else (unmodTrace (cleanTrace first) k d).put "term" (.str (terms.getD (k - 5) "").toList) := by
        unfold harmTrace
        simp only []
        rw [if_neg h5, if_pos trivial]
        rfl
      rw [ht, hm, if_neg h5]
      by_cases h9 : k = 9
      · rw [if_pos h9]
        refine ⟨?_, ?_, ?_, ?_, ?_, ?_, ?_, ?_⟩
        iterate 7 · simp only [Trace.put, cleanTrace, unmodTrace]
        intro key
        simp only [Trace.put, Dict.get_set, cleanTrace_get, layoutEntry, hm, terms, unmodTrace]
        by_cases c1 : key = "processing"
        · rw [if_pos c1, if_pos c1]
        · rw [if_neg c1, if_neg c1]
          by_cases c2 : key = "type"
          · subst c2; simp
          · by_cases c3 : key = "term"
            · subst c3; simp
            · by_cases c4 : key = "components"
              · subst c4; simp [h9]
              · simp only [if_neg c2, if_neg c3, if_neg c4, c4, false_and, if_false, hpop, c1, false_or]
      · rw [if_neg h9]
        refine ⟨?_, ?_, ?_, ?_, ?_, ?_, ?_, ?_⟩
        iterate 7 · simp only [Trace.put, cleanTrace, unmodTrace]
        intro key
        simp only [Trace.put, Dict.get_set, cleanTrace_get, layoutEntry, hm, terms, unmodTrace]
        by_cases c1 : key = "processing"
        · rw [if_pos c1, if_pos c1]
        · rw [if_neg c1, if_neg c1]
          by_cases c2 : key = "type"
          · subst c2; simp
          · by_cases c3 : key = "term"
            · subst c3; simp
            · have : ¬ (k < 5 ∨ k = 9) := by omega
              simp only [if_neg c2, if_neg c3, this, and_false, if_false, hpop, c1, false_or]

theorem decompose_length (E : LstsqEnv) (freq : Bool) (jac rowsR rowsT : List (List ℝ)) (npts nharm : ℕ)
    (hd : List (List ℝ)) (h : decompose E freq jac rowsR rowsT npts nharm = .ok hd) : hd.length = nharm := by
  unfold decompose at h
  simp only [bind, Except.bind] at h
  split at h
  · split at h
    · cases h
    · split at h
      · cases h
      · split at h
        · cases h
        · split at h
          · cases h
          · injection h with h
            rw [← h]
            simp
  · split at h
    · cases h
    · injection h with h
      rw [← h]
      simp

/-- A successful call passed the checks and built its traces from the first trace of the stream. -/
theorem body_shape (E : LstsqEnv) (a : HArgs) (h : Heap ℝ) (s : List ℕ) (out : List (Trace ℝ))
    (ho : harmonicsBody E a h s = .ok out) : a.components ∈ supported ∧ ∃ f hd, s.head? = some f ∧
      hd.length = 5 * a.components.length ∧
      out = harmOut (h f) a.components (decide (a.components.length = 2)) hd := by
  unfold harmonicsBody at ho
  cases hc : check h s a with
  | some e => rw [hc] at ho; cases ho
  | none =>
    rw [hc] at ho
    refine ⟨?_, ?_⟩
    · by_contra hn
      unfold check at hc
      rw [if_pos hn] at hc
      cases hc
    · simp only [bind, Except.bind] at ho
      split at ho
      · cases ho
      split at ho
      · cases ho
      split at ho
      · cases ho
      split at ho
      · cases ho
      split at ho
      · cases ho
      split at ho
      · cases ho
      split at ho
      · cases ho
      split at ho
      · cases ho
      · rename_i f hf
        split at ho
        · cases ho
        · rename_i hd hdec
          injection ho with ho
          exact ⟨f, hd, hf, decompose_length _ _ _ _ _ _ _ _ hdec, ho.symm⟩

/-- C76: number of traces, codes and header entries of the result of every successful call. -/
theorem C76_layout_partial (E : LstsqEnv) (info : Str) (a : HArgs) (h : Heap ℝ) (s : List ℕ) (out : List (Trace ℝ))
    (ho : harmonics E info a h s = .ok out) :
    ∃ f, s.head? = some f ∧ out.length = 5 * a.components.length ∧
      (a.components.length = 1 ∨ a.components.length = 2) ∧
      ∀ k t, out[k]? = some t →
        t.net = (h f).net ∧ t.sta = (h f).sta ∧ t.start = (h f).start ∧ t.sr = (h f).sr ∧
        t.cha = (toString (k % 5)).toList ∧ t.loc = (if k < 5 then "mod".toList else "unmod".toList) ∧
        ∀ key, t.ext.get key = layoutEntry (h f).ext a.components info k key := by
  unfold harmonics at ho
  cases hb : harmonicsBody E a h s with
  | error e => rw [hb] at ho; cases ho
  | ok out' =>
    rw [hb] at ho
    injection ho with ho
    obtain ⟨hsup, f, hd, hf, hlen, rfl⟩ := body_shape E a h s out' hb
    have hcl : a.components.length = 1 ∨ a.components.length = 2 := by
      unfold supported at hsup
      simp only [List.mem_cons, List.not_mem_nil, or_false] at hsup
      rcases hsup with hs | hs | hs | hs | hs <;> rw [hs]
      · exact Or.inr rfl
      · exact Or.inl rfl
      · exact Or.inl rfl
      · exact Or.inr rfl
      · exact Or.inl rfl
    refine ⟨f, hf, ?_, hcl, ?_⟩
    · rw [← ho]
      simp [harmOut, hlen]
    · intro k t ht
      rw [← ho, List.getElem?_map] at ht
      unfold harmOut at ht
      rw [List.getElem?_map, List.getElem?_zipIdx] at ht
      cases hk : hd[k]? with
      | none => rw [hk] at ht; cases ht
      | some d =>
        rw [hk] at ht
        simp only [Option.map_some, Nat.zero_add, Option.some.injEq] at ht
        have hkl : k < hd.length := (List.getElem?_eq_some_iff.1 hk).1
        have := harmTrace_header (h f) a.components info (decide (a.components.length = 2)) k d (by
          rcases hcl with h1 | h1
          · rw [hlen, h1] at hkl
            simp [h1]; omega
          · rw [hlen, h1] at hkl
            simp [h1]; omega) t (by
            intro t' ht'
            rw [ht'] at ht
            exact ht.symm)
        obtain ⟨e1, e2, e3, e4, e5, e6, -, e8⟩ := this
        exact ⟨e1, e2, e3, e4, e5, e6, e8⟩

/-- C76 in general is wrong: the unmodelled traces but the last lack the `components` entry. -/
theorem C76_counterexample_components : ∃ out, harmonics someLstsq [] hpArgs hqHeap hqStream = .ok out ∧
    ∀ k, 5 ≤ k → k < 9 → ∃ t, out[k]? = some t ∧ t.ext.get "components" = none := by
  obtain ⟨f, -, hb⟩ := body_two someLstsq someLstsq_ok hpArgs hqHeap hqStream 'R' (fun r => hpBaz (hqEvent r)) 2 rfl
    (Or.inl rfl) (Or.inl rfl) (hqUsable _ (by rw [hqR]; simp)) ⟨_, hqUsable _ (by rw [hqT]; simp)⟩ (by rw [hqR, hqT]; rfl)
  obtain ⟨out, ho, -⟩ := harmonics_data someLstsq [] hpArgs hqHeap hqStream _ _ _ _ hb
  refine ⟨out, ho, ?_⟩
  obtain ⟨f', hf', hl, -, hk⟩ := C76_layout_partial _ _ _ _ _ _ ho
  intro k h5 h9
  have hl10 : out.length = 10 := hl
  have hlt : k < out.length := by omega
  refine ⟨out[k], List.getElem?_eq_getElem hlt, ?_⟩
  rw [(hk k _ (List.getElem?_eq_getElem hlt)).2.2.2.2.2.2]
  have hn : ¬ (k < 5 ∨ k = 9) := by omega
  unfold layoutEntry
  rw [if_neg (by decide), if_neg (by decide), if_neg (by decide), if_neg (by simp [hn]), if_neg (by decide)]
  rfl

/-- C76 in general is wrong: the distance to the event of the first trace stays in all headers. -/
theorem C76_distance_stays (E : LstsqEnv) (info : Str) (a : HArgs) (h : Heap ℝ) (s : List ℕ)
    (out : List (Trace ℝ)) (ho : harmonics E info a h s = .ok out) (f : ℕ) (hf : s.head? = some f) :
    ∀ t ∈ out, t.ext.get "distance" = (h f).ext.get "distance" := by
  obtain ⟨f', hf', -, -, hk⟩ := C76_layout_partial _ _ _ _ _ _ ho
  rw [hf] at hf'
  injection hf' with hf'
  subst hf'
  intro t ht
  obtain ⟨k, hk', rfl⟩ := List.mem_iff_getElem.1 ht
  rw [(hk k _ (List.getElem?_eq_getElem hk')).2.2.2.2.2.2]
  unfold layoutEntry
  rw [if_neg (by decide), if_neg (by decide), if_neg (by decide), if_neg (by simp), if_neg (by decide)]

end Verif.Props
