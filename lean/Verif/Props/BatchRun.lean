import Verif.Model.Batch
import Verif.Props.ProfileBoxes

/-!
# Options and commands of the batch program (C78, C79, C80, C93, C95, C96)
-/

set_option linter.unusedSimpArgs false
set_option linter.unusedSectionVars false

namespace Verif.Props
open Verif.Py Verif.Model.Batch

/-! ## C78: configuration and command line -/

section config
variable {K : Type}

/-- **C78** The configuration is used for every option not given on the command line, and only for these. -/
theorem C78_override (open_ : Str → Option Str) (loads : Str → Res (Option (Dict (Value K)))) (command conf : Str)
    (tutorial : Bool) (kw d : Dict (Value K)) (hkw : kw.NodupKeys) (text : Str)
    (hc : confFile command (some conf) kw = .ok (some conf)) (hcr : command ≠ "create".toList)
    (ho : open_ conf = some text) (hl : loads (stripComments text) = .ok (some d)) :
    ∃ kw', run open_ loads command (some conf) tutorial kw = .call command kw' ∧
      ∀ k, kw'.get k = (kw.get k).or (d.get k) := by
  refine ⟨d.update kw, ?_, fun k => ?_⟩
  · unfold run
    rw [if_neg hcr, hc]
    simp only [ho, hl]
  · rw [Dict.get_update, Dict.get_reverse kw hkw]

/-- **C78** The configuration is read for every command except `create` and `print` of files, unless it is switched off. -/
theorem C78_conf_read (command conf : Str) (kw : Dict (Value K)) (hp : command ≠ "print".toList)
    (hc : conf ∉ ["None".toList, "none".toList, "null".toList, []]) :
    confFile command (some conf) kw = .ok (some conf) := by
  simp only [List.mem_cons, List.not_mem_nil, or_false] at hc
  unfold confFile
  simp only []
  rw [if_neg hc, if_pos hp]

/-- **C78** For `print` the configuration is read only if stations or events are printed. -/
theorem C78_conf_print (conf o : Str) (rest : List Str) (kw : Dict (Value K))
    (ho : kw.get "objects" = some (.leaf (.strs (o :: rest))))
    (hc : conf ∉ ["None".toList, "none".toList, "null".toList, []]) :
    confFile "print".toList (some conf) kw =
      .ok (if o ∈ ["stations".toList, "events".toList] then some conf else none) := by
  simp only [List.mem_cons, List.not_mem_nil, or_false] at hc ⊢
  unfold confFile firstObject
  simp only [ho]
  rw [if_neg hc, if_neg (by simp)]
  split <;> rfl

/-- **C78** Without configuration the command line options are passed on as they are. -/
theorem C78_no_conf (open_ : Str → Option Str) (loads : Str → Res (Option (Dict (Value K)))) (command : Str)
    (conf : Option Str) (tutorial : Bool) (kw : Dict (Value K)) (hcr : command ≠ "create".toList)
    (hc : conf = none ∨ ∃ c ∈ ["None".toList, "none".toList, "null".toList, []], conf = some c) :
    run open_ loads command conf tutorial kw = .call command kw := by
  have h : confFile command conf kw = .ok none := by
    rcases hc with rfl | ⟨c, hc, rfl⟩
    · rfl
    · simp only [List.mem_cons, List.not_mem_nil, or_false] at hc
      unfold confFile
      simp only []
      rw [if_pos hc]
  unfold run
  rw [if_neg hcr, h]

/-- **C78** If the configuration cannot be read or parsed, nothing is run. -/
theorem C78_bad_conf (open_ : Str → Option Str) (loads : Str → Res (Option (Dict (Value K)))) (command conf : Str)
    (tutorial : Bool) (kw : Dict (Value K)) (hcr : command ≠ "create".toList)
    (hc : confFile command (some conf) kw = .ok (some conf))
    (hbad : open_ conf = none ∨ ∃ text, open_ conf = some text ∧ loads (stripComments text) = .error .valueError) :
    run open_ loads command (some conf) tutorial kw = .stopped := by
  unfold run
  rw [if_neg hcr, hc]
  rcases hbad with h | ⟨text, h1, h2⟩
  · simp only [h]
  · simp only [h1, h2]

theorem get_filter_named (kw : Dict (Value K)) (k : String) :
    Dict.get (kw.filter fun p => !namedOptions.contains p.1) k = if k ∈ namedOptions then none else kw.get k := by
  induction kw with
  | nil => simp
  | cons p kw ih =>
    obtain ⟨k', v⟩ := p
    rw [List.filter_cons]
    by_cases hk : k' = k
    · subst hk
      by_cases hm : k' ∈ namedOptions
      · rw [if_neg (by simpa using hm), ih, if_pos hm, if_pos hm]
      · rw [if_pos (by simpa using hm), if_neg hm]
        simp [Dict.get]
    · have h2 : Dict.get ((k', v) :: kw) k = Dict.get kw k := by simp [Dict.get, hk]
      rw [h2]
      split
      · rw [← ih]
        simp [Dict.get, hk]
      · exact ih

/-- What an option is after the loop. -/
def Filled (loads : Str → Res (Value K)) (kw : Dict (Value K)) (opt : String) (v : Value K) : Prop :=
  (kw.get opt = none ∧ v = if opt = "boxbins" then .leaf .null else .obj []) ∨
  (∃ t, kw.get opt = some (.leaf (.str t)) ∧ loads t = .ok v) ∨
  (kw.get opt = some v ∧ ∀ t, v ≠ .leaf (.str t))

theorem fillOption_ok (loads : Str → Res (Value K)) (kw kw' : Dict (Value K)) (opt : String)
    (h : fillOption loads kw opt = .ok kw') :
    (∀ k, k ≠ opt → kw'.get k = kw.get k) ∧ ∃ v, kw'.get opt = some v ∧ Filled loads kw opt v := by
  unfold fillOption at h
  split at h
  · rename_i hn
    injection h with h
    subst h
    exact ⟨fun k hk => Dict.get_set_ne _ _ hk, _, Dict.get_set_self _ _ _, .inl ⟨hn, rfl⟩⟩
  · rename_i t ht
    split at h
    · cases h
    · rename_i v hv
      injection h with h
      subst h
      exact ⟨fun k hk => Dict.get_set_ne _ _ hk, _, Dict.get_set_self _ _ _, .inr (.inl ⟨t, ht, hv⟩)⟩
  · rename_i v hne hv
    injection h with h
    subst h
    exact ⟨fun k hk => rfl, v, hv, .inr (.inr ⟨hv, fun t e => hne t e⟩)⟩

theorem fillOptions_aux (loads : Str → Res (Value K)) (opts : List String) (hnd : opts.Nodup)
    (kw kw' : Dict (Value K)) (h : opts.foldlM (fillOption loads) kw = .ok kw') :
    (∀ k, k ∉ opts → kw'.get k = kw.get k) ∧ ∀ opt ∈ opts, ∃ v, kw'.get opt = some v ∧ Filled loads kw opt v := by
  induction opts generalizing kw with
  | nil =>
    simp only [List.foldlM_nil] at h
    injection h with h
    subst h
    exact ⟨fun k _ => rfl, by simp⟩
  | cons o opts ih =>
    rw [List.foldlM_cons] at h
    cases h1 : fillOption loads kw o with
    | error e => rw [h1] at h; cases h
    | ok kw1 =>
      rw [h1] at h
      obtain ⟨ho, hnd'⟩ := List.nodup_cons.1 hnd
      obtain ⟨a1, v, a2, a3⟩ := fillOption_ok loads kw kw1 o h1
      obtain ⟨b1, b2⟩ := ih hnd' kw1 h
      refine ⟨fun k hk => ?_, fun opt hopt => ?_⟩
      · simp only [List.mem_cons, not_or] at hk
        rw [b1 k hk.2, a1 k hk.1]
      · rcases List.mem_cons.1 hopt with rfl | hopt
        · exact ⟨v, by rw [b1 _ ho, a2], a3⟩
        · obtain ⟨w, c1, c2⟩ := b2 opt hopt
          refine ⟨w, c1, ?_⟩
          have hne : opt ≠ o := fun e => ho (e ▸ hopt)
          unfold Filled at c2 ⊢
          rw [a1 opt hne] at c2
          exact c2

theorem setEntry_ok (kw kw' : Dict (Value K)) (opt key : String) (v : Leaf K) (h : setEntry kw opt key v = .ok kw') :
    ∃ d, kw.get opt = some (.obj d) ∧ kw'.get opt = some (.obj (d.set key v)) ∧
      ∀ k, k ≠ opt → kw'.get k = kw.get k := by
  unfold setEntry at h
  split at h
  · rename_i d hd
    injection h with h
    subst h
    exact ⟨d, hd, Dict.get_set_self _ _ _, fun k hk => Dict.get_set_ne _ _ hk⟩
  · cases h
  · cases h

theorem setOptional_ok (kw kw' : Dict (Value K)) (opt : String) (ph : Option (Leaf K))
    (h : setOptional kw opt ph = .ok kw') :
    (∀ k, k ≠ opt → kw'.get k = kw.get k) ∧
    ∀ d, kw.get opt = some (.obj d) → ∃ d', kw'.get opt = some (.obj d') ∧
      ∀ key, d'.get key = if key = "phase" then ph.or (d.get key) else d.get key := by
  unfold setOptional at h
  split at h
  · injection h with h
    subst h
    exact ⟨fun k _ => rfl, fun d hd => ⟨d, hd, fun key => by simp⟩⟩
  · rename_i v
    obtain ⟨d0, h1, h2, h3⟩ := setEntry_ok _ _ _ _ _ h
    refine ⟨h3, fun d hd => ?_⟩
    rw [h1] at hd
    simp only [Option.some.injEq, Value.obj.injEq] at hd
    subst hd
    refine ⟨_, h2, fun key => ?_⟩
    rw [Dict.get_set]
    by_cases hk : key = "phase" <;> simp [hk]

variable [Field K] [LinearOrder K] [FloorRing K]

/-- The bins which replace those of `boxes`. -/
def binsOf (v : Value K) : Option (List K) :=
  if v = .leaf .null then none else (binEdges v).toOption

theorem setBins_ok (kw kw' : Dict (Value K)) (h : setBins kw = .ok kw') :
    ∃ v, kw.get "boxbins" = some v ∧ (∀ k, k ≠ "boxes" → kw'.get k = kw.get k) ∧
    ∀ d, kw.get "boxes" = some (.obj d) → ∃ d', kw'.get "boxes" = some (.obj d') ∧
      ∀ key, d'.get key = if key = "bins" then ((binsOf v).map Leaf.nums).or (d.get key) else d.get key := by
  unfold setBins at h
  split at h
  · cases h
  · rename_i hv
    injection h with h
    subst h
    exact ⟨_, hv, fun k _ => rfl, fun d hd => ⟨d, hd, fun key => by simp [binsOf]⟩⟩
  · rename_i v hne hv
    split at h
    · cases h
    · rename_i l hl
      obtain ⟨d0, h1, h2, h3⟩ := setEntry_ok _ _ _ _ _ h
      refine ⟨v, hv, h3, fun d hd => ?_⟩
      rw [h1] at hd
      simp only [Option.some.injEq, Value.obj.injEq] at hd
      subst hd
      refine ⟨_, h2, fun key => ?_⟩
      have hb : binsOf v = some l := by
        unfold binsOf
        rw [if_neg (fun e => hne e), hl]
        rfl
      rw [Dict.get_set, hb]
      by_cases hk : key = "bins" <;> simp [hk]

/-- The options after `prepare`, entry by entry. -/
theorem prepare_ok (loads : Str → Res (Value K)) (kw res : Dict (Value K)) (h : prepare loads kw = .ok res) :
    (∀ p ∈ kw, p.1 ∈ namedOptions ∨ p.1 ∈ dictOptions) ∧
    (∀ opt ∈ dictOptions, opt ≠ "options" → opt ≠ "moveout" → opt ≠ "boxes" →
      ∃ v, res.get opt = some v ∧ Filled loads kw opt v) ∧
    (∀ d, Filled loads kw "options" (.obj d) → ∃ d', res.get "options" = some (.obj d') ∧
      ∀ key, d'.get key = if key = "phase" then (argOf kw "phase").or (d.get key) else d.get key) ∧
    (∀ d, Filled loads kw "moveout" (.obj d) → ∃ d', res.get "moveout" = some (.obj d') ∧
      ∀ key, d'.get key = if key = "phase" then (argOf kw "moveout_phase").or (d.get key) else d.get key) ∧
    ∃ v, Filled loads kw "boxbins" v ∧ ∀ d, Filled loads kw "boxes" (.obj d) →
      ∃ d', res.get "boxes" = some (.obj d') ∧
        ∀ key, d'.get key = if key = "bins" then ((binsOf v).map Leaf.nums).or (d.get key) else d.get key := by
  unfold prepare at h
  split at h
  · cases h
  · simp only [] at h
    cases hc : checkOptions (kw.filter fun p => !namedOptions.contains p.1) with
    | error e => rw [hc] at h; cases h
    | ok u =>
      rw [hc] at h
      simp only [] at h
      cases hf : fillOptions loads (kw.filter fun p => !namedOptions.contains p.1) with
      | error e => rw [hf] at h; cases h
      | ok d0 =>
        rw [hf] at h
        simp only [] at h
        cases h1 : setOptional d0 "options" (argOf kw "phase") with
        | error e => rw [h1] at h; cases h
        | ok d1 =>
          rw [h1] at h
          simp only [] at h
          cases h2 : setOptional d1 "moveout" (argOf kw "moveout_phase") with
          | error e => rw [h2] at h; cases h
          | ok d2 =>
            rw [h2] at h
            simp only [] at h
            obtain ⟨-, f2⟩ := fillOptions_aux loads dictOptions (by decide) _ _ hf
            obtain ⟨a1, a2⟩ := setOptional_ok _ _ _ _ h1
            obtain ⟨b1, b2⟩ := setOptional_ok _ _ _ _ h2
            obtain ⟨v, c0, c1, c2⟩ := setBins_ok _ _ h
            have hfill : ∀ opt ∈ dictOptions, ∃ v, d0.get opt = some v ∧ Filled loads kw opt v := by
              intro opt hopt
              obtain ⟨v, e1, e2⟩ := f2 opt hopt
              refine ⟨v, e1, ?_⟩
              have hn : opt ∉ namedOptions := (by decide : ∀ o ∈ dictOptions, o ∉ namedOptions) opt hopt
              unfold Filled at e2 ⊢
              rw [get_filter_named, if_neg hn] at e2
              exact e2
            have hfun : ∀ opt v v', Filled loads kw opt v → Filled loads kw opt v' → v = v' := by
              rintro opt v v' (⟨e1, e2⟩ | ⟨t, e1, e2⟩ | ⟨e1, e2⟩) (⟨g1, g2⟩ | ⟨t', g1, g2⟩ | ⟨g1, g2⟩) <;>
                rw [e1] at g1
              · rw [e2, g2]
              · cases g1
              · cases g1
              · cases g1
              · simp only [Option.some.injEq, Value.leaf.injEq, Leaf.str.injEq] at g1
                subst g1
                rw [e2] at g2
                injection g2
              · simp only [Option.some.injEq] at g1
                exact absurd g1.symm (g2 t)
              · cases g1
              · simp only [Option.some.injEq] at g1
                exact absurd g1 (e2 t')
              · simpa using g1
            have hget : ∀ opt ∈ dictOptions, ∀ v, Filled loads kw opt v → d0.get opt = some v := by
              intro opt hopt v hv
              obtain ⟨v', e1, e2⟩ := hfill opt hopt
              rw [e1, hfun opt _ _ e2 hv]
            refine ⟨?_, ?_, ?_, ?_, ?_⟩
            · intro p hp
              by_contra hcon
              simp only [not_or] at hcon
              unfold checkOptions at hc
              split at hc
              · rename_i hall
                rw [List.all_eq_true] at hall
                have := hall p (List.mem_filter.2 ⟨hp, by simpa using hcon.1⟩)
                simp only [List.contains_iff_mem] at this
                exact hcon.2 this
              · cases hc
            · intro opt hopt n1 n2 n3
              obtain ⟨v', e1, e2⟩ := hfill opt hopt
              exact ⟨v', by rw [c1 _ n3, b1 _ n2, a1 _ n1, e1], e2⟩
            · intro d hd
              obtain ⟨d', e1, e2⟩ := a2 d (hget _ (by decide) _ hd)
              exact ⟨d', by rw [c1 _ (by decide), b1 _ (by decide), e1], e2⟩
            · intro d hd
              obtain ⟨d', e1, e2⟩ := b2 d (by rw [a1 _ (by decide)]; exact hget _ (by decide) _ hd)
              exact ⟨d', by rw [c1 _ (by decide), e1], e2⟩
            · refine ⟨v, ?_, fun d hd => ?_⟩
              · obtain ⟨v', e1, e2⟩ := hfill "boxbins" (by decide)
                rw [b1 _ (by decide), a1 _ (by decide), e1] at c0
                simp only [Option.some.injEq] at c0
                rw [← c0]
                exact e2
              · exact c2 d (by rw [b1 _ (by decide), a1 _ (by decide)]; exact hget _ (by decide) _ hd)

/-- **C78, part that holds**: dictionaries of options take effect as given (JSON texts decoded) except for the phases
and the bins.
Missing: `phase`, `moveout_phase` and `boxbins` replace the entries `phase` and `bins` of these dictionaries wherever
they come from (see the counterexample). -/
theorem C78_effect_partial (loads : Str → Res (Value K)) (kw res : Dict (Value K)) (h : prepare loads kw = .ok res)
    (opt : String) (hopt : opt ∈ dictOptions) (d : Dict (Leaf K)) (hd : Filled loads kw opt (.obj d)) :
    ∃ d', res.get opt = some (.obj d') ∧ ∀ key, (key ≠ "phase" ∨ opt ≠ "options" ∧ opt ≠ "moveout") →
      (key ≠ "bins" ∨ opt ≠ "boxes") → d'.get key = d.get key := by
  obtain ⟨-, h1, h2, h3, v, -, h4⟩ := prepare_ok loads kw res h
  by_cases o1 : opt = "options"
  · subst o1
    obtain ⟨d', e1, e2⟩ := h2 d hd
    refine ⟨d', e1, fun key hk _ => ?_⟩
    rw [e2, if_neg (by rcases hk with hk | hk; exact hk; exact absurd rfl hk.1)]
  by_cases o2 : opt = "moveout"
  · subst o2
    obtain ⟨d', e1, e2⟩ := h3 d hd
    refine ⟨d', e1, fun key hk _ => ?_⟩
    rw [e2, if_neg (by rcases hk with hk | hk; exact hk; exact absurd rfl hk.2)]
  by_cases o3 : opt = "boxes"
  · subst o3
    obtain ⟨d', e1, e2⟩ := h4 d hd
    refine ⟨d', e1, fun key _ hk => ?_⟩
    rw [e2, if_neg (by rcases hk with hk | hk; exact hk; exact absurd rfl hk)]
  · obtain ⟨v', e1, e2⟩ := h1 opt hopt o1 o2 o3
    have : v' = .obj d := by
      rcases e2 with ⟨g1, g2⟩ | ⟨t, g1, g2⟩ | ⟨g1, g2⟩ <;> rcases hd with ⟨k1, k2⟩ | ⟨t', k1, k2⟩ | ⟨k1, k2⟩ <;>
        rw [g1] at k1
      · rw [g2, k2]
      · cases k1
      · cases k1
      · cases k1
      · simp only [Option.some.injEq, Value.leaf.injEq, Leaf.str.injEq] at k1
        subst k1
        rw [g2] at k2
        injection k2
      · cases k1
      · cases k1
      · simp only [Option.some.injEq] at k1
        exact absurd k1 (g2 t')
      · simpa using k1
    subst this
    exact ⟨d, e1, fun key _ _ => rfl⟩

/-- **C78** The options `phase` and `moveout_phase` take effect. -/
theorem C78_phase (loads : Str → Res (Value K)) (kw res : Dict (Value K)) (h : prepare loads kw = .ok res)
    (d : Dict (Leaf K)) (ph : Leaf K) :
    (Filled loads kw "options" (.obj d) → argOf kw "phase" = some ph →
      ∃ d', res.get "options" = some (.obj d') ∧ d'.get "phase" = some ph) ∧
    (Filled loads kw "moveout" (.obj d) → argOf kw "moveout_phase" = some ph →
      ∃ d', res.get "moveout" = some (.obj d') ∧ d'.get "phase" = some ph) := by
  obtain ⟨-, -, h2, h3, -⟩ := prepare_ok loads kw res h
  constructor
  · intro hd hp
    obtain ⟨d', e1, e2⟩ := h2 d hd
    exact ⟨d', e1, by rw [e2, if_pos rfl, hp]; rfl⟩
  · intro hd hp
    obtain ⟨d', e1, e2⟩ := h3 d hd
    exact ⟨d', e1, by rw [e2, if_pos rfl, hp]; rfl⟩

/-! ## C79: unknown options -/

/-- **C79** Every unknown option is rejected. -/
theorem C79_unknown (loads : Str → Res (Value K)) (kw : Dict (Value K)) (hc : kw.get "command" = none) (p : String × Value K)
    (hp : p ∈ kw) (h1 : p.1 ∉ namedOptions) (h2 : p.1 ∉ dictOptions) : prepare loads kw = .error .parseError := by
  have hcheck : checkOptions (kw.filter fun p => !namedOptions.contains p.1) = .error .parseError := by
    unfold checkOptions
    rw [if_neg]
    intro hall
    rw [List.all_eq_true] at hall
    have := hall p (List.mem_filter.2 ⟨hp, by simpa using h1⟩)
    simp only [List.contains_iff_mem] at this
    exact h2 this
  unfold prepare
  rw [if_neg (by simp [Dict.has, hc])]
  simp only [hcheck]

/-- **C79** Known options are not rejected as unknown, as long as the JSON decoder does not raise this error. -/
theorem C79_known (loads : Str → Res (Value K)) (hl : ∀ t, loads t ≠ .error .parseError) (kw : Dict (Value K))
    (hk : ∀ p ∈ kw, p.1 ∈ namedOptions ∨ p.1 ∈ dictOptions) : prepare loads kw ≠ .error .parseError := by
  have hcheck : checkOptions (kw.filter fun p => !namedOptions.contains p.1) = .ok () := by
    unfold checkOptions
    rw [if_pos]
    rw [List.all_eq_true]
    intro p hp
    obtain ⟨hp1, hp2⟩ := List.mem_filter.1 hp
    rcases hk p hp1 with h | h
    · exact absurd h (by simpa using hp2)
    · simpa using h
  have hopt : ∀ kw o, fillOption loads kw o ≠ .error .parseError := by
    intro kw o
    unfold fillOption
    split
    · simp
    · rename_i t _
      split
      · rename_i e he
        intro h
        injection h with h
        subst h
        exact hl t he
      · simp
    · simp
  have hfill : ∀ (opts : List String) (kw : Dict (Value K)),
      opts.foldlM (fillOption loads) kw ≠ .error .parseError := by
    intro opts
    induction opts with
    | nil => intro kw h; cases h
    | cons o opts ih =>
      intro kw
      rw [List.foldlM_cons]
      cases h1 : fillOption loads kw o with
      | error e =>
        intro h
        injection h with h
        subst h
        exact hopt _ _ h1
      | ok kw1 => exact ih kw1
  have hset : ∀ (kw : Dict (Value K)) opt key v, setEntry kw opt key v ≠ .error .parseError := by
    intro kw opt key v
    unfold setEntry
    split <;> simp
  have hopt2 : ∀ (kw : Dict (Value K)) opt v, setOptional kw opt v ≠ .error .parseError := by
    intro kw opt v
    unfold setOptional
    split
    · simp
    · exact hset _ _ _ _
  have hbins : ∀ (kw : Dict (Value K)), setBins kw ≠ .error .parseError := by
    intro kw
    unfold setBins
    split
    · simp
    · simp
    · split
      · rename_i e he
        intro h
        injection h with h
        subst h
        unfold binEdges at he
        split at he
        · cases he
        · split at he
          · cases he
          · split at he <;> cases he
        · cases he
      · exact hset _ _ _ _
  unfold prepare
  split
  · simp
  · simp only [hcheck]
    split
    · rename_i e he
      intro h; injection h with h; subst h
      exact hfill _ _ he
    · split
      · rename_i e he
        intro h; injection h with h; subst h
        exact hopt2 _ _ _ he
      · split
        · rename_i e he
          intro h; injection h with h; subst h
          exact hopt2 _ _ _ he
        · exact hbins _

end config

/-- The configuration and the command line options of the counterexample. -/
def cliConf : Dict (Value ℚ) := [("phase", .leaf (.str "P".toList)), ("boxbins", .leaf (.nums [0, 10, 2]))]
def cliKw : Dict (Value ℚ) := [("options", .obj [("phase", .str "S".toList)]), ("boxes", .obj [("bins", .nums [0, 1, 2])])]

/-- **C78 is false** in its effect: phase and bins given on the command line by `--options` and `--boxes` are replaced by
`phase` and `boxbins` of the configuration file. -/
theorem C78_counterexample :
    run (fun _ => some []) (fun _ => .ok (some cliConf)) "data".toList (some "conf.json".toList) false cliKw =
      .call "data".toList (cliConf.update cliKw) ∧
    (prepare (fun _ => .error .valueError) (cliConf.update cliKw)).map (fun d => (d.get "options", d.get "boxes")) =
      .ok (some (.obj [("phase", .str "P".toList)]), some (.obj [("bins", .nums [0, 10])])) := by
  decide +kernel

/-- The hypotheses of the theorems on options are met. -/
example : (prepare (K := ℚ) (fun _ => .error .valueError)
      [("rf", .obj [("deconvolve", .str "time".toList)]), ("phase", .leaf (.str "S".toList)), ("format", .leaf (.str "Q".toList))]).map
      (fun d => (d.get "rf", d.get "options", d.get "boxbins")) =
    .ok (some (.obj [("deconvolve", .str "time".toList)]), some (.obj [("phase", .str "S".toList)]),
      some (.leaf .null)) ∧
    prepare (K := ℚ) (fun _ => .error .valueError) [("phases", .leaf (.str "S".toList))] = .error .parseError := by
  decide +kernel

/-! ## C79: repeated commands -/

/-- **C79, part that holds**: for `calc`, two equal further commands or more than two are rejected, and nothing else.
Missing: other commands, and `calc` followed by another `calc` (see the counterexample). -/
theorem C79_repeated_partial (commands : List Str) :
    checkCommands "calc".toList commands = .error .parseError ↔ 2 < commands.length ∨ ∃ a, commands = [a, a] := by
  unfold checkCommands
  rw [if_pos rfl]
  by_cases h : commands.length < 3
  · rw [if_neg (not_not.2 h)]
    match commands, h with
    | [], _ => simp
    | [a], _ => simp
    | [a, b], _ =>
      simp only [List.length_cons, List.length_nil]
      by_cases hab : a = b
      · subst hab; simp
      · rw [if_pos hab]
        constructor
        · intro h; cases h
        · rintro (h | ⟨c, h⟩)
          · omega
          · simp only [List.cons.injEq, and_true] at h
            exact absurd (h.1.trans h.2.symm) hab
  · rw [if_pos h]
    simp only [true_iff]
    left; omega

/-- All other commands are accepted with any list. -/
theorem C79_others (command : Str) (h : command ≠ "calc".toList) (commands : List Str) :
    checkCommands command commands = .ok () := by
  unfold checkCommands
  rw [if_neg h, if_neg h]

/-! ## C93: processing -/

section process
variable {K S W : Type} (O : Ops K S W) (kw : Dict (Value K))

/-- Result of a command on a stream. -/
def commandSpec (O : Ops K S W) (rfOpts mvOpts : Dict (Leaf K)) (c : Str) (s : S) : Res S :=
  if c = "data".toList then .ok s
  else if c = "calc".toList then O.rf rfOpts s
  else if c = "moveout".toList then O.moveout mvOpts s
  else .error .notImplemented

theorem applyCommand_eq (rfOpts mvOpts : Dict (Leaf K)) (h1 : kw.get "rf" = some (.obj rfOpts))
    (h2 : kw.get "moveout" = some (.obj mvOpts)) (s : S) (c : Str) :
    applyCommand O kw s c = commandSpec O rfOpts mvOpts c s := by
  unfold applyCommand commandSpec optionDict
  rw [h1, h2]

/-- **C93** The commands are applied to each stream in the order given, with the options of the configuration, and each
stream is written once, in the order of the iterator; nothing else is written. -/
theorem C93_processed (rfOpts mvOpts : Dict (Leaf K)) (h1 : kw.get "rf" = some (.obj rfOpts))
    (h2 : kw.get "moveout" = some (.obj mvOpts)) (commands : List Str) (err : Option PyErr) (f : S → S) (g : S → W → W)
    (streams : List S)
    (hf : ∀ s ∈ streams, commands.foldlM (fun s c => commandSpec O rfOpts mvOpts c s) s = .ok (f s))
    (hg : ∀ s ∈ streams, ∀ w, O.out (f s) w = (g (f s) w, none)) (w : W) :
    processLoop O kw commands err w streams = (streams.foldl (fun w s => g (f s) w) w, err) := by
  induction streams generalizing w with
  | nil => rfl
  | cons s ss ih =>
    unfold processLoop applyCommands
    have : applyCommand O kw = fun s c => commandSpec O rfOpts mvOpts c s := by
      funext s c; exact applyCommand_eq O kw rfOpts mvOpts h1 h2 s c
    rw [this, hf s List.mem_cons_self]
    simp only [hg s List.mem_cons_self w]
    exact ih (fun x hx => hf x (List.mem_cons_of_mem _ hx)) (fun x hx => hg x (List.mem_cons_of_mem _ hx)) _

/-- **C93** The same for a run: the first command and the further ones, in this order, with the options which result
from configuration and command line. -/
theorem C93_run [Field K] [LinearOrder K] [FloorRing K] (loads : Str → Res (Value K)) (command : Str)
    (commands : List Str) (kw0 d : Dict (Value K)) (hp : prepare loads kw0 = .ok d)
    (hc : checkCommands command commands = .ok ()) (rfOpts mvOpts : Dict (Leaf K))
    (h1 : d.get "rf" = some (.obj rfOpts)) (h2 : d.get "moveout" = some (.obj mvOpts)) (err : Option PyErr) (f : S → S)
    (g : S → W → W) (streams : List S)
    (hf : ∀ s ∈ streams, (command :: commands).foldlM (fun s c => commandSpec O rfOpts mvOpts c s) s = .ok (f s))
    (hg : ∀ s ∈ streams, ∀ w, O.out (f s) w = (g (f s) w, none)) (w : W) :
    runProcess loads O command commands kw0 streams err w = (streams.foldl (fun w s => g (f s) w) w, err) := by
  unfold runProcess
  simp only [hp, hc]
  exact C93_processed O d rfOpts mvOpts h1 h2 (command :: commands) err f g streams hf hg w

/-- **C93** An exception for one stream ends the program; the streams before have been written, the others not. -/
theorem C93_stop (rfOpts mvOpts : Dict (Leaf K)) (h1 : kw.get "rf" = some (.obj rfOpts))
    (h2 : kw.get "moveout" = some (.obj mvOpts)) (commands : List Str) (err : Option PyErr) (f : S → S) (g : S → W → W)
    (ss rest : List S) (s : S) (e : PyErr)
    (hf : ∀ s ∈ ss, commands.foldlM (fun s c => commandSpec O rfOpts mvOpts c s) s = .ok (f s))
    (hg : ∀ s ∈ ss, ∀ w, O.out (f s) w = (g (f s) w, none))
    (hs : commands.foldlM (fun s c => commandSpec O rfOpts mvOpts c s) s = .error e) (w : W) :
    processLoop O kw commands err w (ss ++ s :: rest) = (ss.foldl (fun w s => g (f s) w) w, some e) := by
  have hc : applyCommand O kw = fun s c => commandSpec O rfOpts mvOpts c s := by
    funext s c; exact applyCommand_eq O kw rfOpts mvOpts h1 h2 s c
  induction ss generalizing w with
  | nil =>
    show processLoop O kw commands err w (s :: rest) = _
    unfold processLoop applyCommands
    rw [hc, hs]
    rfl
  | cons a ss ih =>
    rw [List.cons_append]
    unfold processLoop applyCommands
    rw [hc, hf a List.mem_cons_self]
    simp only [hg a List.mem_cons_self w]
    exact ih (fun x hx => hf x (List.mem_cons_of_mem _ hx)) (fun x hx => hg x (List.mem_cons_of_mem _ hx)) _

/-- **C93** Rejected options or commands: nothing is processed or written. -/
theorem C93_rejected [Field K] [LinearOrder K] [FloorRing K] (loads : Str → Res (Value K)) (command : Str)
    (commands : List Str) (streams : List S) (err : Option PyErr) (w : W)
    (h : (∃ e, prepare loads kw = .error e) ∨ ∃ e, checkCommands command commands = .error e) :
    (runProcess loads O command commands kw streams err w).1 = w ∧
    (runProcess loads O command commands kw streams err w).2.isSome := by
  unfold runProcess
  rcases h with ⟨e, he⟩ | ⟨e, he⟩
  · simp [he]
  · cases prepare loads kw with
    | error e' => simp
    | ok d => simp [he]

end process

/-- A stream is the list of commands applied to it. -/
def logOps : Ops ℚ (List Str) (List (List Str)) where
  rf _ s := .ok (s ++ ["calc".toList])
  moveout _ s := .ok (s ++ ["moveout".toList])
  out s w := (w ++ [s], none)

/-- **C79 is false**: `rf data calc calc` and, from Python, `calc` with further command `calc` are accepted; the receiver
functions are deconvolved twice. -/
theorem C79_counterexample :
    runProcess (K := ℚ) (fun _ => .error .valueError) logOps "data".toList ["calc".toList, "calc".toList] [] [[]] none [] =
      ([["calc".toList, "calc".toList]], none) ∧
    runProcess (K := ℚ) (fun _ => .error .valueError) logOps "calc".toList ["calc".toList] [] [[]] none [] =
      ([["calc".toList, "calc".toList]], none) := by
  decide +kernel

/-- A regular call for two streams. -/
example : runProcess (K := ℚ) (fun _ => .error .valueError) logOps "data".toList ["calc".toList, "moveout".toList] []
      [["a".toList], ["b".toList]] none [] =
    ([["a".toList, "calc".toList, "moveout".toList], ["b".toList, "calc".toList, "moveout".toList]], none) := by
  decide +kernel

/-! ## C80: events -/

/-- **C80, part that holds**: file names and pairs of file name and format are read.
Missing: catalogs and lists of events (see the counterexample). -/
theorem C80_files_partial {C : Type} (rd : EvItem → Option EvItem → Res C) (given : EventsArg → Res C) (fname fmt : Str) :
    loadEvents rd given (.file fname) = rd (.str fname) none ∧
    loadEvents rd given (.list [.str fname, .str fmt]) = rd (.str fname) (some (.str fmt)) ∧
    loadEvents rd given (.tuple [.str fname, .str fmt]) = rd (.str fname) (some (.str fmt)) := ⟨rfl, rfl, rfl⟩

/-- The events given are never used as they are. -/
theorem C80_never_given {C : Type} (rd : EvItem → Option EvItem → Res C) (given given' : EventsArg → Res C)
    (events : EventsArg) : loadEvents rd given events = loadEvents rd given' events := by
  have h : (!events.isCatalog || !events.isList || events.isPair) = true := by
    cases events <;> simp [EventsArg.isCatalog, EventsArg.isList]
  unfold loadEvents
  rw [if_pos h, if_pos h]

/-- **C80 is false**: every catalog and every list or tuple of events is rejected if the reader of event files refuses
event objects. -/
theorem C80_counterexample {C : Type} (rd : EvItem → Option EvItem → Res C) (given : EventsArg → Res C)
    (hrd : ∀ n f, ∃ e, rd (.event n) f = .error e) (l : List Nat) :
    (∃ e, loadEvents rd given (.catalog l) = .error e) ∧
    (∃ e, loadEvents rd given (.list (l.map EvItem.event)) = .error e) ∧
    (∃ e, loadEvents rd given (.tuple (l.map EvItem.event)) = .error e) := by
  match l with
  | [] => exact ⟨⟨_, rfl⟩, ⟨_, rfl⟩, ⟨_, rfl⟩⟩
  | [a] => exact ⟨⟨_, rfl⟩, ⟨_, rfl⟩, ⟨_, rfl⟩⟩
  | [a, b] => exact ⟨hrd _ _, hrd _ _, hrd _ _⟩
  | a :: b :: c :: l => exact ⟨⟨_, rfl⟩, ⟨_, rfl⟩, ⟨_, rfl⟩⟩

example : loadEvents (fun p _ => match p with | .str _ => .ok 5 | .event _ => .error PyErr.typeError)
    (fun _ => .ok 7) (.file "ev.xml".toList) = .ok 5 := rfl

/-! ## C95: bins of the profile -/

section bins
variable {K : Type} [Field K] [LinearOrder K] [IsStrictOrderedRing K] [FloorRing K]

theorem linspace_length (a b : K) (n : Nat) : (linspace a b n).length = n := by
  unfold linspace
  split
  · rename_i h; simp [h]
  · simp

/-- **C95** Two numbers stand for 50 edges. -/
theorem C95_default_partial (a b : K) :
    binEdges (.leaf (.nums [a, b])) = binEdges (.leaf (.nums [a, b, ((50 : Nat) : K)])) := by
  have hfl : (⌊((50 : Nat) : K)⌋ : Int) = ((50 : Nat) : Int) := Int.floor_natCast 50
  have hn0 : ¬ (((50 : Nat) : K) < 0) := not_lt.2 (Nat.cast_nonneg 50)
  unfold binEdges
  simp only []
  rw [hfl, if_neg (by simp), if_neg hn0]
  rfl

/-- **C95, part that holds**: `boxbins = [a, b, n]` with `n ≥ 2` gives `n` equidistant edges from `a` to `b`, hence `n - 1`
boxes.
Missing: `n` bins, as documented (see the counterexample). -/
theorem C95_edges_partial (a b : K) (n : Nat) (hn : 2 ≤ n) :
    ∃ l, binEdges (.leaf (.nums [a, b, (n : K)])) = .ok l ∧ l.length = n ∧ l.head? = some a ∧ l.getLast? = some b ∧
      (∀ i, i + 1 < n → l.getD (i + 1) 0 - l.getD i 0 = (b - a) / ((n : K) - 1)) ∧
      ∀ (geo : K × K → K → K → K × K) (latlon0 : K × K) (azimuth width : K),
        (Verif.Model.Profile.getProfileBoxes geo latlon0 azimuth l width).length = n - 1 := by
  have hfl : (⌊(n : K)⌋ : Int) = (n : Int) := Int.floor_natCast n
  have hn0 : ¬ ((n : K) < 0) := not_lt.2 (Nat.cast_nonneg n)
  have hne : ((n : K) - 1) ≠ 0 := by
    have : (2 : K) ≤ n := by exact_mod_cast hn
    intro h
    linarith
  refine ⟨linspace a b n, ?_, linspace_length a b n, ?_, ?_, ?_, ?_⟩
  · unfold binEdges
    simp only [hfl]
    rw [if_neg (by simp), if_neg hn0]
    simp
  · unfold linspace
    rw [if_neg (by omega), List.head?_map, List.head?_range, if_neg (by omega)]
    simp
  · unfold linspace
    rw [if_neg (by omega), List.getLast?_map, List.getLast?_range, if_neg (by omega)]
    simp only [Option.map_some, Option.some.injEq]
    rw [Nat.cast_sub (by omega)]
    push_cast
    field_simp
    ring
  · intro i hi
    have hg : ∀ j, j < n → (linspace a b n).getD j 0 = a + (j : K) * ((b - a) / ((n : K) - 1)) := by
      intro j hj
      unfold linspace
      rw [if_neg (by omega)]
      simp [List.getD_eq_getElem?_getD, hj]
    rw [hg _ hi, hg _ (by omega)]
    push_cast
    ring
  · intro geo latlon0 azimuth width
    rw [profileBoxes_length, linspace_length]

end bins

/-- **C95 is false**: the example configuration asks for 10 bins and gets 9. -/
theorem C95_counterexample :
    (binEdges (K := ℚ) (.leaf (.nums [0, 10, 10]))).map (fun l => (Verif.Model.Profile.getProfileBoxes
      (fun p _ d => (p.1, p.2 + d)) (-21, -348/5) 90 l 2000).length) = .ok 9 := by
  decide +kernel

/-! ## C96: example files -/

/-- **C96** `rf create` copies the configuration to the place asked for, by default `conf.json`, and in the tutorial the
three example files to the directory of the configuration under their own names; no configuration is read and no
command is run. -/
theorem C96_create {K : Type} (open_ : Str → Option Str) (loads : Str → Res (Option (Dict (Value K))))
    (conf : Option Str) (tutorial : Bool) (kw : Dict (Value K)) :
    ∃ files, run open_ loads "create".toList conf tutorial kw = .copied files ∧
      files.head? = some ("conf.json".toList, conf.getD "conf.json".toList) ∧
      files.tail.map Prod.fst = (if tutorial then ["example_events.xml".toList, "example_inventory.xml".toList,
        "example_data.mseed".toList] else []) ∧
      ∀ p ∈ files.tail, p.2 = pathJoin (dirname (conf.getD "conf.json".toList)) p.1 := by
  refine ⟨createFiles conf tutorial, ?_, rfl, ?_, ?_⟩
  · unfold run
    rw [if_pos rfl]
  · cases tutorial <;> rfl
  · intro p hp
    cases tutorial with
    | false => cases hp
    | true =>
      have hp : p ∈ (["example_events.xml".toList, "example_inventory.xml".toList,
        "example_data.mseed".toList].map fun f => (f, pathJoin (dirname (conf.getD "conf.json".toList)) f)) := hp
      rw [List.mem_map] at hp
      obtain ⟨f, -, rfl⟩ := hp
      rfl

example : (run (K := ℚ) (fun _ => none) (fun _ => .ok none) "create".toList (some "tut/c.json".toList) true []) =
    .copied [("conf.json".toList, "tut/c.json".toList), ("example_events.xml".toList, "tut/example_events.xml".toList),
      ("example_inventory.xml".toList, "tut/example_inventory.xml".toList),
      ("example_data.mseed".toList, "tut/example_data.mseed".toList)] := by decide +kernel

end Verif.Props
