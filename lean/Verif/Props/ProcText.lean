import Verif.Props.ProcInfo

/-!
# C209: what a processing entry tells about the call
-/

set_option linter.unusedSimpArgs false
set_option linter.unusedSectionVars false

namespace Verif.Spec
open Verif.Py Verif.Model Verif.Model.ProcInfo

/-- A value as it is shown in a processing entry: strings in quotes, everything else as Python shows it. -/
def shown : PV → Str
  | .str s => '\'' :: s ++ ['\'']
  | v => v.repr

/-- Texts in which the separator `::` cannot be found, also not at the end. -/
def NoColons (t : Str) : Prop := ¬ "::".toList <:+: t ++ [':']

/-- Names of parameters: they contain neither `=` nor `:`. -/
def NameLike (k : String) : Prop := '=' ∉ k.toList ∧ ':' ∉ k.toList

/-- Values whose texts do not contain the separator; for boxes the parameters of the profile as well. -/
def Plain (v : PV) : Prop :=
  NoColons (shown v) ∧ ∀ b l lat az len, v = .boxes (b :: l) → b.profile = some (lat, az, len) →
    NoColons lat ∧ NoColons az ∧ NoColons len

end Verif.Spec

namespace Verif.Props
open Verif.Py Verif.Model Verif.Model.ProcInfo Verif.Spec List

theorem fmtArg_shown (k : String) (v : PV) : fmtArg (k, v) = k.toList ++ '=' :: shown v := by
  cases v <;> simp [fmtArg, shown, PV.repr]

theorem split_name (a b x y : Str) (ha : '=' ∉ a) (hb : '=' ∉ b) (h : a ++ '=' :: x = b ++ '=' :: y) : a = b ∧ x = y := by
  induction a generalizing b with
  | nil =>
    cases b with
    | nil => exact ⟨rfl, by simpa using h⟩
    | cons c b =>
      simp only [List.nil_append, List.cons_append, List.cons.injEq] at h
      exact absurd (h.1 ▸ List.mem_cons_self) hb
  | cons c a ih =>
    cases b with
    | nil =>
      simp only [List.nil_append, List.cons_append, List.cons.injEq] at h
      exact absurd (h.1 ▸ List.mem_cons_self) ha
    | cons d b =>
      simp only [List.cons_append, List.cons.injEq] at h
      obtain ⟨i1, i2⟩ := ih b (fun m => ha (List.mem_cons_of_mem _ m)) (fun m => hb (List.mem_cons_of_mem _ m)) h.2
      exact ⟨by rw [h.1, i1], i2⟩

/-- The first separator ends the first part. -/
theorem split_colons (a b x y : Str) (ha : NoColons a) (hb : NoColons b)
    (h : a ++ "::".toList ++ x = b ++ "::".toList ++ y) : a = b ∧ x = y := by
  have key : ∀ (a c : Str) (x y : Str), NoColons (a ++ c) → a ++ "::".toList ++ x = a ++ c ++ "::".toList ++ y → c = [] := by
    intro a c x y hn h
    simp only [List.append_assoc, List.append_cancel_left_eq] at h
    match c with
    | [] => rfl
    | [c0] =>
      exfalso
      have : c0 = ':' := by
        have h' : ':' :: ':' :: x = c0 :: ':' :: ':' :: y := h
        simp only [List.cons.injEq] at h'
        exact h'.1.symm
      subst this
      exact hn ⟨a, [], by simp⟩
    | c0 :: c1 :: c =>
      exfalso
      have h' : ':' :: ':' :: x = c0 :: c1 :: (c ++ "::".toList ++ y) := by
        rw [List.append_assoc]; exact h
      simp only [List.cons.injEq] at h'
      obtain ⟨rfl, rfl, -⟩ := h'
      exact hn ⟨a, c ++ [':'], by simp⟩
  have h2 := h
  rw [List.append_assoc, List.append_assoc, List.append_eq_append_iff] at h2
  rcases h2 with ⟨c, rfl, -⟩ | ⟨c, rfl, -⟩
  · have := key a c x y hb h
    subst this
    simp only [List.append_nil, List.append_cancel_left_eq] at h
    exact ⟨(List.append_nil a).symm, h⟩
  · have := key b c y x ha h.symm
    subst this
    simp only [List.append_nil, List.append_cancel_left_eq] at h
    exact ⟨List.append_nil b, h⟩

theorem joinColons_cons (a b : Str) (l : List Str) : joinColons (a :: b :: l) = a ++ "::".toList ++ joinColons (b :: l) := by
  simp [joinColons]

theorem join_inj (l m : List Str) (hl : ∀ a ∈ l, NoColons a ∧ a ≠ []) (hm : ∀ a ∈ m, NoColons a ∧ a ≠ [])
    (h : joinColons l = joinColons m) : l = m := by
  have hne : ∀ (a : Str) (l : List Str), a ≠ [] → joinColons (a :: l) ≠ [] := by
    intro a l ha
    cases l with
    | nil => simpa [joinColons] using ha
    | cons b l => rw [joinColons_cons]; simp
  have hsep : ∀ (a b c : Str) (l : List Str), NoColons a → a ≠ b ++ "::".toList ++ c := by
    intro a b c l ha h
    exact ha ⟨b, c ++ [':'], by rw [h]; simp⟩
  induction l generalizing m with
  | nil =>
    cases m with
    | nil => rfl
    | cons b m => exact absurd h.symm (hne b m (hm b mem_cons_self).2)
  | cons a l ih =>
    cases m with
    | nil => exact absurd h (hne a l (hl a mem_cons_self).2)
    | cons b m =>
      have ha := (hl a mem_cons_self).1
      have hb := (hm b mem_cons_self).1
      cases l with
      | nil =>
        cases m with
        | nil => simpa [joinColons] using h
        | cons b' m =>
          rw [joinColons_cons] at h
          exact absurd (by simpa [joinColons] using h) (hsep a b _ [] ha)
      | cons a' l =>
        cases m with
        | nil =>
          rw [joinColons_cons] at h
          exact absurd (by simpa [joinColons] using h.symm) (hsep b a _ [] hb)
        | cons b' m =>
          rw [joinColons_cons, joinColons_cons] at h
          obtain ⟨h1, h2⟩ := split_colons _ _ _ _ ha hb h
          rw [h1, ih (b' :: m) (fun x hx => hl x (mem_cons_of_mem _ hx)) (fun x hx => hm x (mem_cons_of_mem _ hx)) h2]

theorem noColons_arg (k : String) (v : PV) (hk : NameLike k) (hv : NoColons (shown v)) :
    NoColons (fmtArg (k, v)) ∧ fmtArg (k, v) ≠ [] := by
  rw [fmtArg_shown]
  refine ⟨?_, by simp⟩
  have : ∀ a : Str, ':' ∉ a → NoColons (a ++ '=' :: shown v) := by
    intro a
    induction a with
    | nil =>
      intro _
      unfold NoColons at hv ⊢
      intro h
      rw [List.nil_append, List.cons_append, List.infix_cons_iff] at h
      rcases h with h | h
      · have h' : ':' :: [':'] <+: '=' :: (shown v ++ [':']) := h
        rw [List.cons_prefix_cons] at h'
        exact absurd h'.1 (by decide)
      · exact hv h
    | cons c a ih =>
      intro hc h
      rw [List.cons_append, List.cons_append, List.infix_cons_iff] at h
      rcases h with h | h
      · have h' : ':' :: [':'] <+: c :: (a ++ '=' :: shown v ++ [':']) := h
        rw [List.cons_prefix_cons] at h'
        exact hc (h'.1 ▸ mem_cons_self)
      · exact ih (fun m => hc (mem_cons_of_mem _ m)) h
  exact this _ hk.2

/-- Entries of the same function tell all the recorded arguments. -/
theorem infoText_inj (version : Str) (s : Sig) (d e : Dict PV) (hd : d.NodupKeys) (he : e.NodupKeys)
    (pd : ∀ k v, d.get k = some v → NameLike k ∧ NoColons (shown v))
    (pe : ∀ k v, e.get k = some v → NameLike k ∧ NoColons (shown v))
    (h : infoText version s d = infoText version s e) (k : String) : (d.get k).map shown = (e.get k).map shown := by
  have hj : joinColons ((d.map fmtArg).insertionSort (· ≤ ·)) = joinColons ((e.map fmtArg).insertionSort (· ≤ ·)) := by
    unfold infoText at h
    simpa using h
  have hall : ∀ d : Dict PV, d.NodupKeys → (∀ k v, d.get k = some v → NameLike k ∧ NoColons (shown v)) →
      ∀ a ∈ (d.map fmtArg).insertionSort (· ≤ ·), NoColons a ∧ a ≠ [] := by
    intro d hd pd a ha
    rw [(List.perm_insertionSort (· ≤ ·) _).mem_iff, List.mem_map] at ha
    obtain ⟨⟨k, v⟩, hm, rfl⟩ := ha
    obtain ⟨i1, i2⟩ := pd k v (dict_get_of_mem _ hd _ _ hm)
    exact noColons_arg k v i1 i2
  have hl := join_inj _ _ (hall d hd pd) (hall e he pe) hj
  have hp : d.map fmtArg ~ e.map fmtArg :=
    ((List.perm_insertionSort (· ≤ ·) _).symm.trans (by rw [hl])).trans (List.perm_insertionSort (· ≤ ·) _)
  have one : ∀ d e : Dict PV, e.NodupKeys → (∀ k v, d.get k = some v → NameLike k ∧ NoColons (shown v)) →
      (∀ k v, e.get k = some v → NameLike k ∧ NoColons (shown v)) → d.map fmtArg ~ e.map fmtArg →
      ∀ v, d.get k = some v → ∃ w, e.get k = some w ∧ shown v = shown w := by
    intro d e he pd pe hp v hv
    have hm : fmtArg (k, v) ∈ e.map fmtArg := hp.mem_iff.1 (List.mem_map_of_mem (dict_mem_of_get _ _ _ hv))
    rw [List.mem_map] at hm
    obtain ⟨⟨k', w⟩, hm, heq⟩ := hm
    have hw := dict_get_of_mem _ he _ _ hm
    rw [fmtArg_shown, fmtArg_shown] at heq
    obtain ⟨h1, h2⟩ := split_name _ _ _ _ (pe k' w hw).1.1 (pd k v hv).1.1 heq
    have hk : k' = k := String.ext h1
    subst hk
    exact ⟨w, hw, h2.symm⟩
  cases hv : d.get k with
  | some v =>
    obtain ⟨w, h1, h2⟩ := one d e he pd pe hp v hv
    rw [h1]
    simp [h2]
  | none =>
    cases hw : e.get k with
    | none => rfl
    | some w =>
      obtain ⟨v, h1, -⟩ := one e d hd pe pd hp.symm w hw
      rw [hv] at h1
      cases h1

/-- What is written into the entry: all effective arguments apart from the stream, and instead of boxes the parameters of their
profile. -/
theorem procInfo_recorded (version : Str) (s : Sig) (hs : s.names.Nodup) (pos : List PV) (kw : Dict PV) (hkw : kw.NodupKeys)
    (t : Str) (h : procInfo version s pos kw = .ok t) :
    ∃ d : Dict PV, t = infoText version s d ∧ d.NodupKeys ∧
      (∀ k, k ∉ ["self", "stream", "boxes", "latlon", "azimuth", "length"] → d.get k = effective s.params pos kw k) ∧
      (∀ k v, d.get k = some v → effective s.params pos kw k = some v ∨
        (k ∈ ["latlon", "azimuth", "length"] ∧ ∃ b l lat az len, effective s.params pos kw "boxes" = some (.boxes (b :: l)) ∧
          b.profile = some (lat, az, len) ∧ ∃ x ∈ [lat, az, len], v = .obj x true)) := by
  unfold procInfo at h
  cases hg : getcallargs s pos kw with
  | error e => rw [hg] at h; cases h
  | ok r =>
    obtain ⟨n, x⟩ := r
    rw [hg] at h
    simp only [] at h
    obtain ⟨i1, i2, i3, i4⟩ := getcallargs_spec s hs pos kw hkw n x hg
    cases hd : dropStream n with
    | error e => rw [hd] at h; cases h
    | ok n' =>
      rw [hd] at h
      simp only [] at h
      have hn' : n'.NodupKeys ∧ (∀ k, k ≠ "self" → k ≠ "stream" → n'.get k = n.get k) ∧ (∀ k v, n'.get k = some v → n.get k = some v) := by
        unfold dropStream at hd
        have he := erase_nodupKeys _ i1 "self"
        have hee : ∀ k v, (n.erase "self").get k = some v → n.get k = some v := by
          intro k v
          rw [Dict.get_erase]
          split
          · intro h; cases h
          · exact id
        have two : (if (n.erase "self").has "stream" then Except.ok ((n.erase "self").erase "stream") else Except.error PyErr.keyError : Res (Dict PV)) = .ok n' →
            n'.NodupKeys ∧ (∀ k, k ≠ "self" → k ≠ "stream" → n'.get k = n.get k) ∧ (∀ k v, n'.get k = some v → n.get k = some v) := by
          intro hd
          split at hd
          · cases hd
            refine ⟨erase_nodupKeys _ he _, fun k h1 h2 => ?_, fun k v hv => ?_⟩
            · rw [Dict.get_erase, if_neg h2, Dict.get_erase, if_neg h1]
            · rw [Dict.get_erase] at hv
              split at hv
              · cases hv
              · exact hee k v hv
          · cases hd
        simp only [] at hd
        split at hd
        · exact two hd
        · exact two hd
        · cases hd
          exact ⟨he, fun k h1 _ => by rw [Dict.get_erase, if_neg h1], hee⟩
      have hu : (x.update n').NodupKeys := update_nodupKeys _ _ i2
      have hget : ∀ k, (x.update n').get k = (n'.get k).or (x.get k) := by
        intro k
        rw [Dict.get_update, Dict.get_reverse _ hn'.1]
      have hsome : ∀ k v, (x.update n').get k = some v → effective s.params pos kw k = some v := by
        intro k v hv
        rw [hget] at hv
        cases hk : n'.get k with
        | some w =>
          rw [hk] at hv
          simp only [Option.some_or, Option.some.injEq] at hv
          have := hn'.2.2 k w hk
          rw [i3] at this
          split at this
          · rw [this, hv]
          · cases this
        | none =>
          rw [hk] at hv
          simp only [Option.none_or] at hv
          rw [i4] at hv
          split at hv
          · cases hv
          · exact hv
      have hall : ∀ k, k ≠ "self" → k ≠ "stream" → (x.update n').get k = effective s.params pos kw k := by
        intro k h1 h2
        rw [hget, hn'.2.1 k h1 h2, i3, i4]
        split
        · simp
        · simp
      generalize x.update n' = u at h hu hsome hall
      have hplain : ∀ k v, (u.erase "boxes").get k = some v → effective s.params pos kw k = some v := by
        intro k v hv
        rw [Dict.get_erase] at hv
        split at hv
        · cases hv
        · exact hsome k v hv
      have hrest : replaceBoxes u = .ok (u.erase "boxes") → ∃ d : Dict PV, t = infoText version s d ∧ d.NodupKeys ∧
          (∀ k, k ∉ ["self", "stream", "boxes", "latlon", "azimuth", "length"] → d.get k = effective s.params pos kw k) ∧
          (∀ k v, d.get k = some v → effective s.params pos kw k = some v ∨
            (k ∈ ["latlon", "azimuth", "length"] ∧ ∃ b l lat az len, effective s.params pos kw "boxes" = some (.boxes (b :: l)) ∧
              b.profile = some (lat, az, len) ∧ ∃ x ∈ [lat, az, len], v = .obj x true)) := by
        intro hr
        rw [hr] at h
        cases h
        refine ⟨_, rfl, erase_nodupKeys _ hu _, fun k hk => ?_, fun k v hv => Or.inl (hplain k v hv)⟩
        simp only [List.mem_cons, List.not_mem_nil, or_false, not_or] at hk
        rw [Dict.get_erase, if_neg hk.2.2.1, hall k hk.1 hk.2.1]
      cases hb : u.get "boxes" with
      | none => exact hrest (by unfold replaceBoxes; rw [hb])
      | some v =>
        match v with
        | .none => exact hrest (by unfold replaceBoxes; rw [hb])
        | .str [] => exact hrest (by unfold replaceBoxes; rw [hb])
        | .str (c :: cs) => unfold replaceBoxes at h; rw [hb] at h; cases h
        | .obj r false => exact hrest (by unfold replaceBoxes; rw [hb])
        | .obj r true => unfold replaceBoxes at h; rw [hb] at h; cases h
        | .boxes [] => exact hrest (by unfold replaceBoxes; rw [hb])
        | .boxes (b :: l) =>
          unfold replaceBoxes at h
          rw [hb] at h
          simp only [] at h
          cases hp : b.profile with
          | none => rw [hp] at h; cases h
          | some p =>
            obtain ⟨lat, az, len⟩ := p
            rw [hp] at h
            cases h
            refine ⟨_, rfl, set_nodupKeys _ _ _ (set_nodupKeys _ _ _ (set_nodupKeys _ _ _ (erase_nodupKeys _ hu _))), fun k hk => ?_,
              fun k v hv => ?_⟩
            · simp only [List.mem_cons, List.not_mem_nil, or_false, not_or] at hk
              obtain ⟨k1, k2, k3, k4, k5, k6⟩ := hk
              rw [Dict.get_set_ne _ _ k6, Dict.get_set_ne _ _ k5, Dict.get_set_ne _ _ k4, Dict.get_erase, if_neg k3, hall k k1 k2]
            · by_cases k6 : k = "length"
              · subst k6
                rw [Dict.get_set_self] at hv
                exact Or.inr ⟨by simp, b, l, lat, az, len, hsome _ _ hb, hp, len, by simp, by cases hv; rfl⟩
              by_cases k5 : k = "azimuth"
              · subst k5
                rw [Dict.get_set_ne _ _ k6, Dict.get_set_self] at hv
                exact Or.inr ⟨by simp, b, l, lat, az, len, hsome _ _ hb, hp, az, by simp, by cases hv; rfl⟩
              by_cases k4 : k = "latlon"
              · subst k4
                rw [Dict.get_set_ne _ _ k6, Dict.get_set_ne _ _ k5, Dict.get_set_self] at hv
                exact Or.inr ⟨by simp, b, l, lat, az, len, hsome _ _ hb, hp, lat, by simp, by cases hv; rfl⟩
              rw [Dict.get_set_ne _ _ k6, Dict.get_set_ne _ _ k5, Dict.get_set_ne _ _ k4] at hv
              exact Or.inl (hplain k v hv)

/-- **C209** (arguments, partial).  If two calls of the same function leave the same processing entry, they were made with the same
arguments: every parameter and every additional keyword, apart from the stream and the boxes of a profile, has the same text in
both calls.  The names are names and no text contains the separator `::`; without this the claim is false. -/
theorem C209_identifies_partial (version : Str) (s : Sig) (hs : s.names.Nodup) (pos pos' : List PV) (kw kw' : Dict PV)
    (hkw : kw.NodupKeys) (hkw' : kw'.NodupKeys) (t : Str) (h : procInfo version s pos kw = .ok t)
    (h' : procInfo version s pos' kw' = .ok t)
    (hp : ∀ k v, effective s.params pos kw k = some v → NameLike k ∧ Plain v)
    (hp' : ∀ k v, effective s.params pos' kw' k = some v → NameLike k ∧ Plain v)
    (k : String) (hk : k ∉ ["self", "stream", "boxes", "latlon", "azimuth", "length"]) :
    (effective s.params pos kw k).map shown = (effective s.params pos' kw' k).map shown := by
  obtain ⟨d, hd, nd, gd, sd⟩ := procInfo_recorded version s hs pos kw hkw t h
  obtain ⟨e, he, ne, ge, se⟩ := procInfo_recorded version s hs pos' kw' hkw' t h'
  have plain : ∀ (pos : List PV) (kw d : Dict PV), (∀ k v, effective s.params pos kw k = some v → NameLike k ∧ Plain v) →
      (∀ k v, d.get k = some v → effective s.params pos kw k = some v ∨
        (k ∈ ["latlon", "azimuth", "length"] ∧ ∃ b l lat az len, effective s.params pos kw "boxes" = some (.boxes (b :: l)) ∧
          b.profile = some (lat, az, len) ∧ ∃ x ∈ [lat, az, len], v = .obj x true)) →
      ∀ k v, d.get k = some v → NameLike k ∧ NoColons (shown v) := by
    intro pos kw d hp sd k v hv
    rcases sd k v hv with h | ⟨hk, b, l, lat, az, len, hb, hpr, x, hx, rfl⟩
    · exact ⟨(hp k v h).1, (hp k v h).2.1⟩
    · refine ⟨?_, ?_⟩
      · simp only [List.mem_cons, List.not_mem_nil, or_false] at hk
        rcases hk with rfl | rfl | rfl <;> exact ⟨by decide, by decide⟩
      · have hc := (hp _ _ hb).2.2 b l lat az len rfl hpr
        simp only [List.mem_cons, List.not_mem_nil, or_false] at hx
        rcases hx with rfl | rfl | rfl
        · exact hc.1
        · exact hc.2.1
        · exact hc.2.2
  rw [← gd k hk, ← ge k hk]
  exact infoText_inj version s d e nd ne (plain pos kw d hp sd) (plain pos' kw' e hp' se) (hd ▸ he) k

/-- **C209 is false** for texts with the separator: two calls of moveout with different models and phases leave the same entry. -/
theorem C209_counterexample :
    procInfo "1.0".toList sigMoveout [.obj "st".toList true, pv "c"] [("model", pv "a'::phase='b")] =
      .ok "rf 1.0: moveout(model='a'::phase='b'::phase='c'::ref=6.4)".toList ∧
    procInfo "1.0".toList sigMoveout [.obj "st".toList true, pv "b'::phase='c"] [("model", pv "a")] =
      .ok "rf 1.0: moveout(model='a'::phase='b'::phase='c'::ref=6.4)".toList := by decide +kernel

/-- Arguments whose names begin with different letters are sorted by them. -/
theorem arg_le (k k' : String) (v v' : PV)
    (h : (match k.toList, k'.toList with | a :: _, b :: _ => decide (a < b) | _, _ => false) = true) : fmtArg (k, v) ≤ fmtArg (k', v') := by
  rw [fmtArg_shown, fmtArg_shown]
  cases hk : k.toList with
  | nil => simp [hk] at h
  | cons a x =>
    cases hk' : k'.toList with
    | nil => simp [hk, hk'] at h
    | cons b y =>
      simp only [hk, hk', decide_eq_true_eq] at h
      exact le_of_lt (List.Lex.rel h)

theorem sort_three (a b c : Str) (h1 : a ≤ b) (h2 : b ≤ c) : [b, c, a].insertionSort (· ≤ ·) = [a, b, c] :=
  List.Perm.eq_of_pairwise (fun _ _ _ _ h1 h2 => le_antisymm h1 h2)
    (List.pairwise_insertionSort (· ≤ ·) _) (by simp [h1, h2, h1.trans h2])
    ((List.perm_insertionSort (· ≤ ·) _).trans (by
      exact (List.perm_append_comm (l₁ := [b, c]) (l₂ := [a]))))

/-- **C209** (moveout).  The entry of moveout shows model, phase and reference slowness, in this order, whatever they are. -/
theorem C209_moveout (version r : Str) (phase ref model : PV) :
    procInfo version sigMoveout [.obj r true, phase, ref, model] [] =
      .ok ("rf ".toList ++ version ++ ": moveout(model=".toList ++ shown model ++ "::phase=".toList ++ shown phase ++
        "::ref=".toList ++ shown ref ++ ")".toList) := by
  have h1 : fmtArg ("model", model) ≤ fmtArg ("phase", phase) := arg_le _ _ _ _ (by decide +kernel)
  have h2 : fmtArg ("phase", phase) ≤ fmtArg ("ref", ref) := arg_le _ _ _ _ (by decide +kernel)
  have h3 := sort_three _ _ _ h1 h2
  have hp : procInfo version sigMoveout [.obj r true, phase, ref, model] [] =
      .ok (infoText version sigMoveout [("phase", phase), ("ref", ref), ("model", model)]) := rfl
  rw [hp]
  unfold infoText
  simp only [List.map_cons, List.map_nil]
  rw [h3]
  simp [joinColons, fmtArg_shown, sigMoveout]

/-- **C209** (rf).  The entry of rf without further keywords shows all its arguments sorted by name. -/
theorem C209_rf (version r : Str) (method filter trim down rot dec src : PV) :
    procInfo version sigRf [.obj r true, method, filter, trim, down, rot, dec, src] [] =
      .ok ("rf ".toList ++ version ++ ": rf(deconvolve=".toList ++ shown dec ++ "::downsample=".toList ++ shown down ++
        "::filter=".toList ++ shown filter ++ "::method=".toList ++ shown method ++ "::rotate=".toList ++ shown rot ++
        "::source_components=".toList ++ shown src ++ "::trim=".toList ++ shown trim ++ ")".toList) := by
  have h0 : fmtArg ("deconvolve", dec) ≤ fmtArg ("downsample", down) := by
    rw [fmtArg_shown, fmtArg_shown]
    exact le_of_lt (List.Lex.cons (List.Lex.rel (by decide)))
  have h1 : fmtArg ("downsample", down) ≤ fmtArg ("filter", filter) := arg_le _ _ _ _ (by decide +kernel)
  have h2 : fmtArg ("filter", filter) ≤ fmtArg ("method", method) := arg_le _ _ _ _ (by decide +kernel)
  have h3 : fmtArg ("method", method) ≤ fmtArg ("rotate", rot) := arg_le _ _ _ _ (by decide +kernel)
  have h4 : fmtArg ("rotate", rot) ≤ fmtArg ("source_components", src) := arg_le _ _ _ _ (by decide +kernel)
  have h5 : fmtArg ("source_components", src) ≤ fmtArg ("trim", trim) := arg_le _ _ _ _ (by decide +kernel)
  have hp : procInfo version sigRf [.obj r true, method, filter, trim, down, rot, dec, src] [] =
      .ok (infoText version sigRf [("method", method), ("filter", filter), ("trim", trim), ("downsample", down), ("rotate", rot),
        ("deconvolve", dec), ("source_components", src)]) := rfl
  rw [hp]
  have hsort : ∀ a b c d e f g : Str, a ≤ b → b ≤ c → c ≤ d → d ≤ e → e ≤ f → f ≤ g →
      [d, c, g, b, e, a, f].insertionSort (· ≤ ·) = [a, b, c, d, e, f, g] := by
    intro a b c d e f g h0 h1 h2 h3 h4 h5
    refine List.Perm.eq_of_pairwise (fun _ _ _ _ h1 h2 => le_antisymm h1 h2)
      (List.pairwise_insertionSort (· ≤ ·) _) ?_ ((List.perm_insertionSort (· ≤ ·) _).trans ?_)
    · have hc : List.IsChain (· ≤ ·) [a, b, c, d, e, f, g] := by simp [h0, h1, h2, h3, h4, h5]
      exact List.isChain_iff_pairwise.1 hc
    · rw [List.perm_iff_count]
      intro x
      simp only [List.count_cons, List.count_nil, Nat.zero_add]
      ac_rfl
  unfold infoText
  simp only [List.map_cons, List.map_nil]
  rw [hsort _ _ _ _ _ _ _ h0 h1 h2 h3 h4 h5]
  simp [joinColons, fmtArg_shown, sigRf]

/-- **C209** (defaults).  A call which leaves out arguments has the same entry as the call with the documented defaults. -/
theorem C209_defaults (version r : Str) :
    procInfo version sigRf [.obj r true] [] =
      procInfo version sigRf [.obj r true, .none, .none, .none, .none, pv "ZNE->LQT", pv "time", .none] [] ∧
    procInfo version sigRf [.obj r true] [] =
      .ok ("rf ".toList ++ version ++ ": rf(deconvolve='time'::downsample=None::filter=None::method=None::rotate='ZNE->LQT'::source_components=None::trim=None)".toList) ∧
    procInfo version sigMoveout [.obj r true] [] =
      .ok ("rf ".toList ++ version ++ ": moveout(model='iasp91'::phase=None::ref=6.4)".toList) ∧
    procInfo version sigDeconvolve [.obj r true] [] =
      .ok ("rf ".toList ++ version ++ ": deconvolve(func=None::method='time'::response_components=None::source_components='LZ'::winsrc='P')".toList) ∧
    procInfo version sigHarmonics [.obj r true] [] =
      .ok ("rf ".toList ++ version ++ ": harmonics(azim=0::components='R'::method='time')".toList) := by
  have text : ∀ (sg : Sig) (kw : Dict PV) (t : Str), sg.name ++ '(' :: joinColons ((kw.map fmtArg).insertionSort (· ≤ ·)) ++ [')'] = t →
      infoText version sg kw = "rf ".toList ++ version ++ (": ".toList ++ t) := by
    intro sg kw t h
    rw [← h]
    simp [infoText]
  have e1 : procInfo version sigRf [.obj r true] [] = .ok (infoText version sigRf [("method", .none), ("filter", .none), ("trim", .none),
      ("downsample", .none), ("rotate", pv "ZNE->LQT"), ("deconvolve", pv "time"), ("source_components", .none)]) := rfl
  have e2 : procInfo version sigMoveout [.obj r true] [] = .ok (infoText version sigMoveout [("phase", .none), ("ref", .obj "6.4".toList true),
      ("model", pv "iasp91")]) := rfl
  have e3 : procInfo version sigDeconvolve [.obj r true] [] = .ok (infoText version sigDeconvolve [("method", pv "time"), ("func", .none),
      ("source_components", pv "LZ"), ("response_components", .none), ("winsrc", pv "P")]) := rfl
  have e4 : procInfo version sigHarmonics [.obj r true] [] = .ok (infoText version sigHarmonics [("components", pv "R"),
      ("azim", .obj "0".toList false), ("method", pv "time")]) := rfl
  refine ⟨rfl, ?_, ?_, ?_, ?_⟩
  · have h : infoText version sigRf _ = _ := text sigRf
      [("method", .none), ("filter", .none), ("trim", .none), ("downsample", .none), ("rotate", pv "ZNE->LQT"), ("deconvolve", pv "time"), ("source_components", .none)]
      ("rf(deconvolve='time'::downsample=None::filter=None::method=None::rotate='ZNE->LQT'::source_components=None::trim=None)".toList) (by decide +kernel)
    rw [e1, h]
    simp
  · have h : infoText version sigMoveout _ = _ := text sigMoveout
      [("phase", .none), ("ref", .obj "6.4".toList true), ("model", pv "iasp91")]
      ("moveout(model='iasp91'::phase=None::ref=6.4)".toList) (by decide +kernel)
    rw [e2, h]
    simp
  · have h : infoText version sigDeconvolve _ = _ := text sigDeconvolve
      [("method", pv "time"), ("func", .none), ("source_components", pv "LZ"), ("response_components", .none), ("winsrc", pv "P")]
      ("deconvolve(func=None::method='time'::response_components=None::source_components='LZ'::winsrc='P')".toList) (by decide +kernel)
    rw [e3, h]
    simp
  · have h : infoText version sigHarmonics _ = _ := text sigHarmonics
      [("components", pv "R"), ("azim", .obj "0".toList false), ("method", pv "time")]
      ("harmonics(azim=0::components='R'::method='time')".toList) (by decide +kernel)
    rw [e4, h]
    simp

/-- **C209** (stack).  The entry of stack has no arguments; stack accepts none. -/
theorem C209_stack (version r : Str) (kw : Dict PV) :
    procInfo version sigStack [.obj r true] kw =
      if kw = [] then .ok ("rf ".toList ++ version ++ ": stack()".toList) else .error .typeError := by
  cases kw with
  | nil =>
    rw [if_pos rfl]
    simp [procInfo, getcallargs, sigStack, bindKw, fillDefaults, dropStream, replaceBoxes, infoText, joinColons, Sig.names, Dict.has, Dict.get,
      Dict.erase, Dict.update]
  | cons p kw =>
    obtain ⟨k, v⟩ := p
    rw [if_neg (by simp)]
    by_cases hk : k = "self" <;>
    simp [procInfo, getcallargs, sigStack, bindKw, fillDefaults, Sig.names, Dict.has, Dict.get, hk]

/-- A non-trivial case of `C209_identifies_partial`: the hypotheses are met by `st.moveout('Ps', model='prem')`. -/
example : ∀ k v, effective sigMoveout.params [.obj "st".toList true, pv "Ps"] [("model", pv "prem")] k = some v →
    NameLike k ∧ Plain v := by
  intro k v h
  simp only [sigMoveout, effective, Dict.get] at h
  have hpl : ∀ v : PV, NoColons (shown v) → (∀ b l, v ≠ .boxes (b :: l)) → Plain v :=
    fun v h1 h2 => ⟨h1, fun b l _ _ _ h3 _ => absurd h3 (h2 b l)⟩
  split_ifs at h with h1 h2 h3 h4 h5 <;> cases h <;> subst_vars
  all_goals exact ⟨⟨by decide, by decide⟩, hpl _ (by unfold NoColons; decide +kernel) (by intro b l h; cases h)⟩

end Verif.Props
