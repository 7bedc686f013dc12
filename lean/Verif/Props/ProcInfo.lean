import Verif.Model.ProcInfo
import Verif.Props.Headers
import Verif.Props.Stream

/-!
# Processing information (C70)
-/

set_option linter.unusedSimpArgs false
set_option linter.unusedSectionVars false

namespace Verif.Props
open Verif.Py Verif.Model Verif.Model.ProcInfo Verif.Spec
open scoped List

/-- Specification: the value a parameter or additional keyword has inside the called function, whatever way
it was passed: by position, else by keyword, else the default; other names by keyword. -/
def effective : List (String × Option PV) → List PV → Dict PV → String → Option PV
  | [], _, kw, k => kw.get k
  | (n, _) :: ps, v :: pos, kw, k => if n = k then some v else effective ps pos kw k
  | (n, d) :: ps, [], kw, k => if n = k then (kw.get k).or d else effective ps [] kw k

/-- The default of a parameter. -/
def dflt : List (String × Option PV) → String → Option PV
  | [], _ => none
  | (n, d) :: ps, k => if n = k then d else dflt ps k

theorem effective_mem (ps : List (String × Option PV)) (pos : List PV) (kw : Dict PV) (k : String)
    (hk : k ∈ ps.map Prod.fst) :
    effective ps pos kw k = (Dict.get ((ps.map Prod.fst).zip pos) k).or ((kw.get k).or (dflt ps k)) := by
  induction ps generalizing pos with
  | nil => simp at hk
  | cons p ps ih =>
    obtain ⟨n, d⟩ := p
    by_cases h : n = k
    · subst h
      cases pos <;> simp [effective, dflt, Dict.get]
    · have hk' : k ∈ ps.map Prod.fst := by
        simp only [List.map_cons, List.mem_cons] at hk
        exact hk.resolve_left (fun hc => h hc.symm)
      cases pos with
      | nil =>
        have := ih [] hk'
        simp only [List.zip_nil_right] at this
        simp [effective, dflt, Dict.get, h, this]
      | cons v pos => simp [effective, dflt, Dict.get, h, ih pos hk']

theorem effective_not_mem (ps : List (String × Option PV)) (pos : List PV) (kw : Dict PV) (k : String)
    (hk : k ∉ ps.map Prod.fst) : effective ps pos kw k = kw.get k := by
  induction ps generalizing pos with
  | nil => cases pos <;> rfl
  | cons p ps ih =>
    obtain ⟨n, d⟩ := p
    simp only [List.map_cons, List.mem_cons, not_or] at hk
    cases pos with
    | nil => simp [effective, Ne.symm hk.1, ih [] hk.2]
    | cons v pos => simp [effective, Ne.symm hk.1, ih pos hk.2]

/-! ## Dictionaries with the same entries -/

theorem erase_nodupKeys {V : Type} (d : Dict V) (h : d.NodupKeys) (k : String) : (d.erase k).NodupKeys := by
  unfold Dict.NodupKeys Dict.keys Dict.erase at *
  exact h.sublist (List.filter_sublist.map _)

theorem update_nodupKeys {V : Type} (d e : Dict V) (h : d.NodupKeys) : (d.update e).NodupKeys := by
  unfold Dict.update
  induction e generalizing d with
  | nil => exact h
  | cons p e ih => exact ih _ (set_nodupKeys _ _ _ h)

/-- Two dictionaries with the same entries, maybe in another order. -/
structure SameDict {V : Type} (d e : Dict V) : Prop where
  nd : d.NodupKeys
  ne : e.NodupKeys
  get : ∀ k, d.get k = e.get k

theorem SameDict.perm {V : Type} {d e : Dict V} (h : SameDict d e) : d ~ e := by
  have h1 : d.Nodup := List.Nodup.of_map _ h.nd
  have h2 : e.Nodup := List.Nodup.of_map _ h.ne
  rw [List.perm_ext_iff_of_nodup h1 h2]
  rintro ⟨k, v⟩
  constructor
  · intro hm
    exact dict_mem_of_get _ _ _ (by rw [← h.get]; exact dict_get_of_mem _ h.nd _ _ hm)
  · intro hm
    exact dict_mem_of_get _ _ _ (by rw [h.get]; exact dict_get_of_mem _ h.ne _ _ hm)

theorem SameDict.set {V : Type} {d e : Dict V} (h : SameDict d e) (k : String) (v : V) :
    SameDict (d.set k v) (e.set k v) :=
  ⟨set_nodupKeys _ _ _ h.nd, set_nodupKeys _ _ _ h.ne, fun k' => by rw [Dict.get_set, Dict.get_set, h.get]⟩

theorem SameDict.erase {V : Type} {d e : Dict V} (h : SameDict d e) (k : String) :
    SameDict (d.erase k) (e.erase k) :=
  ⟨erase_nodupKeys _ h.nd _, erase_nodupKeys _ h.ne _, fun k' => by rw [Dict.get_erase, Dict.get_erase, h.get]⟩

theorem SameDict.update {V : Type} {d e d' e' : Dict V} (h : SameDict d e) (h' : SameDict d' e') :
    SameDict (d.update d') (e.update e') :=
  ⟨update_nodupKeys _ _ h.nd, update_nodupKeys _ _ h.ne, fun k' => by
    rw [Dict.get_update, Dict.get_update, Dict.get_reverse _ h'.nd, Dict.get_reverse _ h'.ne, h.get, h'.get]⟩

theorem SameDict.has {V : Type} {d e : Dict V} (h : SameDict d e) (k : String) : d.has k = e.has k := by
  unfold Dict.has; rw [h.get]

theorem perm_sameDict {V : Type} {d e : Dict V} (h : d ~ e) (hd : d.NodupKeys) : SameDict d e := by
  have he : e.NodupKeys := (h.map Prod.fst).nodup_iff.1 hd
  refine ⟨hd, he, fun k => ?_⟩
  cases hg : e.get k with
  | none =>
    rw [Dict.get_eq_none_iff] at hg ⊢
    exact fun hc => hg ((h.map Prod.fst).mem_iff.1 hc)
  | some v => exact dict_get_of_mem _ hd _ _ (h.mem_iff.2 (dict_mem_of_get _ _ _ hg))

/-! ## Binding of arguments -/

theorem zip_keys_sublist (l : List String) (m : List PV) : ((l.zip m).map Prod.fst) <+ l := by
  induction l generalizing m with
  | nil => simp
  | cons a l ih =>
    cases m with
    | nil => simp
    | cons b m => simpa using ih m

theorem bindKw_spec (s : Sig) (kw named extra : Dict PV) (hkw : kw.NodupKeys) (hn : named.NodupKeys)
    (he : extra.NodupKeys) (named' extra' : Dict PV) (h : bindKw s named extra kw = .ok (named', extra')) :
    named'.NodupKeys ∧ extra'.NodupKeys ∧
    (∀ k, named'.get k = (named.get k).or (if k ∈ s.names then kw.get k else none)) ∧
    (∀ k, extra'.get k = if k ∈ s.names then extra.get k else (kw.get k).or (extra.get k)) := by
  induction kw generalizing named extra with
  | nil =>
    unfold bindKw at h
    cases h
    exact ⟨hn, he, fun k => by simp, fun k => by simp⟩
  | cons p kw ih =>
    obtain ⟨k0, v⟩ := p
    have hkw' : Dict.NodupKeys kw := by
      unfold Dict.NodupKeys Dict.keys at hkw ⊢
      exact (List.nodup_cons.1 hkw).2
    have hk0 : Dict.get kw k0 = none := by
      rw [Dict.get_eq_none_iff]
      exact (List.nodup_cons.1 hkw).1
    unfold bindKw at h
    by_cases hm : k0 ∈ s.names
    · rw [if_pos hm] at h
      by_cases hh : named.has k0 = true
      · rw [if_pos hh] at h; cases h
      · rw [if_neg hh] at h
        have hnone : named.get k0 = none := by
          unfold Dict.has at hh; simpa using hh
        obtain ⟨i1, i2, i3, i4⟩ := ih _ _ hkw' (set_nodupKeys _ _ _ hn) he h
        refine ⟨i1, i2, fun k => ?_, fun k => ?_⟩
        · rw [i3, Dict.get_set]
          by_cases hk : k = k0
          · subst hk
            simp [hnone, hm, Dict.get]
          · simp [hk, Dict.get, Ne.symm hk]
        · rw [i4]
          by_cases hk : k = k0
          · subst hk; simp [hm]
          · simp [Dict.get, Ne.symm hk]
    · rw [if_neg hm] at h
      by_cases hv : s.varkw = true
      · rw [if_pos hv] at h
        obtain ⟨i1, i2, i3, i4⟩ := ih _ _ hkw' hn (set_nodupKeys _ _ _ he) h
        refine ⟨i1, i2, fun k => ?_, fun k => ?_⟩
        · rw [i3]
          by_cases hk : k = k0
          · subst hk; simp [hm]
          · simp [Dict.get, Ne.symm hk]
        · rw [i4, Dict.get_set]
          by_cases hk : k = k0
          · subst hk; simp [hm, hk0, Dict.get]
          · simp [hk, Dict.get, Ne.symm hk]
      · rw [if_neg hv] at h; cases h

theorem bindKw_accepts (s : Sig) (kw named extra : Dict PV) (hkw : kw.NodupKeys) :
    (∃ r, bindKw s named extra kw = .ok r) ↔
      ∀ k ∈ kw.keys, (k ∈ s.names ∧ named.get k = none) ∨ (k ∉ s.names ∧ s.varkw = true) := by
  induction kw generalizing named extra with
  | nil => simp [bindKw, Dict.keys]
  | cons p kw ih =>
    obtain ⟨k0, v⟩ := p
    have hkw' : Dict.NodupKeys kw := by
      unfold Dict.NodupKeys Dict.keys at hkw ⊢
      exact (List.nodup_cons.1 hkw).2
    have hk0 : k0 ∉ Dict.keys kw := (List.nodup_cons.1 hkw).1
    have hkeys : Dict.keys ((k0, v) :: kw) = k0 :: Dict.keys kw := rfl
    rw [hkeys, List.forall_mem_cons]
    unfold bindKw
    by_cases hm : k0 ∈ s.names
    · rw [if_pos hm]
      by_cases hh : named.has k0 = true
      · rw [if_pos hh]
        have : named.get k0 ≠ none := by
          unfold Dict.has at hh; intro hc; rw [hc] at hh; simp at hh
        simp [hm, this]
      · rw [if_neg hh, ih _ _ hkw']
        have hnone : named.get k0 = none := by
          unfold Dict.has at hh; simpa using hh
        have : ∀ k ∈ Dict.keys kw, (named.set k0 v).get k = named.get k := by
          intro k hk
          rw [Dict.get_set_ne]
          rintro rfl
          exact hk0 hk
        simp only [hm, hnone, true_and, not_true_eq_false, false_and, or_false]
        constructor
        · intro H k hk
          have h' := H k hk
          rw [this k hk] at h'
          exact h'
        · intro H k hk
          rw [this k hk]
          exact H k hk
    · rw [if_neg hm]
      by_cases hv : s.varkw = true
      · rw [if_pos hv, ih _ _ hkw']
        simp [hm, hv]
      · rw [if_neg hv]
        simp [hm, hv]

theorem fillDefaults_spec (ps : List (String × Option PV)) (named named' : Dict PV) (hn : named.NodupKeys)
    (h : fillDefaults ps named = .ok named') :
    named'.NodupKeys ∧ ∀ k, named'.get k = (named.get k).or (dflt ps k) := by
  induction ps generalizing named with
  | nil => unfold fillDefaults at h; cases h; exact ⟨hn, fun k => by simp [dflt]⟩
  | cons p ps ih =>
    obtain ⟨n, d⟩ := p
    unfold fillDefaults at h
    by_cases hh : named.has n = true
    · rw [if_pos hh] at h
      obtain ⟨i1, i2⟩ := ih _ hn h
      refine ⟨i1, fun k => ?_⟩
      rw [i2, dflt]
      by_cases hk : n = k
      · subst hk
        unfold Dict.has at hh
        obtain ⟨v, hv⟩ := Option.isSome_iff_exists.1 hh
        simp [hv]
      · simp [hk]
    · rw [if_neg hh] at h
      cases d with
      | none => cases h
      | some v =>
        simp only [] at h
        obtain ⟨i1, i2⟩ := ih _ (set_nodupKeys _ _ _ hn) h
        have hnone : named.get n = none := by
          unfold Dict.has at hh; simpa using hh
        refine ⟨i1, fun k => ?_⟩
        rw [i2, dflt, Dict.get_set]
        by_cases hk : n = k
        · subst hk; simp [hnone]
        · simp [hk, Ne.symm hk]

theorem fillDefaults_accepts (ps : List (String × Option PV)) (hp : (ps.map Prod.fst).Nodup)
    (named : Dict PV) :
    (∃ r, fillDefaults ps named = .ok r) ↔ ∀ k ∈ ps.map Prod.fst, (named.get k).or (dflt ps k) ≠ none := by
  induction ps generalizing named with
  | nil => simp [fillDefaults]
  | cons p ps ih =>
    obtain ⟨n, d⟩ := p
    rw [List.map_cons, List.nodup_cons] at hp
    rw [List.map_cons, List.forall_mem_cons]
    have hd : ∀ k ∈ ps.map Prod.fst, dflt ((n, d) :: ps) k = dflt ps k := by
      intro k hk
      have : n ≠ k := by rintro rfl; exact hp.1 hk
      simp [dflt, this]
    have hrest : ∀ nm : Dict PV, (∀ k, k ≠ n → nm.get k = named.get k) →
        ((∃ r, fillDefaults ps nm = .ok r) ↔
          ∀ k ∈ ps.map Prod.fst, (named.get k).or (dflt ((n, d) :: ps) k) ≠ none) := by
      intro nm hnm
      rw [ih hp.2 nm]
      constructor
      · intro H k hk
        rw [hd k hk, ← hnm k (by rintro rfl; exact hp.1 hk)]
        exact H k hk
      · intro H k hk
        have := H k hk
        rw [hd k hk, ← hnm k (by rintro rfl; exact hp.1 hk)] at this
        exact this
    unfold fillDefaults
    by_cases hh : named.has n = true
    · rw [if_pos hh, hrest named (fun _ _ => rfl)]
      unfold Dict.has at hh
      obtain ⟨v, hv⟩ := Option.isSome_iff_exists.1 hh
      simp [hv]
    · rw [if_neg hh]
      have hnone : named.get n = none := by
        unfold Dict.has at hh; simpa using hh
      cases d with
      | none => simp [hnone, dflt]
      | some v =>
        simp only []
        rw [hrest (named.set n v) (fun k hk => Dict.get_set_ne _ _ hk)]
        simp [hnone, dflt]

/-- The arguments bound by `getcallargs` are the effective arguments. -/
theorem getcallargs_spec (s : Sig) (hs : s.names.Nodup) (pos : List PV) (kw : Dict PV) (hkw : kw.NodupKeys)
    (named extra : Dict PV) (h : getcallargs s pos kw = .ok (named, extra)) :
    named.NodupKeys ∧ extra.NodupKeys ∧
    (∀ k, named.get k = if k ∈ s.names then effective s.params pos kw k else none) ∧
    ∀ k, extra.get k = if k ∈ s.names then none else effective s.params pos kw k := by
  unfold getcallargs at h
  split at h
  · cases h
  cases hb : bindKw s (s.names.zip pos) [] kw with
  | error e => rw [hb] at h; cases h
  | ok r =>
    obtain ⟨n1, e1⟩ := r
    rw [hb] at h
    simp only [] at h
    have hz : Dict.NodupKeys (s.names.zip pos) := hs.sublist (zip_keys_sublist _ _)
    obtain ⟨i1, i2, i3, i4⟩ := bindKw_spec s kw _ [] hkw hz (by simp [Dict.NodupKeys, Dict.keys]) _ _ hb
    cases hf : fillDefaults s.params n1 with
    | error e => rw [hf] at h; cases h
    | ok n2 =>
      rw [hf] at h
      cases h
      obtain ⟨j1, j2⟩ := fillDefaults_spec _ _ _ i1 hf
      refine ⟨j1, i2, fun k => ?_, fun k => ?_⟩
      · rw [j2, i3]
        by_cases hk : k ∈ s.names
        · rw [if_pos hk, if_pos hk, effective_mem _ _ _ _ hk, Option.or_assoc]
          rfl
        · rw [if_neg hk, if_neg hk]
          have h1 : Dict.get (s.names.zip pos) k = none := by
            rw [Dict.get_eq_none_iff]
            exact fun hc => hk ((zip_keys_sublist _ _).subset hc)
          have h2 : dflt s.params k = none := by
            have : ∀ ps : List (String × Option PV), k ∉ ps.map Prod.fst → dflt ps k = none := by
              intro ps
              induction ps with
              | nil => intro _; rfl
              | cons p ps ih =>
                intro hn
                simp only [List.map_cons, List.mem_cons, not_or] at hn
                simp [dflt, Ne.symm hn.1, ih hn.2]
            exact this _ hk
          rw [h1, h2]; rfl
      · rw [i4]
        by_cases hk : k ∈ s.names
        · rw [if_pos hk, if_pos hk]; rfl
        · rw [if_neg hk, if_neg hk, effective_not_mem _ _ _ _ hk]
          simp

/-- The calls Python accepts. -/
theorem C70_accepts (s : Sig) (hs : s.names.Nodup) (pos : List PV) (kw : Dict PV) (hkw : kw.NodupKeys) :
    (∃ r, getcallargs s pos kw = .ok r) ↔
      pos.length ≤ s.names.length ∧
      (∀ k ∈ kw.keys, (k ∈ s.names ∧ k ∉ s.names.take pos.length) ∨ (k ∉ s.names ∧ s.varkw = true)) ∧
      ∀ k ∈ s.names, effective s.params pos kw k ≠ none := by
  have hlen : s.names.length = s.params.length := by simp [Sig.names]
  unfold getcallargs
  by_cases hl : s.params.length < pos.length
  · rw [if_pos hl]
    constructor
    · rintro ⟨r, hr⟩; cases hr
    · rintro ⟨h, -⟩; omega
  rw [if_neg hl]
  have hle : pos.length ≤ s.names.length := by omega
  have hkeys : (s.names.zip pos).map Prod.fst = s.names.take pos.length := by
    clear hl hs hlen
    generalize s.names = l at hle
    induction l generalizing pos with
    | nil => simp
    | cons a l ih =>
      cases pos with
      | nil => simp
      | cons b pos => simpa using ih pos (by simpa using hle)
  have hget : ∀ k, Dict.get (s.names.zip pos) k = none ↔ k ∉ s.names.take pos.length := by
    intro k
    rw [Dict.get_eq_none_iff, ← hkeys]; rfl
  have hacc := bindKw_accepts s kw (s.names.zip pos) [] hkw
  simp only [hget] at hacc
  rw [← hacc]
  cases hb : bindKw s (s.names.zip pos) [] kw with
  | error e => simp
  | ok r =>
    obtain ⟨n1, e1⟩ := r
    have hz : Dict.NodupKeys (s.names.zip pos) := hs.sublist (zip_keys_sublist _ _)
    obtain ⟨i1, i2, i3, i4⟩ := bindKw_spec s kw _ [] hkw hz (by simp [Dict.NodupKeys, Dict.keys]) _ _ hb
    have hfa := fillDefaults_accepts s.params hs n1
    simp only []
    have heq : ∀ k ∈ s.names, (n1.get k).or (dflt s.params k) = effective s.params pos kw k := by
      intro k hk
      rw [i3, if_pos hk, effective_mem _ _ _ _ hk, Option.or_assoc]; rfl
    cases hfd : fillDefaults s.params n1 with
    | error e =>
      rw [hfd] at hfa
      have hfa' : ¬ ∀ k ∈ List.map Prod.fst s.params, (n1.get k).or (dflt s.params k) ≠ none :=
        fun hc => by obtain ⟨r, hr⟩ := hfa.2 hc; cases hr
      constructor
      · rintro ⟨r, hr⟩; cases hr
      · rintro ⟨-, -, H⟩
        exact absurd (fun k hk => by rw [heq k hk]; exact H k hk) hfa'
    | ok n2 =>
      constructor
      · intro _
        exact ⟨hle, ⟨_, rfl⟩, fun k hk => by rw [← heq k hk]; exact hfa.1 ⟨_, hfd⟩ k hk⟩
      · intro _
        exact ⟨_, rfl⟩

theorem getcallargs_error (s : Sig) (pos : List PV) (kw : Dict PV) (e : PyErr)
    (h : getcallargs s pos kw = .error e) : e = .typeError := by
  unfold getcallargs at h
  split at h
  · cases h; rfl
  · have hb : ∀ kw n x e, bindKw s n x kw = .error e → e = .typeError := by
      intro kw
      induction kw with
      | nil => intro n x e h; cases h
      | cons p kw ih =>
        obtain ⟨k, v⟩ := p
        intro n x e h
        unfold bindKw at h
        split at h
        · split at h
          · cases h; rfl
          · exact ih _ _ _ h
        · split at h
          · exact ih _ _ _ h
          · cases h; rfl
    have hf : ∀ ps n e, fillDefaults ps n = .error e → e = .typeError := by
      intro ps
      induction ps with
      | nil => intro n e h; cases h
      | cons p ps ih =>
        obtain ⟨k, d⟩ := p
        intro n e h
        unfold fillDefaults at h
        split at h
        · exact ih _ _ h
        · cases d with
          | none => cases h; rfl
          | some v => exact ih _ _ h
    split at h
    · rename_i e' he
      cases h
      exact hb _ _ _ _ he
    · split at h
      · rename_i e' he
        cases h
        exact hf _ _ _ he
      · cases h

/-! ## The text -/

theorem insertionSort_perm (l m : List Str) (h : l ~ m) :
    l.insertionSort (· ≤ ·) = m.insertionSort (· ≤ ·) :=
  List.Perm.eq_of_pairwise (fun _ _ _ _ h1 h2 => le_antisymm h1 h2)
    (List.pairwise_insertionSort (· ≤ ·) l) (List.pairwise_insertionSort (· ≤ ·) m)
    (((List.perm_insertionSort (· ≤ ·) l).trans h).trans (List.perm_insertionSort (· ≤ ·) m).symm)

theorem infoText_same (version : Str) (s : Sig) (d e : Dict PV) (h : SameDict d e) :
    infoText version s d = infoText version s e := by
  unfold infoText
  rw [insertionSort_perm _ _ (h.perm.map fmtArg)]

theorem replaceBoxes_same (d e : Dict PV) (h : SameDict d e) :
    (∃ x, replaceBoxes d = .error x ∧ replaceBoxes e = .error x) ∨
    ∃ d' e', replaceBoxes d = .ok d' ∧ replaceBoxes e = .ok e' ∧ SameDict d' e' := by
  have hr := h.erase "boxes"
  unfold replaceBoxes
  rw [h.get "boxes"]
  simp only []
  split
  · exact Or.inr ⟨_, _, rfl, rfl, hr⟩
  · exact Or.inr ⟨_, _, rfl, rfl, hr⟩
  · exact Or.inr ⟨_, _, rfl, rfl, hr⟩
  · exact Or.inl ⟨_, rfl, rfl⟩
  · exact Or.inr ⟨_, _, rfl, rfl, hr⟩
  · exact Or.inl ⟨_, rfl, rfl⟩
  · exact Or.inr ⟨_, _, rfl, rfl, hr⟩
  · rename_i b _ _
    cases b.profile with
    | none => exact Or.inl ⟨_, rfl, rfl⟩
    | some p => exact Or.inr ⟨_, _, rfl, rfl, ((hr.set _ _).set _ _).set _ _⟩

theorem dropStream_same (d e : Dict PV) (h : SameDict d e) :
    (∃ x, dropStream d = .error x ∧ dropStream e = .error x) ∨
    ∃ d' e', dropStream d = .ok d' ∧ dropStream e = .ok e' ∧ SameDict d' e' := by
  have hr := h.erase "self"
  unfold dropStream
  rw [h.get "self"]
  simp only []
  rw [hr.has "stream"]
  split
  · split
    · exact Or.inr ⟨_, _, rfl, rfl, hr.erase _⟩
    · exact Or.inl ⟨_, rfl, rfl⟩
  · split
    · exact Or.inr ⟨_, _, rfl, rfl, hr.erase _⟩
    · exact Or.inl ⟨_, rfl, rfl⟩
  · exact Or.inr ⟨_, _, rfl, rfl, hr⟩

/-- **C70** Two accepted calls with the same effective arguments have the same processing entry (or both raise
the same exception), no matter how the arguments are passed. -/
theorem C70_canonical (version : Str) (s : Sig) (hs : s.names.Nodup) (pos pos' : List PV) (kw kw' : Dict PV)
    (hkw : kw.NodupKeys) (hkw' : kw'.NodupKeys) (r r' : Dict PV × Dict PV)
    (hr : getcallargs s pos kw = .ok r) (hr' : getcallargs s pos' kw' = .ok r')
    (heff : ∀ k, effective s.params pos kw k = effective s.params pos' kw' k) :
    procInfo version s pos kw = procInfo version s pos' kw' := by
  obtain ⟨n, x⟩ := r
  obtain ⟨n', x'⟩ := r'
  obtain ⟨i1, i2, i3, i4⟩ := getcallargs_spec s hs pos kw hkw n x hr
  obtain ⟨j1, j2, j3, j4⟩ := getcallargs_spec s hs pos' kw' hkw' n' x' hr'
  have hn : SameDict n n' := ⟨i1, j1, fun k => by rw [i3, j3, heff]⟩
  have hx : SameDict x x' := ⟨i2, j2, fun k => by rw [i4, j4, heff]⟩
  unfold procInfo
  rw [hr, hr']
  simp only []
  rcases dropStream_same n n' hn with ⟨e, h1, h2⟩ | ⟨d, d', h1, h2, h3⟩
  · rw [h1, h2]
  · rw [h1, h2]
    simp only []
    rcases replaceBoxes_same _ _ (hx.update h3) with ⟨e, h4, h5⟩ | ⟨f, f', h4, h5, h6⟩
    · rw [h4, h5]
    · rw [h4, h5]
      simp only []
      rw [infoText_same version s f f' h6]

/-- **C70** The order of keyword arguments does not matter. -/
theorem C70_keyword_order (version : Str) (s : Sig) (hs : s.names.Nodup) (pos : List PV) (kw kw' : Dict PV)
    (hkw : kw.NodupKeys) (h : kw ~ kw') : procInfo version s pos kw = procInfo version s pos kw' := by
  have hsame := perm_sameDict h hkw
  have heff : ∀ k, effective s.params pos kw k = effective s.params pos kw' k := by
    intro k
    by_cases hk : k ∈ s.names
    · rw [effective_mem _ _ _ _ hk, effective_mem _ _ _ _ hk, hsame.get]
    · rw [effective_not_mem _ _ _ _ hk, effective_not_mem _ _ _ _ hk, hsame.get]
  have hacc : (∃ r, getcallargs s pos kw = .ok r) ↔ ∃ r, getcallargs s pos kw' = .ok r := by
    rw [C70_accepts s hs pos kw hkw, C70_accepts s hs pos kw' hsame.ne]
    have : ∀ k, k ∈ kw.keys ↔ k ∈ kw'.keys := fun k => (h.map Prod.fst).mem_iff
    simp only [this, heff]
  cases h1 : getcallargs s pos kw with
  | error e =>
    cases h2 : getcallargs s pos kw' with
    | error e' =>
      have := getcallargs_error _ _ _ _ h1
      have := getcallargs_error _ _ _ _ h2
      subst e e'
      unfold procInfo
      rw [h1, h2]
    | ok r' =>
      obtain ⟨r, hr⟩ := hacc.2 ⟨r', h2⟩
      rw [h1] at hr; cases hr
  | ok r =>
    obtain ⟨r', hr'⟩ := hacc.1 ⟨r, h1⟩
    exact C70_canonical version s hs pos pos kw kw' hkw hsame.ne r r' h1 hr' heff

theorem effective_positional (ps : List (String × Option PV)) (hp : (ps.map Prod.fst).Nodup) (pos : List PV)
    (n : String) (v : PV) (kw : Dict PV) (hn : (ps.map Prod.fst)[pos.length]? = some n) (k : String) :
    effective ps (pos ++ [v]) kw k = effective ps pos ((n, v) :: kw) k := by
  induction ps generalizing pos with
  | nil => simp at hn
  | cons p ps ih =>
    obtain ⟨m, d⟩ := p
    rw [List.map_cons, List.nodup_cons] at hp
    cases pos with
    | nil =>
      simp only [List.map_cons, List.length_nil, List.getElem?_cons_zero, Option.some.injEq] at hn
      subst hn
      by_cases hk : m = k
      · subst hk; simp [effective, Dict.get]
      · simp only [List.nil_append, effective, hk, if_false]
        by_cases hm : k ∈ ps.map Prod.fst
        · rw [effective_mem _ _ _ _ hm, effective_mem _ _ _ _ hm]; simp [Dict.get, hk]
        · rw [effective_not_mem _ _ _ _ hm, effective_not_mem _ _ _ _ hm]; simp [Dict.get, hk]
    | cons w pos =>
      simp only [List.map_cons, List.length_cons, List.getElem?_cons_succ] at hn
      simp only [List.cons_append, effective]
      rw [ih hp.2 pos hn]

/-- **C70** Passing the next parameter by position or by its name gives the same entry. -/
theorem C70_position_or_keyword (version : Str) (s : Sig) (hs : s.names.Nodup) (pos : List PV) (v : PV)
    (kw : Dict PV) (n : String) (hn : s.names[pos.length]? = some n) (hkw : Dict.NodupKeys ((n, v) :: kw))
    (r : Dict PV × Dict PV) (hr : getcallargs s (pos ++ [v]) kw = .ok r) :
    procInfo version s (pos ++ [v]) kw = procInfo version s pos ((n, v) :: kw) := by
  have hkw1 : kw.NodupKeys := (List.nodup_cons.1 hkw).2
  have heff := effective_positional s.params hs pos n v kw hn
  obtain ⟨a1, a2, a3⟩ := (C70_accepts s hs _ _ hkw1).1 ⟨r, hr⟩
  have hlt : pos.length < s.names.length := by
    rw [List.length_append, List.length_singleton] at a1; omega
  have hnm : n ∈ s.names := List.mem_of_getElem? hn
  obtain ⟨r', hr'⟩ : ∃ r', getcallargs s pos ((n, v) :: kw) = .ok r' := by
    rw [C70_accepts s hs _ _ hkw]
    refine ⟨by omega, ?_, fun k hk => by rw [← heff]; exact a3 k hk⟩
    intro k hk
    rcases List.mem_cons.1 hk with hk | hk
    · rw [show k = n from hk]
      refine Or.inl ⟨hnm, fun hc => ?_⟩
      obtain ⟨i, hi, hi'⟩ := List.getElem_of_mem hc
      rw [List.getElem_take] at hi'
      rw [List.length_take] at hi
      have := (List.getElem?_eq_some_iff.1 hn)
      obtain ⟨h1, h2⟩ := this
      have : i = pos.length := (hs.getElem_inj_iff).1 (hi'.trans h2.symm)
      omega
    · rcases a2 k hk with ⟨h1, h2⟩ | h
      · refine Or.inl ⟨h1, fun hc => h2 ?_⟩
        exact (List.take_sublist_take_left (by rw [List.length_append]; omega)).subset hc
      · exact Or.inr h
  exact C70_canonical version s hs _ _ _ _ hkw1 hkw r r' hr hr' heff

/-- **C70** Passing the default explicitly gives the same entry as leaving the parameter out. -/
theorem C70_default (version : Str) (s : Sig) (hs : s.names.Nodup) (pos : List PV) (v : PV)
    (kw : Dict PV) (n : String) (hn : n ∈ s.names) (hnp : n ∉ s.names.take pos.length)
    (hd : dflt s.params n = some v) (hkw : Dict.NodupKeys ((n, v) :: kw))
    (r : Dict PV × Dict PV) (hr : getcallargs s pos kw = .ok r) :
    procInfo version s pos ((n, v) :: kw) = procInfo version s pos kw := by
  have hkw1 : kw.NodupKeys := (List.nodup_cons.1 hkw).2
  have hnk : Dict.get kw n = none := by
    rw [Dict.get_eq_none_iff]; exact (List.nodup_cons.1 hkw).1
  have heff : ∀ k, effective s.params pos ((n, v) :: kw) k = effective s.params pos kw k := by
    intro k
    by_cases hk : n = k
    · subst hk
      rw [effective_mem _ _ _ _ hn, effective_mem _ _ _ _ hn, hd, hnk]
      simp [Dict.get]
    · by_cases hm : k ∈ s.names
      · rw [effective_mem _ _ _ _ hm, effective_mem _ _ _ _ hm]; simp [Dict.get, hk]
      · rw [effective_not_mem _ _ _ _ hm, effective_not_mem _ _ _ _ hm]; simp [Dict.get, hk]
  obtain ⟨a1, a2, a3⟩ := (C70_accepts s hs _ _ hkw1).1 ⟨r, hr⟩
  obtain ⟨r', hr'⟩ : ∃ r', getcallargs s pos ((n, v) :: kw) = .ok r' := by
    rw [C70_accepts s hs _ _ hkw]
    refine ⟨a1, ?_, fun k hk => by rw [heff]; exact a3 k hk⟩
    intro k hk
    rcases List.mem_cons.1 hk with hk | hk
    · rw [show k = n from hk]
      exact Or.inl ⟨hn, hnp⟩
    · exact a2 k hk
  exact C70_canonical version s hs _ _ _ _ hkw hkw1 r' r hr' hr heff

/-! ## The decorated call -/

section
variable {K : Type} [Field K] [LinearOrder K] [IsStrictOrderedRing K] [FloorRing K]

/-- **C70** If the entry can be computed and the function returns a stream of distinct traces with less than
100 processing entries, the entry is appended exactly once to each of them, and nothing else changes. -/
theorem C70_appended (version : Str) (s : Sig) (f : Heap K → Heap K × Res Ret) (pos : List PV) (kw : Dict PV)
    (h h' : Heap K) (st : List Nat) (info : Str) (hi : procInfo version s pos kw = .ok info)
    (hf : f h = (h', .ok (.stream st))) (hn : st.Nodup) (hp : ∀ r ∈ st, ShortHistory 100 (h' r)) :
    (decorated version s f pos kw h).2 = .ok (.stream st) ∧
    ∀ r, (r ∈ st → processingOf ((decorated version s f pos kw h).1 r) = processingOf (h' r) ++ [info]) ∧
      (∀ k, k ≠ "processing" → ((decorated version s f pos kw h).1 r).ext.get k = (h' r).ext.get k) ∧
      ((decorated version s f pos kw h).1 r).data = (h' r).data := by
  have hd : decorated version s f pos kw h = (addInfoAll info h' st, .ok (.stream st)) := by
    unfold decorated
    rw [hi]
    simp only []
    rw [hf]
  rw [hd]
  exact ⟨rfl, fun r => ⟨fun hr => addInfoAll_mem info h' st hn hp r hr,
    fun k hk => addInfoAll_get info h' st r k hk, (addInfoAll_rest info h' st r).1⟩⟩

/-- **C70, failures, part that holds**: once the entry is computed, the decorated function returns what the
function returns, whatever happens while the entry is added to the traces; data, times and all other headers
are those left by the function.  Missing: exceptions while the entry is computed (`C70_counterexample`). -/
theorem C70_transparent_partial (version : Str) (s : Sig) (f : Heap K → Heap K × Res Ret) (pos : List PV)
    (kw : Dict PV) (h : Heap K) (info : Str) (hi : procInfo version s pos kw = .ok info) :
    (decorated version s f pos kw h).2 = (f h).2 ∧
    ∀ r, ((decorated version s f pos kw h).1 r).data = ((f h).1 r).data ∧
      ((decorated version s f pos kw h).1 r).start = ((f h).1 r).start ∧
      ((decorated version s f pos kw h).1 r).sr = ((f h).1 r).sr ∧
      ((decorated version s f pos kw h).1 r).id = ((f h).1 r).id ∧
      ∀ k, k ≠ "processing" → ((decorated version s f pos kw h).1 r).ext.get k = ((f h).1 r).ext.get k := by
  unfold decorated
  rw [hi]
  simp only []
  split
  · rename_i h' st hf
    rw [hf]
    refine ⟨rfl, fun r => ?_⟩
    obtain ⟨e1, e2, e3, -, e5⟩ := addInfoAll_rest info h' st r
    exact ⟨e1, e2, e3, e5, fun k hk => addInfoAll_get info h' st r k hk⟩
  · exact ⟨rfl, fun r => ⟨rfl, rfl, rfl, rfl, fun _ _ => rfl⟩⟩

/-- **C70** The entry of an accepted call can be computed unless the `boxes` argument is a true value whose
first element has no profile. -/
theorem C70_computable (version : Str) (s : Sig) (hs : s.names.Nodup) (pos : List PV) (kw : Dict PV)
    (hkw : kw.NodupKeys) (r : Dict PV × Dict PV) (hr : getcallargs s pos kw = .ok r)
    (hstream : "stream" ∈ s.names ∨ ∃ v, "self" ∈ s.names ∧ effective s.params pos kw "self" = some v ∧ v ≠ .none)
    (hbox : effective s.params pos kw "boxes" = none ∨
      ∃ b l p, effective s.params pos kw "boxes" = some (.boxes (b :: l)) ∧ b.profile = some p) :
    ∃ info, procInfo version s pos kw = .ok info := by
  obtain ⟨n, x⟩ := r
  obtain ⟨i1, i2, i3, i4⟩ := getcallargs_spec s hs pos kw hkw n x hr
  have hacc := ((C70_accepts s hs _ _ hkw).1 ⟨_, hr⟩).2.2
  have hds : ∃ d, dropStream n = .ok d ∧ d.NodupKeys ∧ d.get "boxes" = n.get "boxes" := by
    have hb1 : (n.erase "self").get "boxes" = n.get "boxes" := by rw [Dict.get_erase]; simp
    have hb2 : ((n.erase "self").erase "stream").get "boxes" = n.get "boxes" := by
      rw [Dict.get_erase, hb1]; simp
    have hn1 := erase_nodupKeys n i1 "self"
    have hn2 := erase_nodupKeys _ hn1 "stream"
    by_cases hself : ∃ v, n.get "self" = some v ∧ v ≠ .none
    · obtain ⟨v, hv, hv'⟩ := hself
      refine ⟨n.erase "self", ?_, hn1, hb1⟩
      unfold dropStream
      rw [hv]
      cases v <;> first | (exact absurd rfl hv') | rfl
    · have hst : "stream" ∈ s.names := by
        rcases hstream with h | ⟨v, h1, h2, h3⟩
        · exact h
        · exact absurd ⟨v, by rw [i3, if_pos h1, h2], h3⟩ hself
      have hhas : (n.erase "self").has "stream" = true := by
        unfold Dict.has
        rw [Dict.get_erase, if_neg (by decide), i3, if_pos hst]
        exact Option.isSome_iff_ne_none.2 (hacc _ hst)
      refine ⟨(n.erase "self").erase "stream", ?_, hn2, hb2⟩
      unfold dropStream
      simp only []
      cases hsv : n.get "self" with
      | none => simp only [hhas, if_true]
      | some v =>
        cases v with
        | none => simp only [hhas, if_true]
        | str t => exact absurd ⟨_, hsv, by simp⟩ hself
        | obj t b => exact absurd ⟨_, hsv, by simp⟩ hself
        | boxes l => exact absurd ⟨_, hsv, by simp⟩ hself
  obtain ⟨d, h1, h2, h3⟩ := hds
  have hbx : (x.update d).get "boxes" = effective s.params pos kw "boxes" := by
    rw [Dict.get_update, Dict.get_reverse _ h2, h3, i3, i4]
    by_cases hk : "boxes" ∈ s.names
    · simp [hk]
    · simp [hk]
  unfold procInfo
  rw [hr]
  simp only []
  rw [h1]
  simp only []
  unfold replaceBoxes
  rw [hbx]
  rcases hbox with h | ⟨b, l, p, h, hp⟩
  · rw [h]; exact ⟨_, rfl⟩
  · rw [h]
    simp only []
    rw [hp]
    exact ⟨_, rfl⟩

end

/-! ## Cases -/

/-- The decorated functions have distinct parameter names. -/
theorem sig_names_nodup : ∀ s ∈ [sigDeconvolve, sigHarmonics, sigProfile, sigRf, sigMoveout, sigStack],
    s.names.Nodup := by decide +kernel

/-- Boxes as returned by `get_profile_boxes`: the profile is stored in the first one only. -/
def exInfoBoxes : List Box :=
  [⟨"b0".toList, some ("(1, 2)".toList, "90".toList, "(0, 9)".toList)⟩, ⟨"b1".toList, none⟩, ⟨"b2".toList, none⟩]

/-- `st.moveout('Ps', model='prem')`, `st.moveout(model='prem', phase='Ps', ref=6.4)`. -/
example : procInfo "1.0".toList sigMoveout [.obj "st".toList true, pv "Ps"] [("model", pv "prem")] =
      .ok "rf 1.0: moveout(model='prem'::phase='Ps'::ref=6.4)".toList ∧
    procInfo "1.0".toList sigMoveout [.obj "st".toList true]
      [("model", pv "prem"), ("phase", pv "Ps"), ("ref", .obj "6.4".toList true)] =
      .ok "rf 1.0: moveout(model='prem'::phase='Ps'::ref=6.4)".toList := by decide +kernel

/-- `profile(stream, boxes)`: the entry contains the profile parameters instead of the boxes. -/
example : procInfo "1.0".toList sigProfile [.obj "st".toList true, .boxes exInfoBoxes] [] =
    .ok "rf 1.0: profile(azimuth=90::crs=None::latlon=(1, 2)::length=(0, 9))".toList := by decide +kernel

/-- **C70 is false for failures**: `profile(stream, boxes[1:])` raises `KeyError` because the entry cannot be
computed, the function is not called and the stream is unchanged, although the function would return a
profile. -/
theorem C70_counterexample :
    (decorated "1.0".toList sigProfile (fun h : Heap ℚ => (h, .ok (.stream [5])))
      [.obj "st".toList true, .boxes exInfoBoxes.tail] [] (fun _ => ⟨[], [], [], [], 0, 1, [], []⟩)).2 =
      .error .keyError := by decide +kernel

end Verif.Props
