import Verif.Spec.Json
import Verif.Props.HeaderRoundtrip

/-!
# C180: headers written as JSON text are read back unchanged
-/

set_option linter.unusedSimpArgs false
set_option linter.unusedSectionVars false

namespace Verif.Props
open Verif.Py Verif.Model Verif.Model.JsonText Verif.Spec

theorem hexVal_hexDigit (d : ℕ) (h : d < 16) : hexVal (hexDigit d) = some d := by
  have : ∀ d < 16, hexVal (hexDigit d) = some d := by decide
  exact this d h

theorem parseHex4_hex4 (n : ℕ) (h : n < 65536) (r : Str) : parseHex4 (hex4 n ++ r) = some (n, r) := by
  have h1 : n / 4096 % 16 < 16 := Nat.mod_lt _ (by norm_num)
  have h2 : n / 256 % 16 < 16 := Nat.mod_lt _ (by norm_num)
  have h3 : n / 16 % 16 < 16 := Nat.mod_lt _ (by norm_num)
  have h4 : n % 16 < 16 := Nat.mod_lt _ (by norm_num)
  simp only [hex4, List.cons_append, List.nil_append, parseHex4, hexVal_hexDigit _ h1, hexVal_hexDigit _ h2,
    hexVal_hexDigit _ h3, hexVal_hexDigit _ h4]
  have : ((n / 4096 % 16 * 16 + n / 256 % 16) * 16 + n / 16 % 16) * 16 + n % 16 = n := by omega
  rw [this]

theorem char_not_surrogate (c : Char) : ¬ (55296 ≤ c.toNat ∧ c.toNat ≤ 57343) := by
  have := c.valid
  have h : c.toNat < 0xd800 ∨ (0xdfff < c.toNat ∧ c.toNat < 0x110000) := this
  omega

theorem char_lt (c : Char) : c.toNat < 1114112 := by
  have := c.valid
  have h : c.toNat < 0xd800 ∨ (0xdfff < c.toNat ∧ c.toNat < 0x110000) := this
  omega

theorem ofNat_eq (c : Char) (n : ℕ) (h : c.toNat = n) : Char.ofNat n = c := by
  rw [← h]; exact Char.ofNat_toNat c

theorem unescape_u (e r : Str) (c : Char) (q : Str) (h : parseUnicode (e ++ r) = some (c, q)) :
    unescape (('u' :: e) ++ r) = some (c, q) := by
  simp [unescape, h]

theorem pair_arith (m : ℕ) (h1 : 65536 ≤ m) (h2 : m < 1114112) :
    55296 + (m - 65536) / 1024 ≤ 56319 ∧ 56320 + (m - 65536) % 1024 ≤ 57343 ∧
    65536 + (55296 + (m - 65536) / 1024 - 55296) * 1024 + (56320 + (m - 65536) % 1024 - 56320) = m := by
  omega

theorem parseUnicode_bmp (c : Char) (h : c.toNat < 65536) (r : Str) :
    parseUnicode (hex4 c.toNat ++ r) = some (c, r) := by
  have hs := char_not_surrogate c
  have h1 : ¬ (55296 ≤ c.toNat ∧ c.toNat ≤ 56319) := by omega
  have h2 : ¬ (56320 ≤ c.toNat ∧ c.toNat ≤ 57343) := by omega
  unfold parseUnicode
  rw [parseHex4_hex4 _ h r]
  dsimp only
  rw [if_neg h1, if_neg h2, Char.ofNat_toNat]

theorem parseUnicode_two (n m : ℕ) (c : Char) (s r r' : Str) (h0 : parseHex4 s = some (n, '\\' :: 'u' :: r'))
    (h0' : parseHex4 r' = some (m, r)) (h1 : 55296 ≤ n ∧ n ≤ 56319) (h2 : 56320 ≤ m ∧ m ≤ 57343)
    (h3 : 65536 + (n - 55296) * 1024 + (m - 56320) = c.toNat) : parseUnicode s = some (c, r) := by
  unfold parseUnicode
  rw [h0]
  dsimp only
  rw [if_pos h1]
  have h5 : ∀ q : Str, afterWord ['\\', 'u'] ('\\' :: 'u' :: q) = some q := fun q => rfl
  rw [h5]
  dsimp only
  rw [h0']
  dsimp only
  rw [if_pos h2, h3, Char.ofNat_toNat]

theorem parseUnicode_pair (c : Char) (h : ¬ c.toNat < 65536) (r : Str) :
    parseUnicode ((hex4 (55296 + (c.toNat - 65536) / 1024) ++
      '\\' :: 'u' :: hex4 (56320 + (c.toNat - 65536) % 1024)) ++ r) = some (c, r) := by
  obtain ⟨a1, a2, a3⟩ := pair_arith c.toNat (Nat.le_of_not_lt h) (char_lt c)
  generalize hx : 55296 + (c.toNat - 65536) / 1024 = x at a1 a3
  generalize hy : 56320 + (c.toNat - 65536) % 1024 = y at a2 a3
  have h3 : x < 65536 := lt_of_le_of_lt a1 (by norm_num)
  have h4 : y < 65536 := lt_of_le_of_lt a2 (by norm_num)
  have h1 : 55296 ≤ x := hx ▸ Nat.le_add_right _ _
  have h2 : 56320 ≤ y := hy ▸ Nat.le_add_right _ _
  refine parseUnicode_two x y c _ r (hex4 y ++ r) ?_ (parseHex4_hex4 y h4 r) ⟨h1, a1⟩ ⟨h2, a2⟩ a3
  rw [List.append_assoc, List.cons_append, List.cons_append]
  exact parseHex4_hex4 x h3 _

/-- A character which is escaped is found again behind the backslash. -/
theorem escapeChar_cases (c : Char) :
    (escapeChar c = [c] ∧ c ≠ '"' ∧ c ≠ '\\' ∧ ¬ c.toNat < 32) ∨
      ∃ e, escapeChar c = '\\' :: e ∧ ∀ r, unescape (e ++ r) = some (c, r) := by
  unfold escapeChar
  split
  · rename_i h; subst h; right; exact ⟨_, rfl, fun r => by simp [unescape]⟩
  split
  · rename_i h; subst h; right; exact ⟨_, rfl, fun r => by simp [unescape]⟩
  split
  · rename_i h; subst h; right; exact ⟨_, rfl, fun r => by simp [unescape]⟩
  split
  · rename_i h; subst h; right; exact ⟨_, rfl, fun r => by simp [unescape]⟩
  split
  · rename_i h; subst h; right; exact ⟨_, rfl, fun r => by simp [unescape]⟩
  split
  · rename_i h; right; exact ⟨_, rfl, fun r => by simp [unescape]; exact ofNat_eq c 8 h⟩
  split
  · rename_i h; right; exact ⟨_, rfl, fun r => by simp [unescape]; exact ofNat_eq c 12 h⟩
  split
  · rename_i h1 h2 _ _ _ _ _ h; left; exact ⟨rfl, h1, h2, by omega⟩
  split
  · rename_i h
    right
    exact ⟨_, rfl, fun r => unescape_u _ r _ _ (parseUnicode_bmp c h r)⟩
  · rename_i h
    right
    exact ⟨_, rfl, fun r => unescape_u _ r _ _ (parseUnicode_pair c h r)⟩

theorem escapeChar_pos (c : Char) : 0 < (escapeChar c).length := by
  rcases escapeChar_cases c with ⟨h, _⟩ | ⟨e, h, _⟩ <;> rw [h] <;> simp

/-- Strings of all characters come back. -/
theorem parseString_escape (s : Str) (n : ℕ) (hn : (escape s).length < n) (r : Str) :
    parseString n (escape s ++ '"' :: r) = some (s, r) := by
  induction s generalizing n with
  | nil =>
    obtain ⟨n, rfl⟩ := Nat.exists_eq_succ_of_ne_zero (by omega : n ≠ 0)
    simp [escape, parseString]
  | cons c s ih =>
    obtain ⟨n, rfl⟩ := Nat.exists_eq_succ_of_ne_zero (by omega : n ≠ 0)
    have hp := escapeChar_pos c
    simp only [escape, List.length_append] at hn
    have h := ih n (by omega)
    rcases escapeChar_cases c with ⟨h1, h2, h3, h4⟩ | ⟨e, h1, h2⟩
    · simp only [escape, h1, List.cons_append, List.nil_append, parseString, if_neg h2, if_neg h3, if_neg h4, h]
    · have h5 : ('\\' : Char) ≠ '"' := by decide
      simp only [escape, h1, List.cons_append, List.append_assoc, parseString, if_neg h5, if_true, h2, h]

/-! ### Numbers -/

theorem digits_append (a r : Str) (ha : (digits a).2 = []) (hr : EndsNumber r) :
    digits (a ++ r) = ((digits a).1, r) := by
  induction a with
  | nil =>
    cases r with
    | nil => rfl
    | cons c r => simp [digits, (hr c rfl).1]
  | cons c a ih =>
    simp only [digits] at ha
    split at ha
    · rename_i h; simp [digits, h, ih ha]
    · simp at ha

theorem digits_append_ne (a r : Str) (ha : (digits a).2 ≠ []) :
    digits (a ++ r) = ((digits a).1, (digits a).2 ++ r) := by
  induction a with
  | nil => simp [digits] at ha
  | cons c a ih =>
    simp only [digits] at ha
    split at ha
    · rename_i h; simp [digits, h, ih ha]
    · rename_i h; simp [digits, h]

theorem digits_app (a r : Str) (hr : EndsNumber r) : digits (a ++ r) = ((digits a).1, (digits a).2 ++ r) := by
  by_cases h : (digits a).2 = []
  · rw [digits_append a r h hr, h]; rfl
  · exact digits_append_ne a r h

theorem lexSign_append (a r : Str) (ha : a ≠ []) : lexSign (a ++ r) = ((lexSign a).1, (lexSign a).2 ++ r) := by
  cases a with
  | nil => exact absurd rfl ha
  | cons c a =>
    by_cases h : c = '-'
    · subst h; rfl
    · rw [List.cons_append]
      have : ∀ q : Str, lexSign (c :: q) = ([], c :: q) := by
        intro q
        unfold lexSign
        split
        · rename_i h1; injection h1 with h1 _; exact absurd h1 h
        · rfl
      rw [this, this]; rfl

theorem lexInt_append (a r : Str) (hr : EndsNumber r) (i q : Str) (h : lexInt a = some (i, q)) :
    lexInt (a ++ r) = some (i, q ++ r) := by
  cases a with
  | nil => simp [lexInt] at h
  | cons c a =>
    simp only [lexInt, List.cons_append] at h ⊢
    split at h
    · rename_i hc; cases h; simp [hc]
    · rename_i hc
      split at h
      · rename_i hd; cases h; simp [hc, hd, digits_app a r hr]
      · cases h

theorem lexFrac_append (a r : Str) (hr : EndsNumber r) :
    lexFrac (a ++ r) = ((lexFrac a).1, (lexFrac a).2 ++ r) := by
  have hother : ∀ (c : Char) (q : Str), c ≠ '.' → lexFrac (c :: q) = ([], c :: q) := by
    intro c q h
    unfold lexFrac
    split
    · rename_i h1; injection h1 with h1 _; exact absurd h1 h
    · rfl
  cases a with
  | nil =>
    cases r with
    | nil => rfl
    | cons c r => rw [List.nil_append, hother c r (hr c rfl).2.1]; rfl
  | cons c a =>
    by_cases h : c = '.'
    · subst h
      simp only [List.cons_append, lexFrac, digits_app a r hr]
      split <;> rfl
    · rw [List.cons_append, hother c _ h, hother c _ h]; rfl

theorem lexExpSign_append (a r : Str) (ha : a ≠ []) :
    lexExpSign (a ++ r) = ((lexExpSign a).1, (lexExpSign a).2 ++ r) := by
  cases a with
  | nil => exact absurd rfl ha
  | cons c a => simp only [List.cons_append, lexExpSign]; split <;> rfl

theorem lexExp_append (a r : Str) (hr : EndsNumber r) (h : (lexExp a).2 = []) :
    lexExp (a ++ r) = ((lexExp a).1, r) := by
  cases a with
  | nil =>
    cases r with
    | nil => rfl
    | cons c r =>
      have := hr c rfl
      simp [lexExp, this.2.2.1, this.2.2.2]
  | cons c a =>
    simp only [lexExp] at h
    split at h
    · rename_i hc
      split at h
      · simp at h
      · rename_i hd
        have ha : a ≠ [] := by rintro rfl; simp [lexExpSign, digits] at hd
        simp only [List.cons_append, lexExp, if_pos hc, lexExpSign_append a r ha, digits_app _ r hr, if_neg hd]
        simp only at h
        rw [h]; rfl
    · simp at h

theorem lexNumber_append (a r : Str) (h : lexNumber a = some (a, [])) (hr : EndsNumber r) :
    lexNumber (a ++ r) = some (a, r) := by
  have ha : a ≠ [] := by rintro rfl; simp [lexNumber, lexSign, lexInt] at h
  unfold lexNumber at h ⊢
  rw [lexSign_append a r ha]
  cases hi : lexInt (lexSign a).2 with
  | none => rw [hi] at h; cases h
  | some p =>
    obtain ⟨i, q⟩ := p
    rw [hi] at h
    simp only [Option.some.injEq, Prod.mk.injEq] at h
    simp only [lexInt_append _ r hr i q hi, lexFrac_append q r hr, lexExp_append _ r hr h.2]
    simp only [h.1]

/-- The first character of a number. -/
theorem lexNumber_head (a : Str) (p : Str × Str) (h : lexNumber a = some p) :
    ∃ c r, a = c :: r ∧ (c = '-' ∨ isDigit c = true) := by
  cases a with
  | nil => simp [lexNumber, lexSign, lexInt] at h
  | cons c r =>
    refine ⟨c, r, rfl, ?_⟩
    by_cases hc : c = '-'
    · exact .inl hc
    · right
      have : lexSign (c :: r) = ([], c :: r) := by
        unfold lexSign
        split
        · rename_i h1; injection h1 with h1 _; exact absurd h1 hc
        · rfl
      simp only [lexNumber, this, lexInt] at h
      by_cases h0 : c = '0'
      · subst h0; decide
      · simp only [if_neg h0] at h
        by_contra hd
        simp [hd] at h

theorem afterWord_ne (c d : Char) (w s : Str) (h : c ≠ d) : afterWord (c :: w) (d :: s) = none := by
  simp [afterWord, h]

theorem numberHead_ne (c : Char) (h : c = '-' ∨ isDigit c = true) :
    c ≠ '"' ∧ c ≠ '{' ∧ c ≠ '[' ∧ 'n' ≠ c ∧ 't' ≠ c ∧ 'f' ≠ c ∧ c ≠ ']' ∧ c ≠ '}' ∧ c ≠ ' ' ∧ c ≠ '\t' ∧ c ≠ '\n' ∧
      c ≠ '\r' := by
  rcases h with rfl | h
  · decide
  · refine ⟨?_, ?_, ?_, ?_, ?_, ?_, ?_, ?_, ?_, ?_, ?_, ?_⟩ <;> (rintro rfl; exact absurd h (by decide))

theorem afterWord_append (w r : Str) : afterWord w (w ++ r) = some r := by
  induction w with
  | nil => rfl
  | cons c w ih => simp [afterWord, ih]

/-! ### Values -/

section
variable {K : Type} (T : NumText K) (P : K → Prop)

theorem endsNumber_cons (c : Char) (r : Str) (h : isDigit c = false ∧ c ≠ '.' ∧ c ≠ 'e' ∧ c ≠ 'E') :
    EndsNumber (c :: r) := by
  intro d hd
  simp only [List.head?_cons, Option.some.injEq] at hd
  subst hd; exact h

theorem endsNumber_items (l : Items K) (r : Str) : EndsNumber (dumpItems T l ++ r) := by
  cases l <;> simp only [dumpItems, List.cons_append] <;> exact endsNumber_cons _ _ (by decide)

theorem endsNumber_members (l : Members K) (r : Str) : EndsNumber (dumpMembers T l ++ r) := by
  cases l <;> simp only [dumpMembers, List.cons_append] <;> exact endsNumber_cons _ _ (by decide)

/-- The first character of a value is not white space and does not close anything. -/
theorem dump_head (hT : NumbersKept T P) (v : Json K) (hv : NumbersIn P v) :
    ∃ c r, dump T v = c :: r ∧ c ≠ ']' ∧ c ≠ ' ' ∧ c ≠ '\t' ∧ c ≠ '\n' ∧ c ≠ '\r' := by
  have hother : ∀ (c : Char) (r : Str), (c ≠ ']' ∧ c ≠ ' ' ∧ c ≠ '\t' ∧ c ≠ '\n' ∧ c ≠ '\r') → dump T v = c :: r →
      ∃ c r, dump T v = c :: r ∧ c ≠ ']' ∧ c ≠ ' ' ∧ c ≠ '\t' ∧ c ≠ '\n' ∧ c ≠ '\r' :=
    fun c r h h' => ⟨c, r, h', h⟩
  cases v with
  | null => exact hother 'n' _ (by decide) rfl
  | bool b => cases b
              · exact hother 'f' _ (by decide) rfl
              · exact hother 't' _ (by decide) rfl
  | num x =>
    obtain ⟨c, r, h, hc⟩ := lexNumber_head _ _ (hT x hv).1
    have := numberHead_ne c hc
    exact hother c r ⟨this.2.2.2.2.2.2.1, this.2.2.2.2.2.2.2.2⟩ h
  | const s =>
    rcases hv with rfl | rfl | rfl
    · exact hother 'N' _ (by decide) rfl
    · exact hother 'I' _ (by decide) rfl
    · exact hother '-' _ (by decide) rfl
  | str s => exact hother '"' _ (by decide) rfl
  | arr l => cases l <;> exact hother '[' _ (by decide) rfl
  | obj l => cases l <;> exact hother '{' _ (by decide) rfl

theorem skipWs_ne (c : Char) (r : Str) (h : c ≠ ' ' ∧ c ≠ '\t' ∧ c ≠ '\n' ∧ c ≠ '\r') : skipWs (c :: r) = c :: r := by
  simp [skipWs, h.1, h.2.1, h.2.2.1, h.2.2.2]

theorem skipWs_dump (hT : NumbersKept T P) (v : Json K) (hv : NumbersIn P v) (r : Str) :
    skipWs (dump T v ++ r) = dump T v ++ r := by
  obtain ⟨c, q, h, hc⟩ := dump_head T P hT v hv
  rw [h, List.cons_append, skipWs_ne c _ hc.2]

theorem skipWs_items (l : Items K) (r : Str) : skipWs (dumpItems T l ++ r) = dumpItems T l ++ r := by
  cases l <;> simp only [dumpItems, List.cons_append] <;> exact skipWs_ne _ _ (by decide)

theorem skipWs_members (l : Members K) (r : Str) : skipWs (dumpMembers T l ++ r) = dumpMembers T l ++ r := by
  cases l <;> simp only [dumpMembers, List.cons_append] <;> exact skipWs_ne _ _ (by decide)

theorem skipWs_quote (s r : Str) : skipWs (quote s ++ r) = quote s ++ r := skipWs_ne _ _ (by decide)

theorem parseString_quote (s r : Str) :
    parseString ((escape s ++ '"' :: r).length + 1) (escape s ++ '"' :: r) = some (s, r) :=
  parseString_escape s _ (by simp; omega) r

theorem parseScalar_num (hT : NumbersKept T P) (x : K) (hx : P x) (r : Str) (hr : EndsNumber r) :
    parseScalar T (T.repr x ++ r) = some (.num x, r) := by
  obtain ⟨h1, h2⟩ := hT x hx
  obtain ⟨c, q, h, hc⟩ := lexNumber_head _ _ h1
  have hne := numberHead_ne c hc
  have hn : lexNumber (T.repr x ++ r) = some (T.repr x, r) := lexNumber_append _ r h1 hr
  have e1 : afterWord "null".toList (T.repr x ++ r) = none := by
    rw [h]; exact afterWord_ne _ _ _ _ hne.2.2.2.1
  have e2 : afterWord "true".toList (T.repr x ++ r) = none := by
    rw [h]; exact afterWord_ne _ _ _ _ hne.2.2.2.2.1
  have e3 : afterWord "false".toList (T.repr x ++ r) = none := by
    rw [h]; exact afterWord_ne _ _ _ _ hne.2.2.2.2.2.1
  simp only [parseScalar, e1, e2, e3, hn, h2]

theorem parseScalar_const (s : Str) (hs : s = "NaN".toList ∨ s = "Infinity".toList ∨ s = "-Infinity".toList) (r : Str) :
    parseScalar T (s ++ r) = some (.const s, r) := by
  rcases hs with rfl | rfl | rfl <;>
    simp [parseScalar, afterWord, lexNumber, lexSign, lexInt, isDigit]

mutual
/-- Number of values and members inside a value. -/
def jsize : Json K → ℕ
  | .arr l => jsizeItems l + 1
  | .obj l => jsizeMembers l + 1
  | _ => 1
/-- The same for items. -/
def jsizeItems : Items K → ℕ
  | .nil => 0
  | .cons v l => jsize v + jsizeItems l + 1
/-- The same for members. -/
def jsizeMembers : Members K → ℕ
  | .nil => 0
  | .cons _ v l => jsize v + jsizeMembers l + 1
end

/-- Values, items and members are read back, whatever follows. -/
theorem parse_dump (hT : NumbersKept T P) (n : ℕ) :
    (∀ v : Json K, jsize v ≤ n → NumbersIn P v → ∀ r, EndsNumber r → parseValue T n (dump T v ++ r) = some (v, r)) ∧
    (∀ (v : Json K) (l : Items K), jsizeItems (.cons v l) ≤ n → NumbersIn P v → NumbersInItems P l → ∀ r,
      parseItems T n (dump T v ++ (dumpItems T l ++ r)) = some (.cons v l, r)) ∧
    (∀ (k : Str) (v : Json K) (l : Members K), jsizeMembers (.cons k v l) ≤ n → NumbersIn P v → NumbersInMembers P l →
      ∀ r, parseMembers T n (quote k ++ (':' :: (dump T v ++ (dumpMembers T l ++ r)))) = some (.cons k v l, r)) := by
  induction n with
  | zero =>
    refine ⟨fun v h => ?_, fun v l h => ?_, fun k v l h => ?_⟩
    · cases v <;> simp [jsize] at h
    · simp [jsizeItems] at h
    · simp [jsizeMembers] at h
  | succ n ih =>
    obtain ⟨ih1, ih2, ih3⟩ := ih
    refine ⟨fun v h hv r hr => ?_, fun v l h hv hl r => ?_, fun k v l h hv hl r => ?_⟩
    · cases v with
      | null => simp [dump, parseValue, parseScalar, afterWord]
      | bool b => cases b <;> simp [dump, parseValue, parseScalar, afterWord]
      | num x =>
        have hs := parseScalar_num T P hT x hv r hr
        obtain ⟨c, q, h, hc⟩ := lexNumber_head _ _ (hT x hv).1
        have hne := numberHead_ne c hc
        simp only [dump]
        rw [h, List.cons_append] at hs ⊢
        simp only [parseValue, if_neg hne.1, if_neg hne.2.1, if_neg hne.2.2.1, hs]
      | const s =>
        have hs := parseScalar_const T s hv r
        simp only [dump]
        rcases hv with rfl | rfl | rfl <;>
          (simp only [String.reduceToList, List.cons_append] at hs ⊢
           simp only [parseValue, hs]
           rfl)
      | str s =>
        have := parseString_quote s r
        simp only [dump, quote, List.cons_append, List.append_assoc, List.nil_append, parseValue, if_true, this]
      | arr l =>
        have h1 : ('[' : Char) ≠ '"' := by decide
        have h2 : ('[' : Char) ≠ '{' := by decide
        cases l with
        | nil =>
          have h3 : skipWs (']' :: r) = ']' :: r := skipWs_ne _ _ (by decide)
          simp only [dump, List.cons_append, List.nil_append, parseValue, if_neg h1, if_neg h2, if_true, h3]
        | cons v l =>
          simp only [jsize] at h
          have h3 := ih2 v l (by omega) hv.1 hv.2 r
          have h4 := skipWs_dump T P hT v hv.1 (dumpItems T l ++ r)
          obtain ⟨c, q, h5, h6, _⟩ := dump_head T P hT v hv.1
          simp only [dump, List.cons_append, List.append_assoc, parseValue, if_neg h1, if_neg h2, if_true, h4]
          rw [h5, List.cons_append] at h3 ⊢
          simp only [if_neg h6, h3]
      | obj l =>
        have h1 : ('{' : Char) ≠ '"' := by decide
        cases l with
        | nil =>
          have h3 : skipWs ('}' :: r) = '}' :: r := skipWs_ne _ _ (by decide)
          simp only [dump, List.cons_append, List.nil_append, parseValue, if_neg h1, if_true, h3]
        | cons k v l =>
          simp only [jsize] at h
          have h3 := ih3 k v l (by omega) hv.1 hv.2 r
          have h4 := skipWs_quote k (':' :: (dump T v ++ (dumpMembers T l ++ r)))
          have h6 : ('"' : Char) ≠ '}' := by decide
          simp only [dump, List.cons_append, List.append_assoc, parseValue, if_neg h1, if_true, h4]
          rw [quote, List.cons_append] at h3 ⊢
          simp only [if_neg h6, h3]
    · simp only [jsizeItems] at h
      have h1 := ih1 v (by omega) hv (dumpItems T l ++ r) (endsNumber_items T l r)
      simp only [parseItems, h1, skipWs_items]
      cases l with
      | nil => simp [dumpItems]
      | cons w l =>
        have h3 := ih2 w l (by omega) hl.1 hl.2 r
        have h4 := skipWs_dump T P hT w hl.1 (dumpItems T l ++ r)
        have h5 : (',' : Char) ≠ ']' := by decide
        simp only [dumpItems, List.cons_append, List.append_assoc, if_neg h5, if_true, h4, h3]
    · simp only [jsizeMembers] at h
      have h1 := ih1 v (by omega) hv (dumpMembers T l ++ r) (endsNumber_members T l r)
      have h2 := parseString_quote k (':' :: (dump T v ++ (dumpMembers T l ++ r)))
      have h3 : skipWs (':' :: (dump T v ++ (dumpMembers T l ++ r))) = ':' :: (dump T v ++ (dumpMembers T l ++ r)) :=
        skipWs_ne _ _ (by decide)
      simp only [quote, List.cons_append, List.append_assoc, List.nil_append, parseMembers, if_true, h2, h3,
        skipWs_dump T P hT v hv, h1, skipWs_members]
      cases l with
      | nil => simp [dumpMembers]
      | cons k' w l =>
        have h4 := ih3 k' w l (by omega) hl.1 hl.2 r
        have h5 := skipWs_quote k' (':' :: (dump T w ++ (dumpMembers T l ++ r)))
        have h6 : (',' : Char) ≠ '}' := by decide
        simp only [dumpMembers, List.cons_append, List.append_assoc, if_neg h6, if_true, h5, h4]

mutual
theorem jsize_le (hT : NumbersKept T P) : ∀ v : Json K, NumbersIn P v → jsize v ≤ (dump T v).length
  | .null, _ => by simp [jsize, dump]
  | .bool true, _ => by simp [jsize, dump]
  | .bool false, _ => by simp [jsize, dump]
  | .num x, h => by
    obtain ⟨c, r, h1, _⟩ := dump_head T P hT (.num x) h
    rw [h1]; simp [jsize]
  | .const s, h => by
    obtain ⟨c, r, h1, _⟩ := dump_head T P hT (.const s) h
    rw [h1]; simp [jsize]
  | .str s, _ => by simp [jsize, dump, quote]
  | .arr .nil, _ => by simp [jsize, jsizeItems, dump]
  | .arr (.cons v l), h => by
    have h1 := jsize_le hT v h.1
    have h2 := jsizeItems_lt hT l h.2
    simp only [jsize, jsizeItems, dump, List.length_cons, List.length_append]; omega
  | .obj .nil, _ => by simp [jsize, jsizeMembers, dump]
  | .obj (.cons k v l), h => by
    have h1 := jsize_le hT v h.1
    have h2 := jsizeMembers_lt hT l h.2
    simp only [jsize, jsizeMembers, dump, List.length_cons, List.length_append]; omega
theorem jsizeItems_lt (hT : NumbersKept T P) : ∀ l : Items K, NumbersInItems P l → jsizeItems l < (dumpItems T l).length
  | .nil, _ => by simp [jsizeItems, dumpItems]
  | .cons v l, h => by
    have h1 := jsize_le hT v h.1
    have h2 := jsizeItems_lt hT l h.2
    simp only [jsizeItems, dumpItems, List.length_cons, List.length_append]; omega
theorem jsizeMembers_lt (hT : NumbersKept T P) :
    ∀ l : Members K, NumbersInMembers P l → jsizeMembers l < (dumpMembers T l).length
  | .nil, _ => by simp [jsizeMembers, dumpMembers]
  | .cons k v l, h => by
    have h1 := jsize_le hT v h.1
    have h2 := jsizeMembers_lt hT l h.2
    simp only [jsizeMembers, dumpMembers, List.length_cons, List.length_append]; omega
end

/-- C180, JSON: a value of any depth with strings of any characters is read back from its text. -/
theorem C180_json (hT : NumbersKept T P) (v : Json K) (hv : NumbersIn P v) : loads T (dump T v) = some v := by
  have h1 := skipWs_dump T P hT v hv []
  have h2 := (parse_dump T P hT ((dump T v).length + 1)).1 v (by have := jsize_le T P hT v hv; omega) hv []
    (by intro c hc; simp at hc)
  rw [List.append_nil] at h1 h2
  simp only [loads, h1, h2, skipWs, if_true]

/-- C180, JSON: text that follows the value must be white space, anything else is an error. -/
theorem C180_trailing (hT : NumbersKept T P) (v : Json K) (hv : NumbersIn P v) (r : Str) (hr : EndsNumber r) :
    loads T (dump T v ++ r) = some v ∧ skipWs r = [] ∨ loads T (dump T v ++ r) = none ∧ skipWs r ≠ [] := by
  have h1 := skipWs_dump T P hT v hv r
  have h2 := (parse_dump T P hT ((dump T v ++ r).length + 1)).1 v
    (by have := jsize_le T P hT v hv; rw [List.length_append]; omega) hv r hr
  by_cases hw : skipWs r = []
  · exact Or.inl ⟨by simp only [loads, h1, h2, hw, if_true], hw⟩
  · exact Or.inr ⟨by simp only [loads, h1, h2, hw, if_false], hw⟩

/-! ### Headers -/

/-- Values of headers which can be written: numbers of the set, strings and lists of strings. -/
def Writable : Val K → Prop
  | .num x => P x
  | .str _ => True
  | .list _ => True
  | .time _ => False

theorem strItems_itemsOf (l : List Str) : strItems (itemsOf l : Items K) = some l := by
  induction l with
  | nil => rfl
  | cons s l ih => simp [itemsOf, strItems, ih]

theorem numbersIn_itemsOf (l : List Str) : NumbersInItems P (itemsOf l) := by
  induction l with
  | nil => trivial
  | cons s l ih => exact ⟨trivial, ih⟩

theorem ofVal_ok (v : Val K) (hv : Writable P v) : ∃ j, ofVal v = .ok j ∧ NumbersIn P j ∧ toVal j = some v := by
  cases v with
  | num x => exact ⟨_, rfl, hv, rfl⟩
  | str s => exact ⟨_, rfl, trivial, rfl⟩
  | list l => exact ⟨_, rfl, numbersIn_itemsOf P l, by simp [toVal, strItems_itemsOf]⟩
  | time x => exact hv.elim

theorem set_append_new {V : Type} (d : Dict V) (k : String) (v : V) (h : k ∉ d.keys) : d.set k v = d ++ [(k, v)] := by
  induction d with
  | nil => rfl
  | cons p d ih =>
    simp only [Dict.keys, List.map_cons, List.mem_cons, not_or] at h
    simp only [Dict.set, if_neg (Ne.symm h.1), List.cons_append]
    rw [ih h.2]

theorem ofDict_ok (d : Dict (Val K)) (hd : ∀ p ∈ d, Writable P p.2) (d0 : Dict (Val K)) (hn : (d0 ++ d).NodupKeys) :
    ∃ m, ofDict d = .ok m ∧ NumbersInMembers P m ∧ toDictGo d0 m = some (d0 ++ d) := by
  induction d generalizing d0 with
  | nil => exact ⟨_, rfl, trivial, by simp [toDictGo]⟩
  | cons p d ih =>
    obtain ⟨k, v⟩ := p
    obtain ⟨j, h1, h2, h3⟩ := ofVal_ok P v (hd _ List.mem_cons_self)
    have hk : k ∉ d0.keys := by
      intro hk
      simp only [Dict.NodupKeys, Dict.keys, List.map_append, List.map_cons] at hn
      have := (List.nodup_append.1 hn).2.2 k hk k List.mem_cons_self
      exact this rfl
    have hn' : ((d0 ++ [(k, v)]) ++ d).NodupKeys := by simpa using hn
    obtain ⟨m, h4, h5, h6⟩ := ih (fun q hq => hd q (List.mem_cons_of_mem _ hq)) (d0 ++ [(k, v)]) hn'
    refine ⟨.cons k.toList j m, by simp [ofDict, h1, h4], ⟨h2, h5⟩, ?_⟩
    simp only [toDictGo, h3, String.ofList_toList, set_append_new d0 k v hk, h6]
    simp

/-- C180, headers: a dictionary of numbers, strings and lists of strings is read back in the same order. -/
theorem C180_headers (hT : NumbersKept T P) (d : Dict (Val K)) (hn : d.NodupKeys) (hd : ∀ p ∈ d, Writable P p.2) :
    ∃ s, dumpsHeaders T d = .ok s ∧ loadsHeaders T s = .ok d := by
  obtain ⟨m, h1, h2, h3⟩ := ofDict_ok P d hd [] hn
  refine ⟨dump T (.obj m), by simp [dumpsHeaders, h1], ?_⟩
  rw [List.nil_append] at h3
  simp only [loadsHeaders, C180_json T P hT (.obj m) h2, h3]

/-- C180: a time among the headers raises `ValueError`. -/
theorem C180_time (d : Dict (Val K)) (k : String) (x : K) (h : (k, Val.time x) ∈ d)
    : dumpsHeaders T d = .error .valueError := by
  have : ofDict d = .error .valueError := by
    induction d with
    | nil => cases h
    | cons p d ih =>
      obtain ⟨k', v⟩ := p
      rcases List.mem_cons.1 h with h1 | h1
      · cases h1; rfl
      · have := ih h1
        cases v <;> simp [ofDict, ofVal, this]
  simp [dumpsHeaders, this]

theorem mem_get {V : Type} (d : Dict V) (hn : d.NodupKeys) (p : String × V) (hp : p ∈ d) : d.get p.1 = some p.2 := by
  induction d with
  | nil => cases hp
  | cons q d ih =>
    simp only [Dict.NodupKeys, Dict.keys, List.map_cons, List.nodup_cons] at hn
    rcases List.mem_cons.1 hp with h1 | h1
    · subst h1; simp [Dict.get]
    · have : q.1 ≠ p.1 := fun he => hn.1 (he ▸ List.mem_map_of_mem h1)
      simp only [Dict.get, if_neg this]
      exact ih hn.2 h1

/-- C180: the hypothesis `JsonOk` of C57, C58 and C154 holds for the JSON functions of the Python library. -/
theorem C180_jsonOk (hT : NumbersKept T fun _ => True) (E : Headers.FmtEnv K) : JsonOk (withJson T E) := by
  intro c hn hv
  refine C180_headers T (fun _ => True) hT c hn fun p hp => ?_
  have := hv p.1 p.2 (mem_get c hn p hp)
  revert this
  cases p.2 <;> simp [JsonVal, Writable]

end

section
variable {K : Type} [Field K] (T : NumText K)
open Verif.Model.Headers

/-- C180: C57 with the JSON functions of the Python library. -/
theorem C180_q (hT : NumbersKept T fun _ => True) (E : FmtEnv K) (st : FStats K) (format format' : Str) (compat : Bool)
    (hf : lower format = "q".toList) (hf' : lower format' = "q".toList) (hnew : st.sh = none)
    (hv : ∀ h ∈ commentHeaders, ∀ v, st.top.get h = some v → JsonVal v)
    (top0 : Dict (Val K)) (hfresh : ∀ h ∈ headers, top0.get h = none) (sac : Option (Dict (Val K))) :
    ∃ st' d st'', writeHeader (withJson T E) format compat st = .ok st' ∧ st'.top = st.top ∧ st'.sh = some d ∧
      readHeader (withJson T E) ⟨some format', top0, sac, some d⟩ = .ok st'' ∧
      (∀ h ∈ headers, st''.top.get h =
        if compat = true ∧ h ∈ commentHeaders then none else st.top.get h) ∧
      (∀ k, k ∉ headers → st''.top.get k = top0.get k) :=
  C57_roundtrip (withJson T E) (C180_jsonOk T hT E) st format format' compat hf hf' hnew hv top0 hfresh sac

end

/-! ### Characters of the text -/

theorem hexDigit_printable (d : ℕ) (h : d < 16) : 32 ≤ (hexDigit d).toNat ∧ (hexDigit d).toNat ≤ 126 := by
  have : ∀ d < 16, 32 ≤ (hexDigit d).toNat ∧ (hexDigit d).toNat ≤ 126 := by decide
  exact this d h

theorem hex4_printable (n : ℕ) : Printable (hex4 n) := by
  intro c hc
  simp only [hex4, List.mem_cons, List.not_mem_nil, or_false] at hc
  rcases hc with rfl | rfl | rfl | rfl <;> exact hexDigit_printable _ (Nat.mod_lt _ (by norm_num))

theorem printable_app {a b : Str} (ha : Printable a) (hb : Printable b) : Printable (a ++ b) := by
  intro c hc
  rcases List.mem_append.1 hc with h | h
  · exact ha c h
  · exact hb c h

theorem printable_cons {c : Char} {a : Str} (hc : 32 ≤ c.toNat ∧ c.toNat ≤ 126) (ha : Printable a) : Printable (c :: a) := by
  intro d hd
  rcases List.mem_cons.1 hd with h | h
  · exact h ▸ hc
  · exact ha d h

theorem escapeChar_printable (c : Char) : Printable (escapeChar c) := by
  have h2 : ∀ a b : Char, (32 ≤ a.toNat ∧ a.toNat ≤ 126) → (32 ≤ b.toNat ∧ b.toNat ≤ 126) → Printable [a, b] :=
    fun a b ha hb => printable_cons ha (printable_cons hb (by intro c hc; cases hc))
  have hu : Printable ['\\', 'u'] := h2 _ _ (by decide) (by decide)
  unfold escapeChar
  repeat' split
  all_goals first
    | exact h2 _ _ (by decide) (by decide)
    | exact printable_cons (by assumption) (by intro c hc; cases hc)
    | exact printable_app hu (hex4_printable _)
    | exact printable_app hu (printable_app (hex4_printable _) (printable_app hu (hex4_printable _)))

theorem escape_printable (s : Str) : Printable (escape s) := by
  induction s with
  | nil => intro c hc; cases hc
  | cons c s ih => exact printable_app (escapeChar_printable c) ih

theorem printable_nil : Printable [] := by intro c hc; cases hc

theorem quote_printable (s : Str) : Printable (quote s) :=
  printable_cons (by decide) (printable_app (escape_printable s) (printable_cons (by decide) printable_nil))

theorem printable_of_all (s : Str) (h : s.all (fun c => decide (32 ≤ c.toNat ∧ c.toNat ≤ 126)) = true) : Printable s := by
  intro c hc
  have := List.all_eq_true.1 h c hc
  exact of_decide_eq_true this

section
variable {K : Type} (T : NumText K) (P : K → Prop)

mutual
/-- C180: the text consists of printable ASCII characters only, whatever the strings contain; line ends in particular do
not occur. -/
theorem C180_printable (hT : ∀ x, P x → Printable (T.repr x)) : ∀ v : Json K, NumbersIn P v → Printable (dump T v)
  | .null, _ => printable_of_all "null".toList (by decide)
  | .bool true, _ => printable_of_all "true".toList (by decide)
  | .bool false, _ => printable_of_all "false".toList (by decide)
  | .num x, h => hT x h
  | .const s, h => by
    change Printable s
    rcases h with rfl | rfl | rfl <;> exact printable_of_all _ (by decide)
  | .str s, _ => quote_printable s
  | .arr .nil, _ => printable_of_all ['[', ']'] (by decide)
  | .arr (.cons v l), h => printable_cons (by decide) (printable_app (C180_printable hT v h.1) (printable_items hT l h.2))
  | .obj .nil, _ => printable_of_all ['{', '}'] (by decide)
  | .obj (.cons k v l), h =>
    printable_cons (by decide) (printable_app (quote_printable k)
      (printable_cons (by decide) (printable_app (C180_printable hT v h.1) (printable_members hT l h.2))))
theorem printable_items (hT : ∀ x, P x → Printable (T.repr x)) : ∀ l : Items K, NumbersInItems P l → Printable (dumpItems T l)
  | .nil, _ => printable_of_all [']'] (by decide)
  | .cons v l, h => printable_cons (by decide) (printable_app (C180_printable hT v h.1) (printable_items hT l h.2))
theorem printable_members (hT : ∀ x, P x → Printable (T.repr x)) :
    ∀ l : Members K, NumbersInMembers P l → Printable (dumpMembers T l)
  | .nil, _ => printable_of_all ['}'] (by decide)
  | .cons k v l, h =>
    printable_cons (by decide) (printable_app (quote_printable k)
      (printable_cons (by decide) (printable_app (C180_printable hT v h.1) (printable_members hT l h.2))))
end

end

/-! ### Cases -/

theorem natText_digits (n : ℕ) : digits (natText n) = (natText n, []) ∧ LoadTxt.digitsGo 0 (natText n) = some n ∧
    (∃ c r, natText n = c :: r ∧ isDigit c = true ∧ (n ≠ 0 → c ≠ '0')) := by
  have hd : ∀ d < 10, isDigit (Char.ofNat (48 + d)) = true ∧ (Char.ofNat (48 + d)).toNat - 48 = d ∧
      ('0' ≤ Char.ofNat (48 + d) ∧ Char.ofNat (48 + d) ≤ '9') ∧ (d ≠ 0 → Char.ofNat (48 + d) ≠ '0') := by decide
  have happ : ∀ (a : Str) (c : Char), digits a = (a, []) → isDigit c = true → digits (a ++ [c]) = (a ++ [c], []) := by
    intro a c ha hc
    induction a with
    | nil => simp [digits, hc]
    | cons b a ih =>
      simp only [digits] at ha
      split at ha
      · rename_i hb
        simp only [Prod.mk.injEq, List.cons.injEq, true_and] at ha
        have := ih (Prod.ext ha.1 ha.2)
        simp [digits, hb, this]
      · simp at ha
  have hgo : ∀ (a : Str) (c : Char) (acc m : ℕ), LoadTxt.digitsGo acc a = some m → ('0' ≤ c ∧ c ≤ '9') →
      LoadTxt.digitsGo acc (a ++ [c]) = some (10 * m + (c.toNat - 48)) := by
    intro a c acc m ha hc
    induction a generalizing acc with
    | nil => simp only [LoadTxt.digitsGo, Option.some.injEq] at ha; subst ha; simp [LoadTxt.digitsGo, hc]
    | cons b a ih =>
      simp only [LoadTxt.digitsGo] at ha
      split at ha
      · rename_i hb
        rw [List.cons_append]
        simp only [LoadTxt.digitsGo]
        rw [if_pos hb]
        exact ih _ ha
      · cases ha
  induction n using Nat.strong_induction_on with
  | _ n ih =>
    rw [natText]
    split
    · rename_i h
      obtain ⟨h1, h2, h3, h4⟩ := hd n h
      exact ⟨by simp [digits, h1], by simp [LoadTxt.digitsGo, h3, h2], _, _, rfl, h1, h4⟩
    · rename_i h
      obtain ⟨h1, h2, h3, h4⟩ := hd (n % 10) (Nat.mod_lt _ (by norm_num))
      obtain ⟨i1, i2, c, r, i3, i4, i5⟩ := ih (n / 10) (by omega)
      refine ⟨happ _ _ i1 h1, ?_, c, r ++ [Char.ofNat (48 + n % 10)], by rw [i3]; rfl, i4, fun _ => i5 (by omega)⟩
      rw [hgo _ _ 0 _ i2 h3, h2]
      congr 1; omega

theorem isDigit_ne (c : Char) (h : isDigit c = true) : c ≠ '-' ∧ c ≠ '+' ∧ c ≠ '.' ∧ c ≠ 'e' ∧ c ≠ 'E' := by
  refine ⟨?_, ?_, ?_, ?_, ?_⟩ <;> (rintro rfl; exact absurd h (by decide))

theorem natText_all (n : ℕ) : ∀ c ∈ natText n, isDigit c = true := by
  have : ∀ s : Str, digits s = (s, []) → ∀ c ∈ s, isDigit c = true := by
    intro s
    induction s with
    | nil => intro _ c hc; cases hc
    | cons b s ih =>
      intro h c hc
      simp only [digits] at h
      split at h
      · rename_i hb
        simp only [Prod.mk.injEq, List.cons.injEq, true_and] at h
        rcases List.mem_cons.1 hc with rfl | hc
        · exact hb
        · exact ih (Prod.ext h.1 h.2) c hc
      · simp at h
  exact this _ (natText_digits n).1

theorem lexInt_natText (n : ℕ) (q : Str) (hq : digits q = ([], q)) : lexInt (natText n ++ q) = some (natText n, q) := by
  obtain ⟨h1, -, c, r, h3, h4, h5⟩ := natText_digits n
  have happ : ∀ a : Str, digits a = (a, []) → digits (a ++ q) = (a, q) := by
    intro a ha
    induction a with
    | nil => simpa using hq
    | cons b a ih =>
      simp only [digits] at ha
      split at ha
      · rename_i hb
        simp only [Prod.mk.injEq, List.cons.injEq, true_and] at ha
        have := ih (Prod.ext ha.1 ha.2)
        simp [digits, hb, this]
      · simp at ha
  by_cases hn : n = 0
  · subst hn
    have : natText 0 = ['0'] := by rw [natText]; rfl
    rw [this]; rfl
  · have h6 := h5 hn
    rw [h3] at h1 ⊢
    simp only [digits, h4, if_true, Prod.mk.injEq, List.cons.injEq, true_and] at h1
    have h7 := happ r (Prod.ext h1.1 h1.2)
    simp only [List.cons_append, lexInt, if_neg h6, h4, if_true, h7]

theorem lexSign_natText (n : ℕ) (q : Str) : lexSign (natText n ++ q) = ([], natText n ++ q) := by
  obtain ⟨-, -, c, r, h3, h4, -⟩ := natText_digits n
  rw [h3, List.cons_append]
  unfold lexSign
  split
  · rename_i h; injection h with h _; exact absurd h (isDigit_ne c h4).1
  · rfl

theorem lexNumber_intText (n : ℤ) : lexNumber (intText n) = some (intText n, []) := by
  have h := lexInt_natText n.natAbs [] rfl
  have h' := lexSign_natText n.natAbs []
  rw [List.append_nil] at h h'
  unfold intText
  split
  · simp [lexNumber, lexSign, h, lexFrac, lexExp]
  · simp [lexNumber, h', h, lexFrac, lexExp]

theorem takeWhile_eq_self {s : Str} {p : Char → Bool} (h : ∀ c ∈ s, p c = true) : s.takeWhile p = s ∧ s.dropWhile p = [] := by
  induction s with
  | nil => exact ⟨rfl, rfl⟩
  | cons c s ih =>
    have h1 := h c List.mem_cons_self
    have h2 := ih fun d hd => h d (List.mem_cons_of_mem _ hd)
    simp [List.takeWhile_cons, List.dropWhile_cons, h1, h2.1, h2.2]

theorem parseNum_natText (n : ℕ) (s : Str) (neg : Bool) (hs : s = if neg then '-' :: natText n else natText n) :
    LoadTxt.parseNum s = some ((if neg then -1 else 1) * (n : ℚ)) := by
  obtain ⟨-, h2, c, r, h3, h4, -⟩ := natText_digits n
  have hc := isDigit_ne c h4
  have hall := natText_all n
  have e1 := takeWhile_eq_self (s := natText n) (p := fun c => decide (c ≠ 'e' ∧ c ≠ 'E')) fun d hd => by
    have := isDigit_ne d (hall d hd); simp [this.2.2.2.1, this.2.2.2.2]
  have e2 := takeWhile_eq_self (s := natText n) (p := fun c => decide (c ≠ '.')) fun d hd => by
    have := isDigit_ne d (hall d hd); simp [this.2.2.1]
  have hdec : LoadTxt.parseDec (natText n) = some (n : ℚ) := by
    have hne : natText n ≠ [] := by rw [h3]; simp
    simp only [LoadTxt.parseDec, e2.1, e2.2, List.drop_nil, List.append_nil, h2]
    simp [hne]
  cases neg with
  | true =>
    simp only [if_true] at hs
    subst hs
    simp only [LoadTxt.parseNum, List.head?_cons, true_or, if_true, List.drop_succ_cons, List.drop_zero, e1.1, e1.2, hdec]
    simp
  | false =>
    simp only [Bool.false_eq_true, if_false] at hs
    subst hs
    have hh : (natText n).head? = some c := by rw [h3]; rfl
    have h6 : ¬ (some c = some '-' ∨ some c = some '+') := by simp [hc.1, hc.2.1]
    simp only [LoadTxt.parseNum, hh, if_neg h6, e1.1, e1.2, hdec]
    simp [hc.1]

/-- Integers are written and read back exactly. -/
theorem exactText_kept : NumbersKept exactText (fun x : ℚ => x.den = 1) := by
  intro x hx
  refine ⟨lexNumber_intText x.num, ?_⟩
  have h := parseNum_natText x.num.natAbs (intText x.num) (decide (x.num < 0)) (by simp [intText])
  simp only [exactText, h, Option.getD_some]
  have hx' : x = (x.num : ℚ) := ((Rat.den_eq_one_iff x).1 hx).symm
  have habs : ((x.num.natAbs : ℕ) : ℚ) = |(x.num : ℚ)| := by rw [Nat.cast_natAbs, Int.cast_abs]
  rw [habs]
  by_cases hn : x.num < 0
  · have : (x.num : ℚ) < 0 := by exact_mod_cast hn
    simp only [hn, decide_true, if_true, abs_of_neg this]
    rw [hx']; simp
  · have : (0 : ℚ) ≤ (x.num : ℚ) := by exact_mod_cast not_lt.1 hn
    simp only [hn, decide_false, Bool.false_eq_true, if_false, abs_of_nonneg this]
    rw [hx']; simp

/-- Texts for all rational numbers: numerator and denominator separated by a point. -/
def fracText : NumText ℚ where
  repr := fun x => intText x.num ++ '.' :: natText x.den
  value := fun s =>
    (LoadTxt.parseNum (s.takeWhile (· ≠ '.'))).getD 0 / (LoadTxt.parseNum ((s.dropWhile (· ≠ '.')).drop 1)).getD 0

theorem intText_ne_point (n : ℤ) : ∀ c ∈ intText n, c ≠ '.' := by
  intro c hc
  unfold intText at hc
  split at hc
  · rcases List.mem_cons.1 hc with rfl | hc
    · decide
    · exact (isDigit_ne c (natText_all _ c hc)).2.2.1
  · exact (isDigit_ne c (natText_all _ c hc)).2.2.1

theorem takeWhile_point (a b : Str) (h : ∀ c ∈ a, c ≠ '.') :
    (a ++ '.' :: b).takeWhile (· ≠ '.') = a ∧ (a ++ '.' :: b).dropWhile (· ≠ '.') = '.' :: b := by
  induction a with
  | nil => simp
  | cons c a ih =>
    have h1 := h c List.mem_cons_self
    have h2 := ih fun d hd => h d (List.mem_cons_of_mem _ hd)
    simpa [List.takeWhile_cons, List.dropWhile_cons, h1] using h2

/-- There is a way to write all rational numbers. -/
theorem fracText_kept : NumbersKept fracText (fun _ => True) := by
  intro x _
  obtain ⟨h1, -, c, r, h3, -⟩ := natText_digits x.den
  have hne : natText x.den ≠ [] := by rw [h3]; simp
  constructor
  · have h := lexInt_natText x.num.natAbs ('.' :: natText x.den) rfl
    have h' := lexSign_natText x.num.natAbs ('.' :: natText x.den)
    simp only [fracText, intText]
    split
    · simp [lexNumber, lexSign, h, lexFrac, lexExp, h1, hne]
    · simp [lexNumber, h', h, lexFrac, lexExp, h1, hne]
  · have h := takeWhile_point (intText x.num) (natText x.den) (intText_ne_point x.num)
    have hi := parseNum_natText x.num.natAbs (intText x.num) (decide (x.num < 0)) (by simp [intText])
    have hd := parseNum_natText x.den (natText x.den) false rfl
    simp only [fracText, h.1, h.2, List.drop_succ_cons, List.drop_zero, hi, hd, Option.getD_some]
    have habs : ((x.num.natAbs : ℕ) : ℚ) = |(x.num : ℚ)| := by rw [Nat.cast_natAbs, Int.cast_abs]
    rw [habs]
    have hx := Rat.num_div_den x
    by_cases hn : x.num < 0
    · have : (x.num : ℚ) < 0 := by exact_mod_cast hn
      simp only [hn, decide_true, if_true, abs_of_neg this]
      simpa using hx
    · have : (0 : ℚ) ≤ (x.num : ℚ) := by exact_mod_cast not_lt.1 hn
      simp only [hn, decide_false, Bool.false_eq_true, if_false, abs_of_nonneg this]
      simpa using hx

/-- The hypothesis of C57, C58 and C154 is met. -/
example (E : Headers.FmtEnv ℚ) : JsonOk (withJson fracText E) := C180_jsonOk fracText fracText_kept E

/-- Headers with quotes, line ends and characters outside of ASCII, and what is written. -/
def jsonHeaders : Dict (Val ℚ) :=
  [("phase", .str "P".toList), ("pp_depth", .num (-50)), ("type", .str ['"', 'ü', '\n', '\\', Char.ofNat 0x1d11e]),
   ("moveout", .list ["a".toList, []])]

example : ∃ s, dumpsHeaders exactText jsonHeaders = .ok s ∧ loadsHeaders exactText s = .ok jsonHeaders :=
  C180_headers exactText _ exactText_kept jsonHeaders (by unfold Dict.NodupKeys; decide) (by
    intro p hp
    simp only [jsonHeaders, List.mem_cons, List.not_mem_nil, or_false] at hp
    rcases hp with rfl | rfl | rfl | rfl
    · trivial
    · change ((-50 : ℚ)).den = 1; decide +kernel
    · trivial
    · trivial)

example : dumpsHeaders exactText jsonHeaders = .ok
    "{\"phase\":\"P\",\"pp_depth\":-50,\"type\":\"\\\"\\u00fc\\n\\\\\\ud834\\udd1e\",\"moveout\":[\"a\",\"\"]}".toList := by
  decide +kernel

end Verif.Props
