import Verif.Model.LoadTxt
import Verif.Props.Models
import Mathlib.Tactic.FieldSimp
import Mathlib.Tactic.IntervalCases

/-!
# Files with velocity models: C208
-/

set_option linter.unusedSimpArgs false
set_option linter.unusedSectionVars false

namespace Verif.Spec
open Verif.Py

/-- A number in decimal notation: sign (`some true` is `-`, `some false` is `+`), digits before the point, digits behind the
point if there is a point, and, if there is an exponent, its letter, sign and digits. -/
structure Decimal where
  sign : Option Bool
  whole : List ℕ
  frac : Option (List ℕ)
  exp : Option (Bool × Option Bool × List ℕ)

/-- Digits are digits, there is at least one before the exponent, and at least one in the exponent. -/
structure Decimal.Proper (d : Decimal) : Prop where
  whole : ∀ k ∈ d.whole, k < 10
  frac : ∀ f, d.frac = some f → ∀ k ∈ f, k < 10
  some_digit : d.whole ≠ [] ∨ ∃ f, d.frac = some f ∧ f ≠ []
  exp : ∀ c s x, d.exp = some (c, s, x) → x ≠ [] ∧ ∀ k ∈ x, k < 10

/-- A sign as text. -/
def signText : Option Bool → Str
  | none => []
  | some true => ['-']
  | some false => ['+']

/-- A sign as factor. -/
def signFactor : Option Bool → ℤ
  | some true => -1
  | _ => 1

/-- Digits as text. -/
def digitsText (l : List ℕ) : Str := l.map fun k => Char.ofNat (48 + k)

/-- Point and digits behind it as text. -/
def pointText : Option (List ℕ) → Str
  | none => []
  | some f => '.' :: digitsText f

/-- The exponent as text. -/
def exponentText : Option (Bool × Option Bool × List ℕ) → Str
  | none => []
  | some (c, s, x) => (if c then 'E' else 'e') :: (signText s ++ digitsText x)

/-- The exponent. -/
def exponentVal : Option (Bool × Option Bool × List ℕ) → ℤ
  | none => 0
  | some (_, s, x) => signFactor s * (x.foldl (fun a k => 10 * a + k) 0 : ℕ)

/-- The text of a number. -/
def Decimal.text (d : Decimal) : Str :=
  signText d.sign ++ (digitsText d.whole ++ pointText d.frac ++ exponentText d.exp)

/-- Digits before the point. -/
def wholeVal (l : List ℕ) : ℕ := l.foldl (fun a k => 10 * a + k) 0

/-- Digits behind the point: tenths, hundredths, … -/
def fracVal : List ℕ → ℚ
  | [] => 0
  | k :: l => ((k : ℚ) + fracVal l) / 10

/-- The value of a number. -/
def Decimal.value (d : Decimal) : ℚ :=
  signFactor d.sign * ((wholeVal d.whole : ℚ) + fracVal (d.frac.getD [])) *
    (10 : ℚ) ^ exponentVal d.exp

/-- White space inside lines. -/
def White (c : Char) : Prop := c = ' ' ∨ c = '\t' ∨ c = '\r' ∨ c = '\n'

/-- Words in a line, with white space before, between and behind them. -/
inductive Laid : List Str → Str → Prop
  | done (b : Str) (hb : ∀ c ∈ b, White c) : Laid [] b
  | word (b w : Str) (ws : List Str) (s : Str) (hb : ∀ c ∈ b, White c) (hw : w ≠ []) (hc : ∀ c ∈ w, ¬ White c ∧ c ≠ '#')
      (hs : Laid ws s) (hsep : ws ≠ [] → ∃ c r, s = c :: r ∧ White c) : Laid (w :: ws) (b ++ (w ++ s))

/-- A line with these words, perhaps with a comment. -/
def LineOf (ws : List Str) (line : Str) : Prop := ∃ s, Laid ws s ∧ (line = s ∨ ∃ c, line = s ++ '#' :: c)

/-- The lines of a file with these rows, perhaps with empty lines and lines with comments only. -/
inductive FileOf : List (List Decimal) → List Str → Prop
  | done : FileOf [] []
  | skip (l : Str) (ls : List Str) (rows : List (List Decimal)) (hl : LineOf [] l) (h : FileOf rows ls) : FileOf rows (l :: ls)
  | row (r : List Decimal) (l : Str) (ls : List Str) (rows : List (List Decimal)) (hr : r ≠ []) (hp : ∀ d ∈ r, d.Proper)
      (hl : LineOf (r.map Decimal.text) l) (h : FileOf rows ls) : FileOf (r :: rows) (l :: ls)

end Verif.Spec

namespace Verif.Props
open Verif.Py Verif.Spec Verif.Model.LoadTxt Verif.Model.Ppoints

section number

theorem digitChar (k : ℕ) (hk : k < 10) : ('0' ≤ Char.ofNat (48 + k) ∧ Char.ofNat (48 + k) ≤ '9') ∧
    (Char.ofNat (48 + k)).toNat - 48 = k ∧ Char.ofNat (48 + k) ≠ '.' ∧ Char.ofNat (48 + k) ≠ 'e' ∧ Char.ofNat (48 + k) ≠ 'E' ∧
    Char.ofNat (48 + k) ≠ '-' ∧ Char.ofNat (48 + k) ≠ '+' ∧ ¬ White (Char.ofNat (48 + k)) ∧ Char.ofNat (48 + k) ≠ '#' := by
  unfold White
  interval_cases k <;> decide

theorem digitsGo_text (l : List ℕ) (hl : ∀ k ∈ l, k < 10) (a : ℕ) :
    digitsGo a (digitsText l) = some (l.foldl (fun a k => 10 * a + k) a) := by
  induction l generalizing a with
  | nil => rfl
  | cons k l ih =>
    obtain ⟨h1, h2, -⟩ := digitChar k (hl k List.mem_cons_self)
    simp only [digitsText, List.map_cons, digitsGo, if_pos h1, h2, List.foldl_cons]
    exact ih (fun j hj => hl j (List.mem_cons_of_mem _ hj)) _

theorem foldl_frac (l : List ℕ) (a : ℕ) :
    ((l.foldl (fun a k => 10 * a + k) a : ℕ) : ℚ) / (10 : ℚ) ^ l.length = a + fracVal l := by
  induction l generalizing a with
  | nil => simp [fracVal]
  | cons k l ih =>
    rw [List.foldl_cons, List.length_cons, pow_succ, ← div_div, ih]
    simp only [fracVal]
    push_cast
    ring

theorem digitsText_mem (l : List ℕ) (hl : ∀ k ∈ l, k < 10) (c : Char) (hc : c ∈ digitsText l) :
    c ≠ '.' ∧ c ≠ 'e' ∧ c ≠ 'E' ∧ c ≠ '-' ∧ c ≠ '+' ∧ ¬ White c ∧ c ≠ '#' := by
  obtain ⟨k, hk, rfl⟩ := List.mem_map.1 hc
  exact (digitChar k (hl k hk)).2.2

theorem digitsText_nil (l : List ℕ) : digitsText l = [] ↔ l = [] := by
  unfold digitsText; simp

theorem split_at_first (p : Char → Bool) (a b : Str) (ha : ∀ c ∈ a, p c = true) (hb : ∀ c r, b = c :: r → p c = false) :
    (a ++ b).takeWhile p = a ∧ (a ++ b).dropWhile p = b := by
  induction a with
  | nil =>
    cases b with
    | nil => exact ⟨rfl, rfl⟩
    | cons c r => simp [hb c r rfl]
  | cons c a ih =>
    obtain ⟨h1, h2⟩ := ih fun d hd => ha d (List.mem_cons_of_mem _ hd)
    simp [ha c List.mem_cons_self, h1, h2]

theorem parseDec_text (w : List ℕ) (f : Option (List ℕ)) (hw : ∀ k ∈ w, k < 10) (hf : ∀ g, f = some g → ∀ k ∈ g, k < 10)
    (hne : w ≠ [] ∨ ∃ g, f = some g ∧ g ≠ []) :
    parseDec (digitsText w ++ pointText f) =
      some ((wholeVal w : ℚ) + fracVal (f.getD [])) := by
  have key : ∀ g : List ℕ, (∀ k ∈ g, k < 10) → (w ≠ [] ∨ g ≠ []) → ∀ t : Str, t.takeWhile (· ≠ '.') = digitsText w →
      (t.dropWhile (· ≠ '.')).drop 1 = digitsText g → parseDec t = some ((wholeVal w : ℚ) + fracVal g) := by
    intro g hg hne t h1 h2
    unfold parseDec
    simp only [h1, h2, digitsText_nil]
    rw [if_neg (by rintro ⟨a, b⟩; rcases hne with h | h <;> contradiction)]
    have : digitsText w ++ digitsText g = digitsText (w ++ g) := by simp [digitsText]
    rw [this, digitsGo_text _ (by
      intro k hk
      rcases List.mem_append.1 hk with h | h
      · exact hw k h
      · exact hg k h)]
    simp only [List.foldl_append]
    have hl : (digitsText g).length = g.length := by simp [digitsText]
    rw [hl, foldl_frac]
    rfl
  have hp : ∀ c ∈ digitsText w, decide (c ≠ '.') = true := fun c hc => by simp [(digitsText_mem w hw c hc).1]
  cases f with
  | none =>
    obtain ⟨h1, h2⟩ := split_at_first (fun c => decide (c ≠ '.')) (digitsText w) [] hp (by intro c r h; cases h)
    exact key [] (by intro k hk; cases hk) (Or.inl (by
      rcases hne with h | ⟨g, h, -⟩
      · exact h
      · cases h)) _ h1 (by
        rw [show (digitsText w ++ pointText none).dropWhile (fun c => decide (c ≠ '.')) = [] from h2]; rfl)
  | some g =>
    obtain ⟨h1, h2⟩ := split_at_first (fun c => decide (c ≠ '.')) (digitsText w) ('.' :: digitsText g) hp (by
      intro c r h
      cases h
      rfl)
    exact key g (hf g rfl) (by
      rcases hne with h | ⟨g', h, h'⟩
      · exact Or.inl h
      · cases h; exact Or.inr h') _ h1 (by
        rw [show (digitsText w ++ pointText (some g)).dropWhile (fun c => decide (c ≠ '.')) = '.' :: digitsText g from h2]; rfl)

theorem parseInt_text (s : Option Bool) (x : List ℕ) (hx : x ≠ []) (hd : ∀ k ∈ x, k < 10) :
    parseInt (signText s ++ digitsText x) = some (signFactor s * (wholeVal x : ℤ)) := by
  have hne : digitsText x ≠ [] := by rw [Ne, digitsText_nil]; exact hx
  cases s with
  | none =>
    cases hl : digitsText x with
    | nil => exact absurd hl hne
    | cons c r =>
      obtain ⟨-, -, -, h1, h2, -⟩ := digitsText_mem x hd c (by rw [hl]; exact List.mem_cons_self)
      have : parseInt (c :: r) = (digitsGo 0 (c :: r)).map fun n => (n : ℤ) := by
        unfold parseInt
        split
        · rename_i h; cases h; exact absurd rfl h1
        · rename_i h; cases h; exact absurd rfl h2
        · rfl
      show parseInt (c :: r) = _
      rw [this, ← hl, digitsGo_text x hd]
      simp [signFactor, wholeVal]
  | some b =>
    cases b with
    | true =>
      show parseInt ('-' :: digitsText x) = _
      simp only [parseInt, if_neg hne, digitsGo_text x hd]
      simp [signFactor, wholeVal]
    | false =>
      show parseInt ('+' :: digitsText x) = _
      simp only [parseInt, if_neg hne, digitsGo_text x hd]
      simp [signFactor, wholeVal]

/-- **C208** (numbers).  Every number in decimal notation has its value. -/
theorem C208_number (d : Decimal) (hd : d.Proper) : parseNum d.text = some d.value := by
  set mant := digitsText d.whole ++ pointText d.frac with hmant
  set ex : Str := exponentText d.exp with hex
  have hm : ∀ c ∈ mant, c ≠ 'e' ∧ c ≠ 'E' ∧ c ≠ '-' ∧ c ≠ '+' := by
    intro c hc
    rw [hmant] at hc
    rcases List.mem_append.1 hc with h | h
    · have := digitsText_mem _ hd.whole c h
      exact ⟨this.2.1, this.2.2.1, this.2.2.2.1, this.2.2.2.2.1⟩
    · cases hf : d.frac with
      | none => rw [hf] at h; cases h
      | some f =>
        rw [hf] at h
        rcases List.mem_cons.1 h with rfl | h
        · decide
        · have := digitsText_mem _ (hd.frac f hf) c h
          exact ⟨this.2.1, this.2.2.1, this.2.2.2.1, this.2.2.2.2.1⟩
  obtain ⟨h1, h2⟩ := split_at_first (fun c => decide (c ≠ 'e' ∧ c ≠ 'E')) mant ex
    (fun c hc => by simp [(hm c hc).1, (hm c hc).2.1]) (by
      intro c r h
      rw [hex] at h
      cases hx : d.exp with
      | none => rw [hx] at h; cases h
      | some y =>
        obtain ⟨b, s, x⟩ := y
        rw [hx] at h
        simp only [exponentText, List.cons.injEq] at h
        rw [← h.1]
        cases b <;> decide)
  have hmne : mant ≠ [] := by
    rw [hmant]
    rcases hd.some_digit with h | ⟨f, h, h'⟩
    · intro h0
      exact h ((digitsText_nil _).1 (List.append_eq_nil_iff.1 h0).1)
    · intro h0
      have := (List.append_eq_nil_iff.1 h0).2
      rw [h] at this
      cases this
  have hu : ∀ s : Option Bool, (if (signText s ++ (mant ++ ex)).head? = some '-' ∨ (signText s ++ (mant ++ ex)).head? = some '+'
      then (signText s ++ (mant ++ ex)).drop 1 else signText s ++ (mant ++ ex)) = mant ++ ex ∧
      ((if (signText s ++ (mant ++ ex)).head? = some '-' then -1 else 1 : ℚ) = signFactor s) := by
    intro s
    cases s with
    | none =>
      cases hc : mant with
      | nil => exact absurd hc hmne
      | cons c r =>
        have := hm c (by rw [hc]; exact List.mem_cons_self)
        simp [signText, signFactor, this.2.2.1, this.2.2.2]
    | some b => cases b <;> simp [signText, signFactor]
  have he : (if ex = [] then some 0 else parseInt (ex.drop 1)) =
      some (exponentVal d.exp) := by
    rw [hex]
    cases hx : d.exp with
    | none => rfl
    | some y =>
      obtain ⟨b, s, x⟩ := y
      obtain ⟨hx1, hx2⟩ := hd.exp b s x hx
      simp only [exponentText, List.drop_succ_cons, List.drop_zero]
      rw [if_neg (by simp), parseInt_text s x hx1 hx2]
      rfl
  have hdec : parseDec mant = some ((wholeVal d.whole : ℚ) + fracVal (d.frac.getD [])) :=
    parseDec_text d.whole d.frac hd.whole hd.frac hd.some_digit
  have ht : d.text = signText d.sign ++ (mant ++ ex) := rfl
  rw [ht]
  unfold parseNum
  simp only [(hu d.sign).1, (hu d.sign).2, h1, h2, hdec, he]
  rfl

end number

section layout

theorem wordsGo_end (acc s : Str) (c : Char) (hc : White c) :
    wordsGo acc (c :: s) = if acc = [] then wordsGo [] s else acc.reverse :: wordsGo [] s := by
  rw [wordsGo]
  exact if_pos hc

theorem wordsGo_go (acc s : Str) (c : Char) (hc : ¬ White c) : wordsGo acc (c :: s) = wordsGo (c :: acc) s := by
  rw [wordsGo]
  exact if_neg hc

theorem wordsGo_white (b s : Str) (hb : ∀ c ∈ b, White c) : wordsGo [] (b ++ s) = wordsGo [] s := by
  induction b with
  | nil => rfl
  | cons c b ih =>
    rw [List.cons_append, wordsGo_end _ _ _ (hb c List.mem_cons_self), if_pos rfl, ih fun d hd => hb d (List.mem_cons_of_mem _ hd)]

theorem wordsGo_word (w s acc : Str) (hw : ∀ c ∈ w, ¬ White c) : wordsGo acc (w ++ s) = wordsGo (w.reverse ++ acc) s := by
  induction w generalizing acc with
  | nil => rfl
  | cons c w ih =>
    rw [List.cons_append, wordsGo_go _ _ _ (hw c List.mem_cons_self), ih _ fun d hd => hw d (List.mem_cons_of_mem _ hd)]
    simp

theorem laid_words (ws : List Str) (s : Str) (h : Laid ws s) : wordsGo [] s = ws ∧ ∀ c ∈ s, c ≠ '#' := by
  induction h with
  | done b hb =>
    constructor
    · have := wordsGo_white b [] hb
      rw [List.append_nil] at this
      rw [this]
      rfl
    · intro c hc
      rcases hb c hc with rfl | rfl | rfl | rfl <;> decide
  | word b w ws s hb hw hc hs hsep ih =>
    constructor
    · rw [wordsGo_white _ _ hb, wordsGo_word _ _ _ fun c h => (hc c h).1, List.append_nil]
      have hr : w.reverse ≠ [] := by simpa using hw
      cases s with
      | nil =>
        have : ws = [] := by
          by_contra hne
          obtain ⟨c, r, h, -⟩ := hsep hne
          cases h
        rw [this, wordsGo, if_neg hr, List.reverse_reverse]
      | cons c r =>
        have hwc : White c := by
          cases ws with
          | nil =>
            cases hs with
            | done _ hb' => exact hb' c List.mem_cons_self
          | cons w' ws' =>
            obtain ⟨c', r', h, h'⟩ := hsep (by simp)
            cases h
            exact h'
        have h1 := ih.1
        rw [wordsGo_end _ _ _ hwc, if_pos rfl] at h1
        rw [wordsGo_end _ _ _ hwc, if_neg hr, List.reverse_reverse, h1]
    · intro c hm
      rcases List.mem_append.1 hm with h | h
      · rcases hb c h with rfl | rfl | rfl | rfl <;> decide
      · rcases List.mem_append.1 h with h | h
        · exact (hc c h).2
        · exact ih.2 c h

/-- **C208** (lines).  The fields of a line are its words, whatever white space and comment it has. -/
theorem C208_line (ws : List Str) (line : Str) (h : LineOf ws line) : fields line = ws := by
  obtain ⟨s, hs, hl⟩ := h
  obtain ⟨h1, h2⟩ := laid_words ws s hs
  have hp : ∀ c ∈ s, decide (c ≠ '#') = true := fun c hc => by simp [h2 c hc]
  have : line.takeWhile (· ≠ '#') = s := by
    rcases hl with rfl | ⟨c, rfl⟩
    · have := (split_at_first (fun c => decide (c ≠ '#')) line [] hp (by intro c r h; cases h)).1
      rwa [List.append_nil] at this
    · exact (split_at_first (fun c => decide (c ≠ '#')) s ('#' :: c) hp (by intro d r h; cases h; rfl)).1
  unfold fields
  rw [this, h1]

/-- **C208** (other texts).  A line with a field which is no number is a ValueError, wherever the field is. -/
theorem C208_bad_field (fs gs : List Str) (f : Str) (hf : parseNum f = none) : parseRow (fs ++ f :: gs) = .error .valueError := by
  induction fs with
  | nil => rw [List.nil_append, parseRow, hf]
  | cons g fs ih =>
    rw [List.cons_append, parseRow]
    cases parseNum g with
    | none => rfl
    | some x => simp only [ih]

example : parseRow ["1.5".toList, "2,0".toList, "7".toList] = .error .valueError := C208_bad_field ["1.5".toList] ["7".toList] _ (by decide +kernel)

theorem parseRow_text (r : List Decimal) (hp : ∀ d ∈ r, d.Proper) :
    parseRow (r.map Decimal.text) = .ok (r.map Decimal.value) := by
  induction r with
  | nil => rfl
  | cons d r ih =>
    simp only [List.map_cons, parseRow, C208_number d (hp d List.mem_cons_self), ih fun e he => hp e (List.mem_cons_of_mem _ he)]

theorem parseRows_file (rows : List (List Decimal)) (lines : List Str) (h : FileOf rows lines) :
    parseRows lines = .ok (rows.map fun r => r.map Decimal.value) := by
  induction h with
  | done => rfl
  | skip l ls rows hl h ih => rw [parseRows, if_pos (C208_line _ _ hl), ih]
  | row r l ls rows hr hp hl h ih =>
    rw [parseRows, C208_line _ _ hl, if_neg (by simpa using hr), parseRow_text r hp, ih]
    rfl

end layout

section file

/-- **C208** (table).  A file with at least two rows, all with the same number of at least two columns, gives these columns. -/
theorem C208_table (n : ℕ) (hn : 2 ≤ n) (rows : List (List Decimal)) (hrows : 2 ≤ rows.length) (hlen : ∀ r ∈ rows, r.length = n)
    (lines : List Str) (h : FileOf rows lines) :
    loadTxt lines = .ok (.columns ((List.range n).map fun j => rows.map fun r => (r.map Decimal.value).getD j 0)) := by
  unfold loadTxt
  rw [parseRows_file rows lines h]
  cases rows with
  | nil => simp at hrows
  | cons r rows =>
    have hr : r.length = n := hlen r List.mem_cons_self
    simp only [List.map_cons]
    rw [if_pos (by
      intro x hx
      obtain ⟨y, hy, rfl⟩ := List.mem_map.1 hx
      simp [hr, hlen y (List.mem_cons_of_mem _ hy)]), if_neg (by
      intro h0
      rw [List.map_eq_nil_iff] at h0
      subst h0
      simp at hrows), if_neg (by rw [List.length_map]; omega)]
    simp [columns, hr]

/-- Column `j` of the numbers. -/
def column (rows : List (List Decimal)) (j : ℕ) : List ℚ := rows.map fun r => (r.map Decimal.value).getD j 0

/-- **C208.**  The model in a file with four columns (depths, velocities, numbers of layers), or with three, in any layout. -/
theorem C208_model (pkg : Str) (loadtxt : Str → Res (Table ℚ)) (c : Models ℚ) (fname : Str) (hnew : c.get fname = none) (file : Str)
    (hfile : file = if fname = "iasp91".toList then pkg else fname) (rows : List (List Decimal)) (lines : List Str)
    (h : FileOf rows lines) (hload : loadtxt file = loadTxt lines) (hrows : 2 ≤ rows.length) :
    ((∀ r ∈ rows, r.length = 4) → (loadModel pkg loadtxt c fname).2 =
      Verif.Model.Simple.SimpleModel.init (column rows 0) (column rows 1) (column rows 2) (some ((column rows 3).map toInt))) ∧
    ((∀ r ∈ rows, r.length = 3) → (loadModel pkg loadtxt c fname).2 =
      Verif.Model.Simple.SimpleModel.init (column rows 0) (column rows 1) (column rows 2) none) := by
  obtain ⟨h4, h3, -⟩ := C115_first_call pkg loadtxt c fname hnew file hfile
  exact ⟨fun hl => h4 _ _ _ _ (by rw [hload, C208_table 4 (by omega) rows hrows hl lines h]; rfl),
    fun hl => h3 _ _ _ (by rw [hload, C208_table 3 (by omega) rows hrows hl lines h]; rfl)⟩

/-- **C208** (ragged).  Rows of different lengths are an error, in whatever layout. -/
theorem C208_ragged (rows : List (List Decimal)) (r : List Decimal) (hr : r ∈ rows) (r0 : List Decimal) (rest : List (List Decimal))
    (h0 : rows = r0 :: rest) (hne : r.length ≠ r0.length) (lines : List Str) (h : FileOf rows lines) :
    loadTxt lines = .error .valueError := by
  unfold loadTxt
  rw [parseRows_file rows lines h]
  subst h0
  simp only [List.map_cons]
  rw [if_neg]
  intro hall
  rcases List.mem_cons.1 hr with rfl | hr
  · exact hne rfl
  · have := hall _ (List.mem_map.2 ⟨r, hr, rfl⟩)
    simp only [List.length_map] at this
    exact hne this

/-- **C208** (one row or one column).  A file with a single row, with a single column or without numbers gives no table of columns: a
single row with three or four numbers is a `TypeError` of `load_model`, anything else of this kind a `ValueError`. -/
theorem C208_single (pkg : Str) (loadtxt : Str → Res (Table ℚ)) (c : Models ℚ) (fname : Str) (hnew : c.get fname = none)
    (rows : List (List Decimal)) (lines : List Str) (h : FileOf rows lines)
    (hload : loadtxt (if fname = "iasp91".toList then pkg else fname) = loadTxt lines) :
    (∀ r, rows = [r] → loadTxt lines = .ok (.flat (r.map Decimal.value)) ∧ (loadModel pkg loadtxt c fname).2 =
      .error (if r.length = 4 ∨ r.length = 3 then .typeError else .valueError)) ∧
    (rows = [] → (loadModel pkg loadtxt c fname).2 = .error .valueError) ∧
    (2 ≤ rows.length → (∀ r ∈ rows, r.length = 1) → loadTxt lines = .ok (.flat (column rows 0))) := by
  have hf : modelFile pkg fname = if fname = "iasp91".toList then pkg else fname := rfl
  refine ⟨fun r hr => ?_, fun hr => ?_, fun h2 h1 => ?_⟩
  · have h1 : loadTxt lines = .ok (.flat (r.map Decimal.value)) := by
      unfold loadTxt
      rw [parseRows_file rows lines h, hr]
      simp
    refine ⟨h1, ?_⟩
    unfold loadModel
    rw [hnew, hf, hload, h1]
    simp only [fromTable, List.length_map]
    by_cases h4 : r.length = 4 ∨ r.length = 3
    · simp only [if_pos h4]
    · simp only [if_neg h4]
  · have h1 : loadTxt lines = .ok (.flat []) := by
      unfold loadTxt
      rw [parseRows_file rows lines h, hr]
      rfl
    unfold loadModel
    rw [hnew, hf, hload, h1]
    rfl
  · unfold loadTxt
    rw [parseRows_file rows lines h]
    cases rows with
    | nil => simp at h2
    | cons r rows =>
      have hr : r.length = 1 := h1 r List.mem_cons_self
      simp only [List.map_cons]
      rw [if_pos (by
        intro x hx
        obtain ⟨y, hy, rfl⟩ := List.mem_map.1 hx
        simp [hr, h1 y (List.mem_cons_of_mem _ hy)]), if_neg (by
        intro h0
        rw [List.map_eq_nil_iff] at h0
        subst h0
        simp at h2), if_pos (by rw [List.length_map]; exact hr)]
      simp [column]

/-- A line with tabs, signs, exponents and a comment. -/
example : LineOf [(⟨none, [1, 0], some [5], none⟩ : Decimal).text, (⟨some true, [], some [2, 5], some (false, some false, [1])⟩ : Decimal).text]
    "\t10.5 \t-.25e+1 # km".toList ∧
    (⟨none, [1, 0], some [5], none⟩ : Decimal).value = 21 / 2 ∧
    (⟨some true, [], some [2, 5], some (false, some false, [1])⟩ : Decimal).value = -5 / 2 := by
  refine ⟨⟨"\t10.5 \t-.25e+1 ".toList, ?_, Or.inr ⟨" km".toList, by decide⟩⟩, by decide +kernel, by decide +kernel⟩
  refine Laid.word "\t".toList "10.5".toList _ " \t-.25e+1 ".toList ?_ (by decide) ?_ ?_ fun _ => ⟨' ', "\t-.25e+1 ".toList, by decide, Or.inl rfl⟩
  · intro c hc
    have : c = '\t' := by simpa using hc
    exact Or.inr (Or.inl this)
  · have : ∀ c ∈ "10.5".toList, ¬ (c = ' ' ∨ c = '\t' ∨ c = '\r' ∨ c = '\n') ∧ c ≠ '#' := by decide
    exact this
  · refine Laid.word " \t".toList "-.25e+1".toList [] " ".toList ?_ (by decide) ?_ (Laid.done _ ?_) fun h => absurd rfl h
    · have : ∀ c ∈ " \t".toList, (c = ' ' ∨ c = '\t' ∨ c = '\r' ∨ c = '\n') := by decide
      exact this
    · have : ∀ c ∈ "-.25e+1".toList, ¬ (c = ' ' ∨ c = '\t' ∨ c = '\r' ∨ c = '\n') ∧ c ≠ '#' := by decide
      exact this
    · have : ∀ c ∈ " ".toList, (c = ' ' ∨ c = '\t' ∨ c = '\r' ∨ c = '\n') := by decide
      exact this

end file

end Verif.Props
