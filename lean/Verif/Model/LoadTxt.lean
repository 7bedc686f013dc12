import Verif.Model.Ppoints

/-!
# `np.loadtxt(fname, unpack=True)` as called by `load_model` (`rf/simple_model.py` line 38)

Comments start with `#`, fields are separated by white space, empty lines are skipped.  Numbers are in decimal
notation with optional sign, fraction and exponent; `inf` and `nan` (which NumPy accepts) are errors here.  Values are
exact.
-/

namespace Verif.Model.LoadTxt
open Verif.Py Verif.Model.Ppoints

/-- Fields of a line: maximal words without white space. -/
def wordsGo : Str → Str → List Str
  | acc, [] => if acc = [] then [] else [acc.reverse]
  | acc, c :: s =>
    if c = ' ' ∨ c = '\t' ∨ c = '\r' ∨ c = '\n' then (if acc = [] then wordsGo [] s else acc.reverse :: wordsGo [] s)
    else wordsGo (c :: acc) s

/-- `line.split('#')[0].split()` -/
def fields (line : Str) : List Str := wordsGo [] (line.takeWhile (· ≠ '#'))

/-- Value of a sequence of decimal digits. -/
def digitsGo : ℕ → Str → Option ℕ
  | acc, [] => some acc
  | acc, c :: s => if '0' ≤ c ∧ c ≤ '9' then digitsGo (10 * acc + (c.toNat - 48)) s else none

/-- An integer with sign; at least one digit. -/
def parseInt (s : Str) : Option ℤ :=
  match s with
  | '-' :: r => if r = [] then none else (digitsGo 0 r).map fun n => -(n : ℤ)
  | '+' :: r => if r = [] then none else (digitsGo 0 r).map fun n => (n : ℤ)
  | r => if r = [] then none else (digitsGo 0 r).map fun n => (n : ℤ)

/-- A number without sign and exponent: digits with at most one point, at least one digit. -/
def parseDec (s : Str) : Option ℚ :=
  let a := s.takeWhile (· ≠ '.')
  let b := (s.dropWhile (· ≠ '.')).drop 1
  if a = [] ∧ b = [] then none
  else match digitsGo 0 (a ++ b) with
    | none => none
    | some n => some ((n : ℚ) / (10 : ℚ) ^ b.length)

/-- A number with sign and exponent. -/
def parseNum (s : Str) : Option ℚ :=
  let neg := s.head? = some '-'
  let u := if s.head? = some '-' ∨ s.head? = some '+' then s.drop 1 else s
  let mant := u.takeWhile (fun c => c ≠ 'e' ∧ c ≠ 'E')
  let rest := u.dropWhile (fun c => c ≠ 'e' ∧ c ≠ 'E')
  match parseDec mant, (if rest = [] then some 0 else parseInt (rest.drop 1)) with
  | some q, some e => some ((if neg then -1 else 1) * q * (10 : ℚ) ^ e)
  | _, _ => none

/-- The numbers of one line; a field which is no number raises `ValueError`. -/
def parseRow : List Str → Res (List ℚ)
  | [] => .ok []
  | f :: fs =>
    match parseNum f with
    | none => .error .valueError
    | some x =>
      match parseRow fs with
      | .error e => .error e
      | .ok xs => .ok (x :: xs)

/-- The numbers of all lines with at least one field. -/
def parseRows : List Str → Res (List (List ℚ))
  | [] => .ok []
  | l :: ls =>
    if fields l = [] then parseRows ls
    else match parseRow (fields l) with
      | .error e => .error e
      | .ok r =>
        match parseRows ls with
        | .error e => .error e
        | .ok rs => .ok (r :: rs)

/-- Columns of a table with `n` columns. -/
def columns (n : ℕ) (rows : List (List ℚ)) : List (List ℚ) :=
  (List.range n).map fun j => rows.map fun r => r.getD j 0

/-- `np.loadtxt(file, unpack=True)` for the lines of a file: different numbers of columns raise `ValueError`, a single row or
column is squeezed (also the result for a file without numbers has one dimension only). -/
def loadTxt (lines : List Str) : Res (Table ℚ) :=
  match parseRows lines with
  | .error e => .error e
  | .ok [] => .ok (.flat [])
  | .ok (r :: rows) =>
    if ∀ x ∈ rows, x.length = r.length then
      if rows = [] then .ok (.flat r)
      else if r.length = 1 then .ok (.flat ((r :: rows).map fun x => x.getD 0 0))
      else .ok (.columns (columns r.length (r :: rows)))
    else .error .valueError

end Verif.Model.LoadTxt
