import Verif.Model.LoadTxt
import Verif.Model.Headers

/-!
# The JSON texts of `rf/rfstream.py` (lines 553-558, 605-610) and `rf/batch.py` (lines 179-184, 216-226, 245-249)

`json.loads` and `json.dumps(…, separators=(',', ':'))` of the Python library.  Conversion between the text of a number and
its value (`float.__repr__`, `float`, `int`) is a parameter.  Lone surrogates (`"\ud800"`), which Python accepts, are errors
here because they are not characters.
-/

namespace Verif.Model.JsonText
open Verif.Py Verif.Model.Headers

mutual
/-- Decoded JSON values; `const` are the words `NaN`, `Infinity` and `-Infinity` accepted by Python. -/
inductive Json (K : Type)
  | null
  | bool (b : Bool)
  | num (x : K)
  | const (s : Str)
  | str (s : Str)
  | arr (l : Items K)
  | obj (l : Members K)
  deriving DecidableEq, Repr
/-- Items of an array. -/
inductive Items (K : Type)
  | nil
  | cons (v : Json K) (l : Items K)
  deriving DecidableEq, Repr
/-- Members of an object in the order of the text. -/
inductive Members (K : Type)
  | nil
  | cons (k : Str) (v : Json K) (l : Members K)
  deriving DecidableEq, Repr
end

/-- Texts of numbers: `repr` and `float`/`int`. -/
structure NumText (K : Type) where
  repr : K → Str
  value : Str → K

/-! ### Encoder -/

/-- A digit of `'{:x}'.format`. -/
def hexDigit (d : ℕ) : Char := if d < 10 then Char.ofNat (48 + d) else Char.ofNat (87 + d)

/-- `'{:04x}'.format(n)` for `n < 65536`. -/
def hex4 (n : ℕ) : Str := [hexDigit (n / 4096 % 16), hexDigit (n / 256 % 16), hexDigit (n / 16 % 16), hexDigit (n % 16)]

/-- One character of a string as written with `ensure_ascii`: what has no short form and is not printable ASCII
becomes `\uXXXX`, two of these above the basic plane. -/
def escapeChar (c : Char) : Str :=
  if c = '"' then ['\\', '"']
  else if c = '\\' then ['\\', '\\']
  else if c = '\n' then ['\\', 'n']
  else if c = '\r' then ['\\', 'r']
  else if c = '\t' then ['\\', 't']
  else if c.toNat = 8 then ['\\', 'b']
  else if c.toNat = 12 then ['\\', 'f']
  else if 32 ≤ c.toNat ∧ c.toNat ≤ 126 then [c]
  else if c.toNat < 65536 then '\\' :: 'u' :: hex4 c.toNat
  else '\\' :: 'u' :: (hex4 (55296 + (c.toNat - 65536) / 1024) ++ '\\' :: 'u' :: hex4 (56320 + (c.toNat - 65536) % 1024))

/-- The characters of a string without quotes. -/
def escape : Str → Str
  | [] => []
  | c :: s => escapeChar c ++ escape s

/-- A quoted string. -/
def quote (s : Str) : Str := '"' :: (escape s ++ ['"'])

section
variable {K : Type} (T : NumText K)

mutual
/-- `json.dumps(v, separators=(',', ':'))`. -/
def dump : Json K → Str
  | .null => "null".toList
  | .bool true => "true".toList
  | .bool false => "false".toList
  | .num x => T.repr x
  | .const s => s
  | .str s => quote s
  | .arr .nil => ['[', ']']
  | .arr (.cons v l) => '[' :: (dump v ++ dumpItems l)
  | .obj .nil => ['{', '}']
  | .obj (.cons k v l) => '{' :: (quote k ++ ':' :: (dump v ++ dumpMembers l))
/-- The items after the first one and the closing bracket. -/
def dumpItems : Items K → Str
  | .nil => [']']
  | .cons v l => ',' :: (dump v ++ dumpItems l)
/-- The members after the first one and the closing brace. -/
def dumpMembers : Members K → Str
  | .nil => ['}']
  | .cons k v l => ',' :: (quote k ++ ':' :: (dump v ++ dumpMembers l))
end

end

/-! ### Decoder -/

/-- Skip white space (`WHITESPACE`, the four characters of JSON). -/
def skipWs : Str → Str
  | [] => []
  | c :: s => if c = ' ' ∨ c = '\t' ∨ c = '\n' ∨ c = '\r' then skipWs s else c :: s

/-- Value of a hexadecimal digit. -/
def hexVal (c : Char) : Option ℕ :=
  if '0' ≤ c ∧ c ≤ '9' then some (c.toNat - 48)
  else if 'a' ≤ c ∧ c ≤ 'f' then some (c.toNat - 87)
  else if 'A' ≤ c ∧ c ≤ 'F' then some (c.toNat - 55)
  else none

/-- Four hexadecimal digits. -/
def parseHex4 : Str → Option (ℕ × Str)
  | a :: b :: c :: d :: r =>
    match hexVal a, hexVal b, hexVal c, hexVal d with
    | some x, some y, some z, some w => some (((x * 16 + y) * 16 + z) * 16 + w, r)
    | _, _, _, _ => none
  | _ => none

/-- The rest of the text after the word `w`. -/
def afterWord : Str → Str → Option Str
  | [], s => some s
  | _ :: _, [] => none
  | c :: w, d :: s => if c = d then afterWord w s else none

/-- What follows `\u`. -/
def parseUnicode (s : Str) : Option (Char × Str) :=
  match parseHex4 s with
  | none => none
  | some (n, r) =>
    if 55296 ≤ n ∧ n ≤ 56319 then
      match afterWord ['\\', 'u'] r with
      | none => none
      | some r =>
        match parseHex4 r with
        | none => none
        | some (m, r) =>
          if 56320 ≤ m ∧ m ≤ 57343 then some (Char.ofNat (65536 + (n - 55296) * 1024 + (m - 56320)), r) else none
    else if 56320 ≤ n ∧ n ≤ 57343 then none
    else some (Char.ofNat n, r)

/-- What follows a backslash. -/
def unescape : Str → Option (Char × Str)
  | [] => none
  | c :: r =>
    if c = '"' ∨ c = '\\' ∨ c = '/' then some (c, r)
    else if c = 'b' then some (Char.ofNat 8, r)
    else if c = 'f' then some (Char.ofNat 12, r)
    else if c = 'n' then some ('\n', r)
    else if c = 'r' then some ('\r', r)
    else if c = 't' then some ('\t', r)
    else if c = 'u' then parseUnicode r
    else none

/-- What follows the opening quote of a string; control characters are errors.  The first argument bounds the number
of steps. -/
def parseString : ℕ → Str → Option (Str × Str)
  | 0, _ => none
  | _ + 1, [] => none
  | n + 1, c :: r =>
    if c = '"' then some ([], r)
    else if c = '\\' then
      match unescape r with
      | none => none
      | some (d, r) =>
        match parseString n r with
        | none => none
        | some (s, r) => some (d :: s, r)
    else if c.toNat < 32 then none
    else
      match parseString n r with
      | none => none
      | some (s, r) => some (c :: s, r)

/-- A decimal digit. -/
def isDigit (c : Char) : Bool := '0' ≤ c && c ≤ '9'

/-- The digits at the beginning. -/
def digits : Str → Str × Str
  | [] => ([], [])
  | c :: s => if isDigit c then (c :: (digits s).1, (digits s).2) else ([], c :: s)

/-- `-?` -/
def lexSign : Str → Str × Str
  | '-' :: r => (['-'], r)
  | r => ([], r)

/-- `0|[1-9][0-9]*` -/
def lexInt : Str → Option (Str × Str)
  | [] => none
  | c :: r => if c = '0' then some (['0'], r) else if isDigit c then some (c :: (digits r).1, (digits r).2) else none

/-- `(\.[0-9]+)?` -/
def lexFrac : Str → Str × Str
  | '.' :: r => if (digits r).1 = [] then ([], '.' :: r) else ('.' :: (digits r).1, (digits r).2)
  | r => ([], r)

/-- The sign of the exponent. -/
def lexExpSign : Str → Str × Str
  | [] => ([], [])
  | c :: r => if c = '-' ∨ c = '+' then ([c], r) else ([], c :: r)

/-- `([eE][-+]?[0-9]+)?` -/
def lexExp : Str → Str × Str
  | [] => ([], [])
  | c :: r =>
    if c = 'e' ∨ c = 'E' then
      let (sg, q) := lexExpSign r
      if (digits q).1 = [] then ([], c :: r) else (c :: (sg ++ (digits q).1), (digits q).2)
    else ([], c :: r)

/-- `NUMBER_RE`: the text of the number and the rest. -/
def lexNumber (s : Str) : Option (Str × Str) :=
  match lexInt (lexSign s).2 with
  | none => none
  | some (i, r) =>
    some ((lexSign s).1 ++ (i ++ ((lexFrac r).1 ++ (lexExp (lexFrac r).2).1)), (lexExp (lexFrac r).2).2)

section
variable {K : Type} (T : NumText K)

/-- Words and numbers. -/
def parseScalar (s : Str) : Option (Json K × Str) :=
  match afterWord "null".toList s with
  | some r => some (.null, r)
  | none =>
  match afterWord "true".toList s with
  | some r => some (.bool true, r)
  | none =>
  match afterWord "false".toList s with
  | some r => some (.bool false, r)
  | none =>
  match lexNumber s with
  | some (w, r) => some (.num (T.value w), r)
  | none =>
  match afterWord "NaN".toList s with
  | some r => some (.const "NaN".toList, r)
  | none =>
  match afterWord "Infinity".toList s with
  | some r => some (.const "Infinity".toList, r)
  | none =>
  match afterWord "-Infinity".toList s with
  | some r => some (.const "-Infinity".toList, r)
  | none => none

mutual
/-- `JSONDecoder.scan_once`: a value at the beginning of the text and the rest; `none` is `JSONDecodeError`.  The first
argument bounds the depth of the recursion. -/
def parseValue : ℕ → Str → Option (Json K × Str)
  | 0, _ => none
  | _ + 1, [] => none
  | n + 1, c :: r =>
    if c = '"' then
      match parseString (r.length + 1) r with
      | none => none
      | some (s, r) => some (.str s, r)
    else if c = '{' then
      match skipWs r with
      | [] => none
      | d :: q =>
        if d = '}' then some (.obj .nil, q)
        else match parseMembers n (d :: q) with
          | none => none
          | some (m, q) => some (.obj m, q)
    else if c = '[' then
      match skipWs r with
      | [] => none
      | d :: q =>
        if d = ']' then some (.arr .nil, q)
        else match parseItems n (d :: q) with
          | none => none
          | some (m, q) => some (.arr m, q)
    else parseScalar T (c :: r)
/-- The items of an array from the first one on, with the closing bracket (`JSONArray`). -/
def parseItems : ℕ → Str → Option (Items K × Str)
  | 0, _ => none
  | n + 1, s =>
    match parseValue n s with
    | none => none
    | some (v, r) =>
      match skipWs r with
      | [] => none
      | d :: q =>
        if d = ']' then some (.cons v .nil, q)
        else if d = ',' then
          match parseItems n (skipWs q) with
          | none => none
          | some (l, q) => some (.cons v l, q)
        else none
/-- The members of an object from the first one on, with the closing brace (`JSONObject`). -/
def parseMembers : ℕ → Str → Option (Members K × Str)
  | 0, _ => none
  | _ + 1, [] => none
  | n + 1, c :: s =>
    if c = '"' then
      match parseString (s.length + 1) s with
      | none => none
      | some (k, r) =>
        match skipWs r with
        | [] => none
        | d :: q =>
          if d = ':' then
            match parseValue n (skipWs q) with
            | none => none
            | some (v, r) =>
              match skipWs r with
              | [] => none
              | d :: q =>
                if d = '}' then some (.cons k v .nil, q)
                else if d = ',' then
                  match parseMembers n (skipWs q) with
                  | none => none
                  | some (l, q) => some (.cons k v l, q)
                else none
          else none
    else none
end

/-- `json.loads(s)`: white space around one value, nothing else. -/
def loads (s : Str) : Option (Json K) :=
  match parseValue T (s.length + 1) (skipWs s) with
  | none => none
  | some (v, r) => if skipWs r = [] then some v else none

/-! ### Headers in the comment of a Q file -/

/-- A list of strings. -/
def itemsOf : List Str → Items K
  | [] => .nil
  | s :: l => .cons (.str s) (itemsOf l)

/-- The strings of an array; `none` if there are other items. -/
def strItems : Items K → Option (List Str)
  | .nil => some []
  | .cons (.str s) l => (strItems l).map (s :: ·)
  | .cons _ _ => none

/-- A header value as written; a time is not serialisable: `default` (lines 607-608 of rfstream.py) returns it
unchanged, which is reported as circular reference. -/
def ofVal : Val K → Res (Json K)
  | .num x => .ok (.num x)
  | .str s => .ok (.str s)
  | .list l => .ok (.arr (itemsOf l))
  | .time _ => .error .valueError

/-- The members of a dictionary. -/
def ofDict : Dict (Val K) → Res (Members K)
  | [] => .ok .nil
  | (k, v) :: d =>
    match ofVal v with
    | .error e => .error e
    | .ok j =>
      match ofDict d with
      | .error e => .error e
      | .ok m => .ok (.cons k.toList j m)

/-- A decoded value among the headers; values which rf does not write there are not represented. -/
def toVal : Json K → Option (Val K)
  | .num x => some (.num x)
  | .str s => some (.str s)
  | .arr l => (strItems l).map .list
  | _ => none

/-- `dict(pairs)`: the last one of several equal keys wins, at the place of the first. -/
def toDictGo : Dict (Val K) → Members K → Option (Dict (Val K))
  | d, .nil => some d
  | d, .cons k j m =>
    match toVal j with
    | none => none
    | some v => toDictGo (d.set (String.ofList k) v) m

/-- `json.dumps(comment, separators=(',', ':'), default=default)` (rfstream.py lines 607-610). -/
def dumpsHeaders (d : Dict (Val K)) : Res Str :=
  match ofDict d with
  | .error e => .error e
  | .ok m => .ok (dump T (.obj m))

/-- `json.loads(value)` with a dictionary as result (rfstream.py lines 555-557); `st.update` of something else raises
`TypeError`. -/
def loadsHeaders (s : Str) : Res (Dict (Val K)) :=
  match loads T s with
  | none => .error .parseError
  | some (.obj m) =>
    match toDictGo [] m with
    | none => .error .typeError
    | some d => .ok d
  | some _ => .error .typeError

/-- An environment for the format specific headers with the functions of this file. -/
def withJson (E : FmtEnv K) : FmtEnv K := { E with dumps := dumpsHeaders T, loads := loadsHeaders T }

end

/-- `str(n)` for a natural number. -/
def natText (n : ℕ) : Str :=
  if n < 10 then [Char.ofNat (48 + n)] else natText (n / 10) ++ [Char.ofNat (48 + n % 10)]

/-- `str(n)` for an integer. -/
def intText (n : ℤ) : Str := if n < 0 then '-' :: natText n.natAbs else natText n.natAbs

/-- Numbers in decimal notation with their exact values; `repr` is the one of integers. -/
def exactText : NumText ℚ where
  repr := fun x => intText x.num
  value := fun s => (LoadTxt.parseNum s).getD 0

end Verif.Model.JsonText
