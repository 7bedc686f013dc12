import Verif.Py.Basic

/-!
# Comments in configuration files
-/

namespace Verif.Spec
open Verif.Py

/-- Comments run from `#` to the end of the line; the flag tells whether we are inside a comment. -/
def dropComments : Bool → Str → Str
  | _, [] => []
  | true, c :: s => if c = '\n' then c :: dropComments false s else dropComments true s
  | false, c :: s => if c = '#' then dropComments true s else c :: dropComments false s

/-- States of a reader which knows JSON strings. -/
inductive Lex | outside | string | escape | comment
  deriving DecidableEq, Repr

/-- Next state.  A JSON string ends with its closing quote; a raw line break is not allowed inside. -/
def Lex.next : Lex → Char → Lex
  | .outside, c => if c = '"' then .string else if c = '#' then .comment else .outside
  | .string, c => if c = '"' then .outside else if c = '\\' then .escape else if c = '\n' then .outside else .string
  | .escape, c => if c = '\n' then .outside else .string
  | .comment, c => if c = '\n' then .outside else .comment

/-- Comments removed, `#` inside of strings kept. -/
def dropJsonComments : Lex → Str → Str
  | _, [] => []
  | st, c :: s =>
    if st.next c = .comment then dropJsonComments .comment s else c :: dropJsonComments (st.next c) s

/-- No `#` inside of a string. -/
def NoHashInStrings : Lex → Str → Prop
  | _, [] => True
  | st, c :: s => ((st = .string ∨ st = .escape) → c ≠ '#') ∧ NoHashInStrings (st.next c) s

end Verif.Spec
