import Verif.Py.Fnmatch

/-!
# File name patterns

`?` stands for one character and `*` for any number of characters of a path component, `[...]` for one character of a set
and `[!...]` for one character which is not in the set.  A bracket that is not closed stands for itself.
-/

namespace Verif.Spec
open Verif.Py

/-- The pattern after an opening bracket describes a set: the characters up to the next closing bracket, at least one. -/
def IsSet (p : Str) (neg : Bool) (body rest : Str) : Prop :=
  p = (if neg then ['!'] else []) ++ (body ++ ']' :: rest) ∧ body ≠ [] ∧ ']' ∉ body.tail ∧
    (neg = false → body.head? ≠ some '!')

/-- Does the pattern describe the path? -/
inductive Glob : Str → Str → Prop
  | nil : Glob [] []
  | one (c : Char) (p s : Str) (hc : c ≠ '/') (h : Glob p s) : Glob ('?' :: p) (c :: s)
  | many (x p s : Str) (hx : '/' ∉ x) (h : Glob p s) : Glob ('*' :: p) (x ++ s)
  | set (neg : Bool) (body : Str) (c : Char) (p rest s : Str) (hp : IsSet p neg body rest) (hb : '/' ∉ body) (hc : c ≠ '/')
      (hm : setHas body c ≠ neg) (h : Glob rest s) : Glob ('[' :: p) (c :: s)
  | open (p s : Str) (hp : ¬ ∃ neg body rest, IsSet p neg body rest ∧ '/' ∉ body) (h : Glob p s) : Glob ('[' :: p) ('[' :: s)
  | char (c : Char) (p s : Str) (h1 : c ≠ '?') (h2 : c ≠ '*') (h3 : c ≠ '[') (h : Glob p s) : Glob (c :: p) (c :: s)

/-- Does the pattern describe the text?  `?` stands for one character and `*` for any text. -/
inductive Wild : Str → Str → Prop
  | nil : Wild [] []
  | one (c : Char) (p s : Str) (h : Wild p s) : Wild ('?' :: p) (c :: s)
  | many (x p s : Str) (h : Wild p s) : Wild ('*' :: p) (x ++ s)
  | set (neg : Bool) (body : Str) (c : Char) (p rest s : Str) (hp : IsSet p neg body rest)
      (hm : setHas body c ≠ neg) (h : Wild rest s) : Wild ('[' :: p) (c :: s)
  | open (p s : Str) (hp : ¬ ∃ neg body rest, IsSet p neg body rest) (h : Wild p s) : Wild ('[' :: p) ('[' :: s)
  | char (c : Char) (p s : Str) (h1 : c ≠ '?') (h2 : c ≠ '*') (h3 : c ≠ '[') (h : Wild p s) : Wild (c :: p) (c :: s)

/-- No wildcard in it. -/
def Literal (s : Str) : Prop := '?' ∉ s ∧ '*' ∉ s ∧ '[' ∉ s

/-- Network, station and location codes and channels as used in practice. -/
def CleanCode (s : Str) : Prop := '.' ∉ s ∧ '/' ∉ s ∧ '_' ∉ s ∧ Literal s

end Verif.Spec
