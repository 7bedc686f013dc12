/-!
# Python basics used by the model

Only the fragment of Python semantics that the code of `/repo/rf` relies on.
-/

namespace Verif.Py

/-- A Python `str`, as the list of its characters (code points). -/
abbrev Str := List Char

/-- Python exceptions, by class. -/
inductive PyErr
  | valueError | indexError | keyError | typeError | attributeError
  | notImplemented | zeroDivision | assertionError | parseError | nameError | other
  deriving DecidableEq, Repr

/-- Result of a Python computation that may raise. -/
abbrev Res (α : Type _) := Except PyErr α

instance {α : Type _} [DecidableEq α] : DecidableEq (Res α) := fun a b =>
  match a, b with
  | .ok x, .ok y => if h : x = y then isTrue (by rw [h]) else isFalse (by simpa using h)
  | .error x, .error y => if h : x = y then isTrue (by rw [h]) else isFalse (by simpa using h)
  | .ok _, .error _ => isFalse (by simp)
  | .error _, .ok _ => isFalse (by simp)

/-- Python slice bound: negative bounds count from the end, then clamp to `[0, n]`. -/
def clampIdx (n : Nat) (i : Int) : Nat :=
  if i < 0 then (i + n).toNat else min i.toNat n

/-- `l[:j]` -/
def sliceTo {α} (l : List α) (j : Int) : List α := l.take (clampIdx l.length j)

/-- `l[i:]` -/
def sliceFrom {α} (l : List α) (i : Int) : List α := l.drop (clampIdx l.length i)

/-- `l[i:j]` -/
def slice {α} (l : List α) (i j : Int) : List α :=
  (l.take (clampIdx l.length j)).drop (clampIdx l.length i)

/-- `l[i]` with Python's negative indices; `IndexError` outside. -/
def getItem {α} (l : List α) (i : Int) : Res α :=
  let j := if i < 0 then i + l.length else i
  if 0 ≤ j then
    match l[j.toNat]? with
    | some x => .ok x
    | none => .error .indexError
  else .error .indexError

/-- `a in b` for strings: substring test (`'' in b` is true). -/
def isSubstr (a : Str) : Str → Bool
  | [] => a == []
  | c :: b => a.isPrefixOf (c :: b) || isSubstr a b

/-- `s.upper()` restricted to ASCII letters. -/
def upper (s : Str) : Str := s.map Char.toUpper

theorem toUpper_idem (c : Char) : c.toUpper.toUpper = c.toUpper := by
  unfold Char.toUpper
  split
  · rename_i h
    rw [dif_neg]
    rintro ⟨h1, h2⟩
    simp only [UInt32.le_iff_toNat_le, UInt32.toNat_add] at h h1 h2
    simp at h h1 h2
    omega
  · rfl

theorem upper_idem (s : Str) : upper (upper s) = upper s := by
  unfold upper
  rw [List.map_map]
  exact List.map_congr_left fun c _ => toUpper_idem c

@[simp] theorem upper_length (s : Str) : (upper s).length = s.length := by simp [upper]

@[simp] theorem upper_nil : upper [] = [] := rfl

/-- `s.lower()` restricted to ASCII letters. -/
def lower (s : Str) : Str := s.map Char.toLower

/-- `s.split(c)` for a one-character separator. -/
def splitOn (c : Char) : Str → List Str
  | [] => [[]]
  | d :: s =>
    if d = c then [] :: splitOn c s
    else match splitOn c s with
      | [] => [[d]]
      | w :: ws => (d :: w) :: ws

/-- `sep.join(ws)` for a one-character separator. -/
def joinWith (c : Char) : List Str → Str
  | [] => []
  | [w] => w
  | w :: v :: ws => w ++ c :: joinWith c (v :: ws)

/-- A Python `dict` with string keys: association list in insertion order. -/
abbrev Dict (V : Type _) := List (String × V)

namespace Dict
variable {V : Type _}

/-- `d.get(k)` -/
def get (d : Dict V) (k : String) : Option V :=
  match d with
  | [] => none
  | (k', v) :: rest => if k' = k then some v else get rest k

/-- `d[k] = v` (keeps the position of an existing key). -/
def set (d : Dict V) (k : String) (v : V) : Dict V :=
  match d with
  | [] => [(k, v)]
  | (k', v') :: rest => if k' = k then (k', v) :: rest else (k', v') :: set rest k v

/-- `d.pop(k, None)` -/
def erase (d : Dict V) (k : String) : Dict V := d.filter (fun p => p.1 ≠ k)

/-- `d.update(e)` -/
def update (d e : Dict V) : Dict V := e.foldl (fun d p => set d p.1 p.2) d

/-- `k in d` -/
def has (d : Dict V) (k : String) : Bool := (get d k).isSome

/-- The keys of `d` in order. -/
def keys (d : Dict V) : List String := d.map Prod.fst

@[simp] theorem get_nil (k : String) : get ([] : Dict V) k = none := rfl

@[simp] theorem get_set_self (d : Dict V) (k : String) (v : V) : get (set d k v) k = some v := by
  induction d with
  | nil => simp [set, get]
  | cons p d ih =>
    obtain ⟨k', v'⟩ := p
    by_cases h : k' = k <;> simp [set, get, h, ih]

theorem get_set_ne (d : Dict V) {k k' : String} (v : V) (h : k' ≠ k) :
    get (set d k v) k' = get d k' := by
  induction d with
  | nil => simp [set, get, Ne.symm h]
  | cons p d ih =>
    obtain ⟨k'', v''⟩ := p
    by_cases h1 : k'' = k
    · subst h1; simp [set, get, Ne.symm h]
    · by_cases h2 : k'' = k'
      · subst h2; simp [set, get, h]
      · simp [set, get, h1, h2, ih]

theorem get_set (d : Dict V) (k k' : String) (v : V) :
    get (set d k v) k' = if k' = k then some v else get d k' := by
  by_cases h : k' = k
  · subst h; simp
  · simp [h, get_set_ne]

theorem get_erase (d : Dict V) (k k' : String) :
    get (erase d k) k' = if k' = k then none else get d k' := by
  induction d with
  | nil => simp [erase, get]
  | cons p d ih =>
    obtain ⟨k'', v''⟩ := p
    simp only [erase, List.filter_cons] at ih ⊢
    by_cases h1 : k'' = k
    · subst h1
      by_cases h2 : k' = k''
      · subst h2; simp at ih ⊢; exact ih
      · simp [h2, get, Ne.symm h2] at ih ⊢; exact ih
    · by_cases h2 : k'' = k'
      · subst h2; simp [h1, get]
      · simp only [h1, ne_eq, not_false_eq_true, decide_true, if_true, get, h2, if_false]
        exact ih

/-- Lookup after `update`: the last entry of `e` for the key wins, otherwise `d`. -/
theorem get_update (d e : Dict V) (k : String) :
    get (update d e) k = ((get e.reverse k).or (get d k)) := by
  induction e generalizing d with
  | nil => simp [update]
  | cons p e ih =>
    obtain ⟨k', v⟩ := p
    have : update d ((k', v) :: e) = update (set d k' v) e := rfl
    rw [this, ih, List.reverse_cons]
    have happ : ∀ (a b : Dict V), get (a ++ b) k = (get a k).or (get b k) := by
      intro a b
      induction a with
      | nil => simp
      | cons q a iha =>
        obtain ⟨q1, q2⟩ := q
        by_cases hq : q1 = k <;> simp [get, hq, iha]
    rw [happ, Option.or_assoc]
    congr 1
    by_cases h : k = k'
    · subst h; simp [get]
    · simp [get, Ne.symm h, get_set_ne _ _ h]

/-- A dictionary has no key twice. -/
def NodupKeys (d : Dict V) : Prop := (keys d).Nodup

theorem get_eq_none_iff (d : Dict V) (k : String) : get d k = none ↔ k ∉ keys d := by
  induction d with
  | nil => simp [keys]
  | cons p d ih =>
    obtain ⟨k', v⟩ := p
    by_cases h : k' = k
    · subst h; simp [get, keys]
    · simp only [keys] at ih
      simp [get, keys, h, ih, Ne.symm h]

theorem get_append (a b : Dict V) (k : String) :
    get (a ++ b) k = (get a k).or (get b k) := by
  induction a with
  | nil => simp
  | cons q a iha =>
    obtain ⟨q1, q2⟩ := q
    by_cases hq : q1 = k <;> simp [get, hq, iha]

/-- With unique keys the reading direction does not matter. -/
theorem get_reverse (d : Dict V) (h : NodupKeys d) (k : String) :
    get d.reverse k = get d k := by
  induction d with
  | nil => rfl
  | cons p d ih =>
    obtain ⟨k', v⟩ := p
    simp only [NodupKeys, keys, List.map_cons, List.nodup_cons] at h
    rw [List.reverse_cons, get_append, ih h.2]
    by_cases hk : k' = k
    · subst hk
      have : get d k' = none := (get_eq_none_iff d k').2 h.1
      simp [get, this]
    · simp [get, hk]

end Dict

end Verif.Py
