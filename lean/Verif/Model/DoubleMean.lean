import Verif.Py.Double
import Verif.Model.Profile
import Verif.Model.Stream

/-!
# Stack and profile in double precision (`rf/rfstream.py` lines 403-430, `rf/profile.py` lines 85-118)

The samples are rational numbers and the result of each addition and division of samples is rounded to the nearest number
with 53 bits (`fl64`; exponents are not bounded, so there is neither overflow nor loss of digits of tiny numbers).  The
headers are treated as in `Model/Stream.lean` and `Model/Profile.lean`.
-/

namespace Verif.Model.DoubleMean
open Verif.Py Verif.Model Verif.Model.Profile

/-- An order of additions of rows.  NumPy adds the rows one after the other or pairwise, depending on the shape of the
array and the version. -/
inductive SumOrder
  | row (i : ℕ)
  | add (l r : SumOrder)

namespace SumOrder

/-- The rows added. -/
def rows : SumOrder → List ℕ
  | .row i => [i]
  | .add l r => l.rows ++ r.rows

/-- The largest number of additions a row takes part in. -/
def depth : SumOrder → ℕ
  | .row _ => 0
  | .add l r => max l.depth r.depth + 1

/-- The sum of one sample of the rows, each addition rounded. -/
def sum64 (x : ℕ → ℚ) : SumOrder → ℚ
  | .row i => x i
  | .add l r => fl64 (sum64 x l + sum64 x r)

/-- The rows `0, …, n` one after the other. -/
def oneByOne : ℕ → SumOrder
  | 0 => .row 0
  | n + 1 => .add (oneByOne n) (.row (n + 1))

end SumOrder

/-- rfstream.py 417: `np.mean(rows, axis=0)`, the additions in the order `o n` for `n` rows. -/
def npMean64 (o : ℕ → SumOrder) (rows : List (List ℚ)) : Res (List ℚ) :=
  match rows with
  | [] => .error .other
  | r :: rs =>
    if rs.all (fun q => q.length == r.length) then
      .ok ((List.range r.length).map fun i =>
        fl64 ((o (rs.length + 1)).sum64 (fun j => ((r :: rs).getD j []).getD i 0) / ((rs.length + 1 : ℕ) : ℚ)))
    else .error .valueError

/-- rfstream.py 416-428: one stacked trace, with the mean as argument (`Model.stackOne` is the case of exact means). -/
def stackOneWith (mean : List (List ℚ) → Res (List ℚ)) (h : Heap ℚ) (s : List Nat) (tr : Trace ℚ) (ident : Str) :
    Res (Trace ℚ) :=
  match splitOn '.' ident with
  | [net, sta, loc, cha] =>
    match mean ((s.filter (fun r => (h r).id = ident)).map (fun r => (h r).data)) with
    | .error e => .error e
    | .ok data =>
      let ext : Dict (Val ℚ) := stackEntries.filterMap fun k => (tr.ext.get k).map fun v => (k, v)
      let t2 : Trace ℚ := { net := net, sta := sta, loc := loc, cha := cha, start := 0, sr := tr.sr,
                            data := data, ext := ext }
      match tr.ext.get "onset" with
      | some (.time o) => .ok (t2.put "onset" (.time (0 + (o - tr.start))))
      | some _ => .error .typeError
      | none => .ok t2
  | _ => .error .valueError

/-- rfstream.py 403-430 `stack` with samples in double precision. -/
def stack64 (o : ℕ → SumOrder) (order : List Str → List Str) (h : Heap ℚ) (s : List Nat) : Res (List (Trace ℚ)) :=
  match s with
  | [] => .error .indexError
  | r0 :: _ => (order (s.map (fun r => (h r).id))).mapM (stackOneWith (npMean64 o) h s (h r0))

/-- profile.py 115: `tr2.data + tr.data` of NumPy arrays, each sum rounded. -/
def npAdd64 (a b : List ℚ) : Res (List ℚ) :=
  if a.length = b.length then .ok (List.zipWith (fun x y => fl64 (x + y)) a b)
  else match a, b with
    | [x], b => .ok (b.map fun y => fl64 (x + y))
    | a, [y] => .ok (a.map fun x => fl64 (x + y))
    | _, _ => .error .valueError

/-- profile.py 113-116: add the data of a trace to an existing profile trace. -/
def addTrace64 (t2 t : Trace ℚ) : Res (Trace ℚ) :=
  match npAdd64 t2.data t.data with
  | .error e => .error e
  | .ok d =>
    match t2.getNum "num" with
    | none => .error .attributeError
    | some n => .ok ({ t2 with data := d }.put "num" (.num (n + 1)))

/-- profile.py 87-116: body of the loop, with the addition as argument (`Profile.step` is the case of `addTrace`). -/
def stepWith (add : Trace ℚ → Trace ℚ → Res (Trace ℚ)) (within : ℚ × ℚ → List (ℚ × ℚ) → Bool) (boxes : List (Box ℚ))
    (crs : Bool) (st : PState ℚ) (r : Nat) : Res (PState ℚ) :=
  let t := st.heap r
  match piercingPoint t with
  | .error e => .error e
  | .ok p =>
    match findBox within boxes crs p with
    | .error e => .error e
    | .ok none => .ok st
    | .ok (some box) =>
      match t.comp with
      | none => .error .indexError
      | some comp =>
        match lookup st.stack (box.pos, comp) with
        | none =>
          match newTrace boxes box comp t with
          | .error e => .error e
          | .ok t2 => .ok { heap := st.heap.set st.next t2,
                            stack := st.stack ++ [((box.pos, comp), st.next)], next := st.next + 1 }
        | some q =>
          match add (st.heap q) t with
          | .error e => .error e
          | .ok t2 => .ok { st with heap := st.heap.set q t2 }

/-- profile.py 86-116: the loop. -/
def loop64 (within : ℚ × ℚ → List (ℚ × ℚ) → Bool) (boxes : List (Box ℚ)) (crs : Bool) :
    PState ℚ → List Nat → Res (PState ℚ)
  | st, [] => .ok st
  | st, r :: s =>
    match stepWith addTrace64 within boxes crs st r with
    | .error e => .error e
    | .ok st' => loop64 within boxes crs st' s

/-- profile.py 118: `tr2.data / tr2.stats.num`, each quotient rounded. -/
def divide64 (t : Trace ℚ) : Trace ℚ :=
  { t with data := t.data.map (fun (x : ℚ) => fl64 (x / (t.getNum "num").getD 1)) }

/-- profile.py 75-130 `profile` with samples in double precision. -/
def profile64 (within : ℚ × ℚ → List (ℚ × ℚ) → Bool) (boxes : List (Box ℚ)) (crs : Bool) (h : Heap ℚ)
    (s : List Nat) (next : Nat) : Res (Heap ℚ × List Nat) :=
  match loop64 within boxes crs ⟨h, [], next⟩ s with
  | .error e => .error e
  | .ok st =>
    let refs := st.stack.map Prod.snd
    let h1 := Heap.forEach divide64 st.heap refs
    let l := sortProfile h1 refs
    .ok (Heap.forEach (fun t => t.put "type" (.str "profile".toList)) h1 l, l)

end Verif.Model.DoubleMean
