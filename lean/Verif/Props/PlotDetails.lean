import Verif.Props.ImagingProfile
import Verif.Props.ImagingHarmonics
import Verif.Props.JsonProps
import Verif.Props.Models

/-!
# C104, C107, C180: filled samples of a profile, harmonics which cannot be trimmed, keys which occur twice; C115: numbers of
layers which are no integers
-/

set_option linter.unusedSimpArgs false
set_option linter.unusedSectionVars false

namespace Verif.Props
open Verif.Py Verif.Model Verif.Model.Imaging Verif.Spec Verif.Model.JsonText

section plots
variable {K : Type} [Field K] [LinearOrder K] [IsStrictOrderedRing K]

/-- **C104** (colors).  With two colors every sample of a curve which is a number is filled with exactly one of them: the first to
the right of the position of the box and on it, the second to the left; samples which are NaN are not filled. -/
theorem C104_fill (c1 c2 : Char) (s1 s2 : Str) (scale m w : K) (t : Trace K) (c : ProfCurve K)
    (h : profCurve (some (c1 :: s1), some (c2 :: s2)) scale m w t = .ok c) :
    ∃ f g, c.fills = [f, g] ∧ f.color = c1 :: s1 ∧ g.color = c2 :: s2 ∧ f.base = c.pos ∧ g.base = c.pos ∧
      f.which.length = c.x.length ∧ g.which.length = c.x.length ∧
      ∀ (k : ℕ) (v : Option K), c.x[k]? = some v → (∀ q, v = some q → f.which[k]? = some (decide (c.pos ≤ q)) ∧ g.which[k]? = some (decide (q < c.pos))) ∧
        (v = none → f.which[k]? = some false ∧ g.which[k]? = some false) := by
  unfold profCurve at h
  cases h1 : attr "box_pos" t with
  | error e => simp [h1] at h
  | ok pos =>
    simp only [h1] at h
    cases h2 : onset t with
    | error e => simp [h2] at h
    | ok o =>
      simp only [h2, Except.ok.injEq] at h
      subst h
      refine ⟨_, _, rfl, rfl, rfl, rfl, rfl, by simp, by simp, fun k v hv => ⟨?_, ?_⟩⟩
      · rintro q rfl
        simp only [List.getElem?_map]
        simp only at hv
        rw [hv]
        simp
      · rintro rfl
        simp only [List.getElem?_map]
        simp only at hv
        rw [hv]
        simp

/-- **C107** (trim).  Harmonics without the attributes which trimming needs are plotted as they are; all other errors of trimming
are passed on. -/
theorem C107_untrimmed (colors : Option Str × Option Str) (f : List (Trace K) → Res (List (Trace K))) (hd hd2 : List (Trace K)) :
    (f hd = .error .attributeError → plotHarmonics colors (some f) hd hd2 = plotHarmonics colors none hd hd2) ∧
    (∀ e, f hd = .error e → e ≠ .attributeError → plotHarmonics colors (some f) hd hd2 = .error e) ∧
    (∀ a, f hd = .ok a → hd2 = [] → plotHarmonics colors (some f) hd hd2 = plotHarmonics colors none a []) ∧
    (∀ a b, f hd = .ok a → hd2 ≠ [] → f hd2 = .ok b → plotHarmonics colors (some f) hd hd2 = plotHarmonics colors none a b) ∧
    (∀ a, f hd = .ok a → hd2 ≠ [] → f hd2 = .error .attributeError →
      plotHarmonics colors (some f) hd hd2 = plotHarmonics colors none a hd2) ∧
    (∀ a e, f hd = .ok a → hd2 ≠ [] → f hd2 = .error e → e ≠ .attributeError → plotHarmonics colors (some f) hd hd2 = .error e) := by
  refine ⟨fun h => ?_, fun e h hne => ?_, fun a h h2 => ?_, fun a b h h2 h3 => ?_, fun a h h2 h3 => ?_, fun a e h h2 h3 hne => ?_⟩
  · simp only [plotHarmonics, harmTrim, h]
  · simp only [plotHarmonics, harmTrim, h]
  · subst h2
    simp only [plotHarmonics, harmTrim, h]
  · cases hd2 with
    | nil => exact absurd rfl h2
    | cons t ts => simp only [plotHarmonics, harmTrim, h, h3]
  · cases hd2 with
    | nil => exact absurd rfl h2
    | cons t ts => simp only [plotHarmonics, harmTrim, h, h3]
  · cases hd2 with
    | nil => exact absurd rfl h2
    | cons t ts =>
      simp only [plotHarmonics, harmTrim, h, h3]

end plots

section json
variable {K : Type} [Field K] [LinearOrder K] [IsStrictOrderedRing K]

/-- The members of an object as a list of keys and values. -/
def pairs : Members K → List (Str × Json K)
  | .nil => []
  | .cons k v m => (k, v) :: pairs m

theorem toDictGo_get (m : Members K) (d0 d : Dict (Val K)) (h : toDictGo d0 m = some d) (k : Str) :
    d.get (String.ofList k) = match (pairs m).reverse.find? (fun p => p.1 = k) with
      | some p => toVal p.2
      | none => d0.get (String.ofList k) := by
  match m with
  | .nil =>
    simp only [toDictGo, Option.some.injEq] at h
    subst h
    rfl
  | .cons k' j m =>
    rw [toDictGo] at h
    cases hv : toVal j with
    | none => rw [hv] at h; cases h
    | some v =>
      rw [hv] at h
      rw [toDictGo_get m _ d h k]
      simp only [pairs, List.reverse_cons, List.find?_append]
      cases hf : (pairs m).reverse.find? (fun p => p.1 = k) with
      | some p => rfl
      | none =>
        by_cases hk : k' = k
        · subst hk
          simp [hv]
        · have : String.ofList k ≠ String.ofList k' := fun h0 => hk (String.ofList_injective h0).symm
          rw [Dict.get_set_ne _ _ this]
          simp [hk]

/-- **C180** (equal keys).  If a key occurs several times in the text of the headers, the last value is used. -/
theorem C180_last (T : NumText K) (s : Str) (m : Members K) (d : Dict (Val K)) (hs : loads T s = some (.obj m))
    (h : loadsHeaders T s = .ok d) (k : Str) (v : Json K) (hl : (pairs m).reverse.find? (fun p => p.1 = k) = some (k, v)) :
    d.get (String.ofList k) = toVal v := by
  unfold loadsHeaders at h
  rw [hs] at h
  simp only at h
  cases hd : toDictGo [] m with
  | none => rw [hd] at h; cases h
  | some d' =>
    rw [hd] at h
    cases h
    rw [toDictGo_get m [] d hd k, hl]

end json

/-- **C115** (numbers of layers).  Numbers in the fourth column of a model file which are no integers are rounded towards zero. -/
theorem C115_rounding {K : Type} [Field K] [LinearOrder K] [IsStrictOrderedRing K] [FloorRing K] (x : K) :
    |((Ppoints.toInt x : ℤ) : K)| ≤ |x| ∧ |x| < |((Ppoints.toInt x : ℤ) : K)| + 1 ∧ 0 ≤ x * ((Ppoints.toInt x : ℤ) : K) := by
  unfold Ppoints.toInt
  split
  · rename_i h
    have h1 : (0 : K) ≤ ⌊x⌋ := by exact_mod_cast Int.floor_nonneg.2 h
    rw [abs_of_nonneg h, abs_of_nonneg h1]
    exact ⟨Int.floor_le x, Int.lt_floor_add_one x, mul_nonneg h h1⟩
  · rename_i h
    have h := not_le.1 h
    have h1 : ((⌈x⌉ : ℤ) : K) ≤ 0 := by exact_mod_cast Int.ceil_le.2 (by simpa using h.le)
    rw [abs_of_neg h, abs_of_nonpos h1]
    exact ⟨neg_le_neg (Int.le_ceil x), by have := Int.ceil_lt_add_one x; linarith, mul_nonneg_of_nonpos_of_nonpos h.le h1⟩

/-! ## Cases -/

/-- A curve with samples on both sides of the box and one on its position. -/
def fillTrace : Trace ℚ := ⟨[], [], [], "Q".toList, 0, 1, [1, -1, 0], [("onset", .time 0), ("box_pos", .num 10)]⟩

example : ∃ c, profCurve (some "black".toList, some "white".toList) 1 1 4 fillTrace = .ok c ∧ c.fills.length = 2 ∧
    c.fills.map Fill.which = [[true, false, true], [false, true, false]] := ⟨_, rfl, by decide +kernel⟩

/-- Harmonics which cannot be trimmed. -/
example : (fun _ => .error .attributeError : List (Trace ℚ) → Res (List (Trace ℚ))) [fillTrace] = .error .attributeError := rfl

example : Ppoints.toInt (-5 / 2 : ℚ) = -2 ∧ Ppoints.toInt (5 / 2 : ℚ) = 2 := by decide +kernel

end Verif.Props
