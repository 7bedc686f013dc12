import Verif.Model.Maps
import Mathlib.Data.List.Dedup
import Mathlib.Tactic.Linarith
import Mathlib.Tactic.Positivity

/-!
# Maps of stations, piercing points and boxes (C127, C128, C129)
-/

set_option linter.unusedSimpArgs false
set_option linter.unusedSectionVars false

namespace Verif.Props
open Verif.Py Verif.Model Verif.Model.Maps

section maps
variable {K : Type} [Field K] [LinearOrder K] [IsStrictOrderedRing K]

/-! ## C127: every station is marked and labelled once, at its place -/

/-- **C129** (style).  Boxes are drawn below the piercing points and these below the stations, which are marked by triangles; boxes are not
filled, so that nothing is hidden. -/
theorem C129_style : ∃ b p s : K, (boxStyle : Style K).get "zorder" = some (.num b) ∧ (ppointStyle : Style K).get "zorder" = some (.num p) ∧
    (stationStyle : Style K).get "zorder" = some (.num s) ∧ b < p ∧ p < s ∧ (boxStyle : Style K).get "facecolor" = some (.str "none".toList) ∧
    (stationStyle : Style K).get "marker" = some (.str "v".toList) ∧ (ppointStyle : Style K).get "marker" = some (.str "x".toList) :=
  ⟨1, 2, 3, rfl, rfl, rfl, by norm_num, by norm_num, rfl, rfl, rfl⟩

theorem stationOf_ok {t : Trace K} {p : (K × K) × Str} :
    stationOf t = .ok p ↔
      t.getNum "station_latitude" = some p.1.1 ∧ t.getNum "station_longitude" = some p.1.2 ∧ t.sta = p.2 := by
  obtain ⟨⟨a, b⟩, n⟩ := p
  unfold stationOf
  cases h1 : t.getNum "station_latitude" with
  | none => simp
  | some x =>
    cases h2 : t.getNum "station_longitude" with
    | none => simp
    | some y => simp [and_assoc]

theorem mapM_stationOf (l : List (Trace K))
    (h : ∀ t ∈ l, (t.getNum "station_latitude").isSome ∧ (t.getNum "station_longitude").isSome) :
    ∃ data, l.mapM stationOf = .ok data ∧ data.length = l.length ∧
      ∀ p, p ∈ data ↔ ∃ t ∈ l, t.getNum "station_latitude" = some p.1.1 ∧ t.getNum "station_longitude" = some p.1.2 ∧ t.sta = p.2 := by
  induction l with
  | nil => exact ⟨[], rfl, rfl, by simp⟩
  | cons t l ih =>
    obtain ⟨data, hd, hl, hm⟩ := ih fun u hu => h u (List.mem_cons_of_mem _ hu)
    obtain ⟨h1, h2⟩ := h t (by simp)
    obtain ⟨x, hx⟩ := Option.isSome_iff_exists.mp h1
    obtain ⟨y, hy⟩ := Option.isSome_iff_exists.mp h2
    have hs : stationOf t = .ok ((x, y), t.sta) := stationOf_ok.mpr ⟨hx, hy, rfl⟩
    refine ⟨((x, y), t.sta) :: data, ?_, by simp [hl], ?_⟩
    · rw [List.mapM_cons, hs, hd]; rfl
    · intro p
      rw [List.mem_cons, hm p]
      constructor
      · rintro (rfl | ⟨u, hu, hp⟩)
        · exact ⟨t, by simp, hx, hy, rfl⟩
        · exact ⟨u, List.mem_cons_of_mem _ hu, hp⟩
      · rintro ⟨u, hu, hp⟩
        rcases List.mem_cons.mp hu with rfl | hu
        · left
          have := stationOf_ok.mpr hp
          rw [hs] at this
          exact (Except.ok.inj this).symm
        · exact Or.inr ⟨u, hu, hp⟩

theorem mapM_stationOf_error (l : List (Trace K)) (t : Trace K) (ht : t ∈ l)
    (h : t.getNum "station_latitude" = none ∨ t.getNum "station_longitude" = none) :
    l.mapM stationOf = .error PyErr.attributeError := by
  have hany : ∀ u : Trace K, (∃ p, stationOf u = .ok p) ∨ stationOf u = .error .attributeError := by
    intro u
    unfold stationOf
    cases u.getNum "station_latitude" <;> cases u.getNum "station_longitude" <;> simp
  have hbad : stationOf t = .error .attributeError := by
    unfold stationOf
    rcases h with h | h
    · rw [h]
    · rw [h]; cases t.getNum "station_latitude" <;> rfl
  induction l with
  | nil => simp at ht
  | cons u l ih =>
    rw [List.mapM_cons]
    rcases List.mem_cons.mp ht with rfl | ht
    · rw [hbad]; rfl
    · rcases hany u with ⟨p, hp⟩ | hp
      · rw [hp, ih ht]; rfl
      · rw [hp]; rfl

/-- Drawing into given axes keeps what is there and adds the marks, then the labels. -/
theorem plotStations_ax (order : List ((K × K) × Str) → List ((K × K) × Str)) (inv : Stations K) (labels : Bool) (a : MapAx K)
    (crs : Bool) (kwargs : Style K) (l : List ((K × K) × Str)) (h : stationList order inv = .ok l) :
    plotStations order inv labels (some a) crs kwargs = .ok ⟨a.proj, a.elems ++ [.points (l.map fun p => (p.1.2, p.1.1)) (stationStyle.update kwargs)] ++
      (if labels then l.map fun p => .label p.2 (p.1.2, p.1.1) else [])⟩ := by
  unfold plotStations
  rw [h]
  rfl

/-- **C127 (streams).** If all traces of a stream have station coordinates, each pair of place and station name that occurs in the
stream is marked once at (longitude, latitude) and, if wanted, labelled once there with its name; nothing else is drawn and what was
in the axes stays. -/
theorem C127_stream (order : List ((K × K) × Str) → List ((K × K) × Str)) (horder : ∀ l, (order l).Perm l.dedup)
    (l : List (Trace K)) (hne : l ≠ [])
    (h : ∀ t ∈ l, (t.getNum "station_latitude").isSome ∧ (t.getNum "station_longitude").isSome)
    (labels : Bool) (a : MapAx K) (crs : Bool) (kwargs : Style K) :
    ∃ st : List ((K × K) × Str), st.Nodup ∧
      (∀ p, p ∈ st ↔ ∃ t ∈ l, t.getNum "station_latitude" = some p.1.1 ∧ t.getNum "station_longitude" = some p.1.2 ∧ t.sta = p.2) ∧
      plotStations order (.stream l) labels (some a) crs kwargs =
        .ok ⟨a.proj, a.elems ++ [.points (st.map fun p => (p.1.2, p.1.1)) (stationStyle.update kwargs)] ++
          (if labels then st.map fun p => .label p.2 (p.1.2, p.1.1) else [])⟩ := by
  obtain ⟨data, hd, hlen, hm⟩ := mapM_stationOf l h
  refine ⟨order data, (horder data).nodup_iff.mpr (List.nodup_dedup _), ?_, ?_⟩
  · intro p
    rw [(horder data).mem_iff, List.mem_dedup, hm]
  · apply plotStations_ax
    unfold stationList
    simp only []
    rw [hd]
    cases data with
    | nil => exact absurd (List.length_eq_zero_iff.mp hlen.symm) hne
    | cons p ps => rfl

/-- **C127 (inventories).** All entries of an inventory are marked and labelled, in their order. -/
theorem C127_inventory (order : List ((K × K) × Str) → List ((K × K) × Str)) (nets : List (List ((K × K) × Str)))
    (hne : nets.flatten ≠ []) (labels : Bool) (a : MapAx K) (crs : Bool) (kwargs : Style K) :
    plotStations order (.inventory nets) labels (some a) crs kwargs =
      .ok ⟨a.proj, a.elems ++ [.points (nets.flatten.map fun p => (p.1.2, p.1.1)) (stationStyle.update kwargs)] ++
        (if labels then nets.flatten.map fun p => .label p.2 (p.1.2, p.1.1) else [])⟩ := by
  apply plotStations_ax
  show (match nets.flatten with | [] => Except.error PyErr.valueError | l => Except.ok l) = _
  cases h : nets.flatten with
  | nil => exact absurd h hne
  | cons p ps => rfl

/-- **C127 (partial).** An inventory without repeated stations is drawn like the stream of its stations: each of them once. -/
theorem C127_inventory_once_partial (order : List ((K × K) × Str) → List ((K × K) × Str)) (nets : List (List ((K × K) × Str)))
    (hnd : nets.flatten.Nodup) (hne : nets.flatten ≠ []) (a : MapAx K) (crs : Bool) (kwargs : Style K) (p : (K × K) × Str) :
    ∃ a', plotStations order (.inventory nets) true (some a) crs kwargs = .ok a' ∧
      (a'.elems.drop a.elems.length).count (.label p.2 (p.1.2, p.1.1)) = if (∃ n ∈ nets, p ∈ n) then 1 else 0 := by
  refine ⟨_, C127_inventory order nets hne true a crs kwargs, ?_⟩
  simp only [if_pos, List.append_assoc, List.drop_left, List.singleton_append]
  rw [List.count_cons_of_ne (by simp)]
  have hinj : Function.Injective (fun p : (K × K) × Str => (Elem.label p.2 (p.1.2, p.1.1) : Elem K)) := by
    rintro ⟨⟨a1, b1⟩, n1⟩ ⟨⟨a2, b2⟩, n2⟩ h
    simp only [Elem.label.injEq, Prod.mk.injEq] at h
    obtain ⟨rfl, rfl, rfl⟩ := h
    rfl
  have := List.count_map_of_injective nets.flatten _ hinj p
  rw [show (Elem.label p.2 (p.1.2, p.1.1) : Elem K) = (fun p : (K × K) × Str => (Elem.label p.2 (p.1.2, p.1.1) : Elem K)) p from rfl, this]
  have hmem : p ∈ nets.flatten ↔ ∃ n ∈ nets, p ∈ n := List.mem_flatten
  by_cases hp : ∃ n ∈ nets, p ∈ n
  · rw [if_pos hp, List.count_eq_one_of_mem hnd (hmem.mpr hp)]
  · rw [if_neg hp, List.count_eq_zero_of_not_mem fun h => hp (hmem.mp h)]

/-- **C127 (negation).** A station that is listed twice in an inventory, as usual for stations with several epochs, is marked and
labelled twice; in a stream it is drawn once. -/
theorem C127_counterexample :
    (plotStations (K := ℚ) List.dedup (.inventory [[((-21, -69), "PB01".toList), ((-21, -69), "PB01".toList)]]) true
        (some ⟨.given, []⟩) false []).toOption.map (fun a => a.elems.count (.label "PB01".toList (-69, -21))) = some 2 ∧
    (plotStations (K := ℚ) List.dedup
        (.stream (List.replicate 2 ⟨"CX".toList, "PB01".toList, [], "BHZ".toList, 0, 1, [],
          [("station_latitude", .num (-21)), ("station_longitude", .num (-69))]⟩)) true
        (some ⟨.given, []⟩) false []).toOption.map (fun a => a.elems.count (.label "PB01".toList (-69, -21))) = some 1 := by
  constructor <;> decide +kernel

/-- **C127 (errors).** Nothing is drawn without stations (`ValueError`), or if a trace has no coordinates (`AttributeError`, or
`ValueError` if no trace has samples). -/
theorem C127_errors (order : List ((K × K) × Str) → List ((K × K) × Str)) (labels : Bool) (ax : Option (MapAx K)) (crs : Bool) (kwargs : Style K) :
    plotStations order (.stream []) labels ax crs kwargs = .error .valueError ∧
    (∀ nets : List (List ((K × K) × Str)), (∀ n ∈ nets, n = []) →
      plotStations order (.inventory nets) labels ax crs kwargs = .error .valueError) ∧
    (∀ l : List (Trace K), (∃ t ∈ l, t.getNum "station_latitude" = none ∨ t.getNum "station_longitude" = none) →
      plotStations order (.stream l) labels ax crs kwargs =
        .error (if ∃ t ∈ l, t.data ≠ [] then .attributeError else .valueError)) := by
  refine ⟨rfl, ?_, ?_⟩
  · intro nets hn
    unfold plotStations stationList
    simp only []
    rw [show nets.flatten = [] from List.flatten_eq_nil_iff.mpr hn]
  · rintro l ⟨t, ht, hb⟩
    unfold plotStations stationList
    simp only []
    rw [mapM_stationOf_error l t ht hb]
    simp only []
    by_cases hd : ∃ t ∈ l, t.data ≠ []
    · rw [if_pos hd, if_neg]
      obtain ⟨u, hu, hud⟩ := hd
      intro hall
      exact hud (List.isEmpty_iff.mp (List.all_eq_true.mp hall u hu))
    · rw [if_neg hd, if_pos]
      rw [List.all_eq_true]
      intro u hu
      rw [List.isEmpty_iff]
      by_contra hud
      exact hd ⟨u, hu, hud⟩

/-! ## C128: the centre of the map -/

theorem countP_ge_of_take {α : Type} (p : α → Bool) (s : List α) (k : Nat) (hk : k ≤ s.length) (h : ∀ i (hi : i < s.length), i < k → p s[i] = true) :
    k ≤ s.countP p := by
  have h1 : (s.take k).countP p = k := by
    have : (s.take k).countP p = (s.take k).length := by
      rw [List.countP_eq_length]
      intro a ha
      obtain ⟨i, hi, rfl⟩ := List.getElem_of_mem ha
      rw [List.getElem_take]
      rw [List.length_take] at hi
      exact h i (by omega) (by omega)
    rw [this, List.length_take]
    omega
  calc k = (s.take k).countP p := h1.symm
    _ ≤ s.countP p := (List.take_sublist k s).countP_le

theorem countP_ge_of_drop {α : Type} (p : α → Bool) (s : List α) (k : Nat) (h : ∀ i (hi : i < s.length), k ≤ i → p s[i] = true) :
    s.length - k ≤ s.countP p := by
  have h1 : (s.drop k).countP p = s.length - k := by
    have : (s.drop k).countP p = (s.drop k).length := by
      rw [List.countP_eq_length]
      intro a ha
      obtain ⟨i, hi, rfl⟩ := List.getElem_of_mem ha
      rw [List.getElem_drop]
      rw [List.length_drop] at hi
      exact h _ (by omega) (by omega)
    rw [this, List.length_drop]
  calc s.length - k = (s.drop k).countP p := h1.symm
    _ ≤ s.countP p := (List.drop_sublist k s).countP_le

/-- At least half of the values are not larger and at least half of them are not smaller. -/
def Halves (m : K) (l : List K) : Prop :=
  l.length ≤ 2 * l.countP (fun x => decide (x ≤ m)) ∧ l.length ≤ 2 * l.countP (fun x => decide (m ≤ x))

theorem sorted_get_le {l : List K} {i j : Nat} (hi : i < (l.insertionSort (· ≤ ·)).length) (hj : j < (l.insertionSort (· ≤ ·)).length)
    (h : i ≤ j) : (l.insertionSort (· ≤ ·))[i] ≤ (l.insertionSort (· ≤ ·))[j] := by
  rcases Nat.lt_or_eq_of_le h with h | rfl
  · exact List.pairwise_iff_getElem.mp (List.pairwise_insertionSort (r := (· ≤ ·)) l) i j hi hj h
  · exact le_refl _

theorem median_halves (l : List K) (hne : l ≠ []) : Halves (median l) l := by
  have hperm := List.perm_insertionSort (· ≤ ·) l
  have hpos : 0 < l.length := List.length_pos_of_ne_nil hne
  have hlen : (l.insertionSort (· ≤ ·)).length = l.length := hperm.length_eq
  unfold Halves
  rw [← hperm.countP_eq, ← hperm.countP_eq, ← hlen]
  unfold median
  simp only []
  generalize hs : l.insertionSort (· ≤ ·) = s at *
  have hmono : ∀ i j (hi : i < s.length) (hj : j < s.length), i ≤ j → s[i] ≤ s[j] := by
    subst hs
    intro i j hi hj h
    exact sorted_get_le hi hj h
  have hs0 : 0 < s.length := by omega
  by_cases hodd : s.length % 2 = 1
  · rw [if_pos hodd]
    have hk : s.length / 2 < s.length := by omega
    rw [List.getD_eq_getElem?_getD, List.getElem?_eq_getElem hk]
    simp only [Option.getD_some]
    constructor
    · have := countP_ge_of_take (fun x => decide (x ≤ s[s.length / 2])) s (s.length / 2 + 1) (by omega)
        (fun i hi hik => decide_eq_true (hmono _ _ hi hk (by omega)))
      omega
    · have := countP_ge_of_drop (fun x => decide (s[s.length / 2] ≤ x)) s (s.length / 2)
        (fun i hi hik => decide_eq_true (hmono _ _ hk hi (by omega)))
      omega
  · rw [if_neg hodd]
    have hk : s.length / 2 < s.length := by omega
    have hk1 : s.length / 2 - 1 < s.length := by omega
    rw [List.getD_eq_getElem?_getD, List.getD_eq_getElem?_getD, List.getElem?_eq_getElem hk, List.getElem?_eq_getElem hk1]
    simp only [Option.getD_some]
    have hab := hmono _ _ hk1 hk (by omega)
    generalize ha : s[s.length / 2 - 1] = a at *
    generalize hb : s[s.length / 2] = b at *
    have h1 : a ≤ (a + b) / 2 := by linarith
    have h2 : (a + b) / 2 ≤ b := by linarith
    constructor
    · have := countP_ge_of_take (fun x => decide (x ≤ (a + b) / 2)) s (s.length / 2) (by omega)
        (fun i hi hik => decide_eq_true (le_trans (ha ▸ hmono i (s.length / 2 - 1) hi hk1 (by omega)) h1))
      omega
    · have := countP_ge_of_drop (fun x => decide ((a + b) / 2 ≤ x)) s (s.length / 2)
        (fun i hi hik => decide_eq_true (le_trans h2 (hb ▸ hmono (s.length / 2) i hk hi (by omega))))
      omega

theorem halves_between {m : K} {l : List K} (hne : l ≠ []) (h : Halves m l) : (∃ x ∈ l, x ≤ m) ∧ ∃ x ∈ l, m ≤ x := by
  have hpos : 0 < l.length := List.length_pos_of_ne_nil hne
  obtain ⟨h1, h2⟩ := h
  constructor
  · obtain ⟨x, hx, hp⟩ := List.countP_pos_iff.mp (show 0 < l.countP (fun x => decide (x ≤ m)) by omega)
    exact ⟨x, hx, of_decide_eq_true hp⟩
  · obtain ⟨x, hx, hp⟩ := List.countP_pos_iff.mp (show 0 < l.countP (fun x => decide (m ≤ x)) by omega)
    exact ⟨x, hx, of_decide_eq_true hp⟩

theorem median_perm {l l' : List K} (h : l.Perm l') : median l = median l' := by
  have : l.insertionSort (· ≤ ·) = l'.insertionSort (· ≤ ·) :=
    List.Perm.eq_of_sortedLE List.sortedLE_insertionSort List.sortedLE_insertionSort
      (((List.perm_insertionSort _ l).trans h).trans (List.perm_insertionSort _ l').symm)
  unfold median
  rw [this]

/-- **C128 (partial).** Without axes and projection the map is centred such that half of the marks are not further north, half not
further south, half not further east and half not further west than the centre; so the centre is between them in both coordinates. -/
theorem C128_centre_partial (order : List ((K × K) × Str) → List ((K × K) × Str)) (inv : Stations K) (labels : Bool) (kwargs : Style K)
    (a : MapAx K) (h : plotStations order inv labels none false kwargs = .ok a) :
    ∃ pts style rest lon lat, a.elems = .points pts style :: rest ∧ a.proj = .centred lon lat ∧
      Halves lon (pts.map Prod.fst) ∧ Halves lat (pts.map Prod.snd) ∧
      (∃ p ∈ pts, p.1 ≤ lon) ∧ (∃ p ∈ pts, lon ≤ p.1) ∧ (∃ p ∈ pts, p.2 ≤ lat) ∧ (∃ p ∈ pts, lat ≤ p.2) := by
  unfold plotStations axesOr getGeoaxes at h
  cases hl : stationList order inv with
  | error e => rw [hl] at h; cases h
  | ok l =>
    rw [hl] at h
    simp only [Bool.false_eq_true, if_false] at h
    by_cases hn : l.map Prod.fst = []
    · rw [if_pos hn] at h; cases h
    · rw [if_neg hn] at h
      simp only [Except.ok.injEq] at h
      have hne : l ≠ [] := fun hf => hn (by rw [hf]; rfl)
      have hm : ∀ f : (K × K) × Str → K, l.map f ≠ [] := fun f hf => hne (List.map_eq_nil_iff.mp hf)
      have hlon := median_halves (l.map fun p => p.1.2) (hm _)
      have hlat := median_halves (l.map fun p => p.1.1) (hm _)
      obtain ⟨b1, b2⟩ := halves_between (hm _) hlon
      obtain ⟨b3, b4⟩ := halves_between (hm _) hlat
      simp only [List.mem_map, exists_exists_and_eq_and] at b1 b2 b3 b4
      refine ⟨l.map fun p => lonlat p.1, _, _, median (l.map fun p => p.1.2), median (l.map fun p => p.1.1), by rw [← h]; rfl, ?_, ?_⟩
      · rw [← h]
        simp only [List.map_map, Function.comp_def]
      · simp only [List.map_map, Function.comp_def, lonlat, List.mem_map, exists_exists_and_eq_and]
        exact ⟨hlon, hlat, b1, b2, b3, b4⟩

/-- **C128 (order).** The centre of a station map does not depend on the order in which the set of stations is listed. -/
theorem C128_order (order order' : List ((K × K) × Str) → List ((K × K) × Str)) (horder : ∀ l, (order l).Perm l.dedup)
    (horder' : ∀ l, (order' l).Perm l.dedup) (inv : Stations K) (labels labels' : Bool) (crs : Bool) (kwargs kwargs' : Style K) (a a' : MapAx K)
    (ha : plotStations order inv labels none crs kwargs = .ok a) (ha' : plotStations order' inv labels' none crs kwargs' = .ok a') :
    a.proj = a'.proj := by
  have key : ∀ l l', stationList order inv = .ok l → stationList order' inv = .ok l' → l.Perm l' := by
    intro l l' h h'
    cases inv with
    | inventory nets =>
      have : stationList order (.inventory nets) = stationList order' (.inventory nets) := rfl
      rw [this, h'] at h
      rw [Except.ok.inj h]
    | stream ts =>
      unfold stationList at h h'
      simp only [] at h h'
      cases hd : ts.mapM stationOf with
      | error e =>
        rw [hd] at h
        simp only [] at h
        split at h <;> cases h
      | ok data =>
        rw [hd] at h h'
        cases data with
        | nil => cases h
        | cons p ps =>
          simp only [Except.ok.injEq] at h h'
          rw [← h, ← h']
          exact (horder _).trans (horder' _).symm
  unfold plotStations axesOr getGeoaxes at ha ha'
  cases h : stationList order inv with
  | error e => rw [h] at ha; cases ha
  | ok l =>
    cases h' : stationList order' inv with
    | error e => rw [h'] at ha'; cases ha'
    | ok l' =>
      have hp := (key l l' h h').map Prod.fst
      rw [h] at ha
      rw [h'] at ha'
      simp only [] at ha ha'
      cases crs with
      | true =>
        simp only [if_true, Except.ok.injEq] at ha ha'
        rw [← ha, ← ha']
      | false =>
        simp only [Bool.false_eq_true, if_false] at ha ha'
        by_cases hn : l.map Prod.fst = []
        · rw [if_pos hn] at ha; cases ha
        · have hn' : ¬ l'.map Prod.fst = [] := fun hf => hn (by rw [hf] at hp; exact hp.eq_nil)
          rw [if_neg hn] at ha
          rw [if_neg hn'] at ha'
          simp only [Except.ok.injEq] at ha ha'
          rw [← ha, ← ha']
          simp only []
          rw [median_perm (hp.map Prod.snd), median_perm (hp.map Prod.fst)]

/-- **C128 (given).** Given axes and given projections are used as they are. -/
theorem C128_given (order : List ((K × K) × Str) → List ((K × K) × Str)) (inv : Stations K) (labels crs : Bool) (kwargs : Style K) :
    (∀ a a', plotStations order inv labels (some a) crs kwargs = .ok a' → a'.proj = a.proj) ∧
    (∀ a', plotStations order inv labels none true kwargs = .ok a' → a'.proj = .given) := by
  constructor
  · intro a a' h
    unfold plotStations axesOr at h
    cases hl : stationList order inv with
    | error e => rw [hl] at h; cases h
    | ok l => rw [hl] at h; simp only [Except.ok.injEq] at h; rw [← h]
  · intro a' h
    unfold plotStations axesOr getGeoaxes at h
    cases hl : stationList order inv with
    | error e => rw [hl] at h; cases h
    | ok l => rw [hl] at h; simp only [if_true, Except.ok.injEq] at h; rw [← h]

/-- **C128 (negation).** Two stations at the date line, at 179° E and 179° W, two degrees apart: the map is centred at the
meridian of Greenwich, on the other side of the earth. -/
theorem C128_counterexample :
    (plotStations (K := ℚ) List.dedup (.inventory [[((-18, 179), "A".toList), ((-18, -179), "B".toList)]]) true none false []).toOption.map
      (fun a => a.proj) = some (.centred 0 (-18)) := by
  decide +kernel

example : (plotStations (K := ℚ) List.dedup (.inventory [[((-21, -69), "A".toList), ((-23, -70), "B".toList), ((-20, -71), "C".toList)]])
      true none false []).toOption.map (fun a => a.proj) = some (.centred (-70) (-21)) := by
  decide +kernel

/-! ## C129: layers of the map -/

/-- Options of a layer: the given ones replace the default ones. -/
def Overrides (style default kwargs : Style K) : Prop := ∀ k, Dict.get style k = (Dict.get kwargs.reverse k).or (Dict.get default k)

theorem update_overrides (default kwargs : Style K) : Overrides (default.update kwargs) default kwargs :=
  fun k => Dict.get_update default kwargs k

theorem getGeoaxes_ok {crs : Bool} {l : List (K × K)} {a : MapAx K} (h : getGeoaxes crs l = .ok a) :
    a.elems = [] ∧ (crs = true → a.proj = .given) ∧
    (crs = false → ∃ lon lat, a.proj = .centred lon lat ∧ Halves lon (l.map Prod.snd) ∧ Halves lat (l.map Prod.fst)) := by
  unfold getGeoaxes at h
  cases crs with
  | true => simp only [if_true, Except.ok.injEq] at h; rw [← h]; exact ⟨rfl, fun _ => rfl, fun hf => by cases hf⟩
  | false =>
    simp only [Bool.false_eq_true, if_false] at h
    by_cases hn : l = []
    · rw [if_pos hn] at h; cases h
    · rw [if_neg hn] at h
      simp only [Except.ok.injEq] at h
      rw [← h]
      exact ⟨rfl, (fun hf => by cases hf), fun _ => ⟨_, _, rfl,
        median_halves _ (fun hf => hn (List.map_eq_nil_iff.mp hf)), median_halves _ (fun hf => hn (List.map_eq_nil_iff.mp hf))⟩⟩

/-- **C129 (points).** A map of piercing points consists of what was in the axes, the stations as drawn by `plot_stations`, and then all
the points at (longitude, latitude), once; the given options replace the default ones; without axes and projection it is
centred at the points. -/
theorem C129_ppoints (order : List ((K × K) × Str) → List ((K × K) × Str)) (pps : List (K × K)) (inv : Option (Stations K))
    (labels : Bool) (ax : Option (MapAx K)) (crs : Bool) (kwargs : Style K) (a' : MapAx K)
    (h : plotPpoints order pps inv labels ax crs kwargs = .ok a') :
    ∃ a₀ a₁ : MapAx K,
      (∀ a, ax = some a → a₀ = a) ∧
      (ax = none → a₀.elems = []) ∧
      (ax = none → crs = true → a₀.proj = .given) ∧
      (ax = none → crs = false → ∃ lon lat, a₀.proj = .centred lon lat ∧ Halves lon (pps.map Prod.snd) ∧ Halves lat (pps.map Prod.fst)) ∧
      (inv = none → a₁ = a₀) ∧
      (∀ i, inv = some i → plotStations order i labels (some a₀) false [] = .ok a₁) ∧
      a'.proj = a₀.proj ∧
      ∃ style, a'.elems = a₁.elems ++ [.points (pps.map fun p => (p.2, p.1)) style] ∧ Overrides style ppointStyle kwargs := by
  unfold plotPpoints at h
  cases h0 : axesOr ax crs pps with
  | error e => rw [h0] at h; cases h
  | ok a₀ =>
    rw [h0] at h
    simp only [] at h
    cases h1 : withStations order inv labels a₀ with
    | error e => rw [h1] at h; cases h
    | ok a₁ =>
      rw [h1] at h
      simp only [] at h
      by_cases hn : pps = []
      · rw [if_pos hn] at h; cases h
      · rw [if_neg hn] at h
        simp only [Except.ok.injEq] at h
        have hg : ax = none → getGeoaxes crs pps = .ok a₀ := by rintro rfl; exact h0
        have hproj : a₁.proj = a₀.proj := by
          cases inv with
          | none => exact (Except.ok.inj h1) ▸ rfl
          | some i => exact (C128_given order i labels false []).1 a₀ a₁ h1
        refine ⟨a₀, a₁, ?_, fun hx => (getGeoaxes_ok (hg hx)).1, fun hx => (getGeoaxes_ok (hg hx)).2.1, fun hx => (getGeoaxes_ok (hg hx)).2.2,
          ?_, ?_, by rw [← h]; exact hproj, _, by rw [← h]; rfl, update_overrides _ _⟩
        · rintro a rfl; exact (Except.ok.inj h0).symm
        · rintro rfl; exact (Except.ok.inj h1).symm
        · rintro i rfl; exact h1

/-- **C129 (profile).** A profile map consists of what was in the axes, the stations, the piercing points, and then one polygon per box with the corners
of the box, in the order of the boxes; without axes and projection it is centred at the middle box. -/
theorem C129_profile (order : List ((K × K) × Str) → List ((K × K) × Str)) (boxes : List (Profile.Box K)) (inv : Option (Stations K))
    (labels : Bool) (pps : Option (List (K × K))) (ax : Option (MapAx K)) (crs : Bool) (kwargs : Style K) (a' : MapAx K)
    (h : plotProfileMap order boxes inv labels pps ax crs kwargs = .ok a') :
    ∃ a₀ a₁ a₂ : MapAx K,
      (∀ a, ax = some a → a₀ = a) ∧
      (ax = none → a₀.elems = []) ∧
      (ax = none → crs = true → a₀.proj = .given) ∧
      (ax = none → crs = false → ∃ b, boxes[boxes.length / 2]? = some b ∧ a₀.proj = .centred b.latlon.2 b.latlon.1) ∧
      (inv = none → a₁ = a₀) ∧
      (∀ i, inv = some i → plotStations order i labels (some a₀) false [] = .ok a₁) ∧
      (pps = none → a₂ = a₁) ∧
      (∀ l, pps = some l → a₂.elems = a₁.elems ++ [.points (l.map fun p => (p.2, p.1)) ppointStyle]) ∧
      a'.proj = a₀.proj ∧
      ∃ style, a'.elems = a₂.elems ++ boxes.map (fun b => .polygon b.poly style) ∧ Overrides style boxStyle kwargs := by
  unfold plotProfileMap at h
  cases h0 : profileAxes boxes ax crs with
  | error e => rw [h0] at h; cases h
  | ok a₀ =>
    rw [h0] at h
    simp only [] at h
    cases h1 : withStations order inv labels a₀ with
    | error e => rw [h1] at h; cases h
    | ok a₁ =>
      rw [h1] at h
      simp only [] at h
      cases h2 : withPpoints order pps a₁ with
      | error e => rw [h2] at h; cases h
      | ok a₂ =>
        rw [h2] at h
        simp only [Except.ok.injEq] at h
        have hg : ax = none → ∃ b, boxes[boxes.length / 2]? = some b ∧ getGeoaxes crs [b.latlon] = .ok a₀ := by
          rintro rfl
          unfold profileAxes at h0
          simp only [] at h0
          cases hb : boxes[boxes.length / 2]? with
          | none => rw [hb] at h0; cases h0
          | some b => rw [hb] at h0; exact ⟨b, rfl, h0⟩
        have hproj : a₁.proj = a₀.proj := by
          cases inv with
          | none => exact (Except.ok.inj h1) ▸ rfl
          | some i => exact (C128_given order i labels false []).1 a₀ a₁ h1
        have hpp : (pps = none → a₂ = a₁) ∧
            (∀ l, pps = some l → a₂.elems = a₁.elems ++ [.points (l.map fun p => (p.2, p.1)) ppointStyle]) ∧ a₂.proj = a₁.proj := by
          cases pps with
          | none => exact ⟨fun _ => (Except.ok.inj h2).symm, (fun l hl => by cases hl), (Except.ok.inj h2) ▸ rfl⟩
          | some l =>
            have h2' : plotPpoints order l none true (some a₁) false [] = .ok a₂ := h2
            unfold plotPpoints axesOr withStations at h2'
            simp only [] at h2'
            by_cases hn : l = []
            · rw [if_pos hn] at h2'; cases h2'
            · rw [if_neg hn] at h2'
              simp only [Except.ok.injEq] at h2'
              refine ⟨(fun hf => by cases hf), ?_, by rw [← h2']⟩
              intro l' hl'
              cases hl'
              rw [← h2']
              rfl
        refine ⟨a₀, a₁, a₂, ?_, ?_, ?_, ?_, ?_, ?_, hpp.1, hpp.2.1, by rw [← h]; exact hpp.2.2.trans hproj, _, by rw [← h], update_overrides _ _⟩
        · rintro a rfl; exact (Except.ok.inj h0).symm
        · intro hx
          obtain ⟨b, _, hb⟩ := hg hx
          exact (getGeoaxes_ok hb).1
        · intro hx
          obtain ⟨b, _, hb⟩ := hg hx
          exact (getGeoaxes_ok hb).2.1
        · rintro hx rfl
          obtain ⟨b, hb1, hb⟩ := hg hx
          refine ⟨b, hb1, ?_⟩
          have : getGeoaxes false [b.latlon] = .ok ⟨.centred b.latlon.2 b.latlon.1, []⟩ := by
            unfold getGeoaxes median
            simp
          rw [this] at hb
          rw [← Except.ok.inj hb]
        · rintro rfl; exact (Except.ok.inj h1).symm
        · rintro i rfl; exact h1

/-- **C129 (success).** With points, and stations that can be drawn, both maps are made; with given axes a profile map is made for any boxes. -/
theorem C129_success (order : List ((K × K) × Str) → List ((K × K) × Str)) (pps : List (K × K)) (hne : pps ≠ []) (boxes : List (Profile.Box K))
    (inv : Option (Stations K)) (hinv : ∀ i, inv = some i → ∃ l, stationList order i = .ok l) (labels : Bool) (ax : Option (MapAx K)) (crs : Bool)
    (kwargs : Style K) :
    (∃ a', plotPpoints order pps inv labels ax crs kwargs = .ok a') ∧
    (boxes ≠ [] ∨ ax ≠ none → ∀ p : Bool, ∃ a', plotProfileMap order boxes inv labels (if p then some pps else none) ax crs kwargs = .ok a') := by
  have hs : ∀ a, ∃ a', withStations order inv labels a = .ok a' := by
    intro a
    cases inv with
    | none => exact ⟨a, rfl⟩
    | some i =>
      obtain ⟨l, hl⟩ := hinv i rfl
      exact ⟨_, plotStations_ax order i labels a false [] l hl⟩
  have hgeo : ∀ l : List (K × K), l ≠ [] → ∃ a, getGeoaxes crs l = .ok a := by
    intro l hl
    unfold getGeoaxes
    cases crs with
    | true => exact ⟨_, rfl⟩
    | false =>
      simp only [Bool.false_eq_true, if_false]
      rw [if_neg hl]
      exact ⟨_, rfl⟩
  have hax : ∃ a, axesOr ax crs pps = .ok a := by
    cases ax with
    | some a => exact ⟨a, rfl⟩
    | none => exact hgeo pps hne
  constructor
  · obtain ⟨a₀, h0⟩ := hax
    obtain ⟨a₁, h1⟩ := hs a₀
    unfold plotPpoints
    rw [h0]
    simp only []
    rw [h1]
    simp only []
    rw [if_neg hne]
    exact ⟨_, rfl⟩
  · intro hb p
    have hpa : ∃ a, profileAxes boxes ax crs = .ok a := by
      cases ax with
      | some a => exact ⟨a, rfl⟩
      | none =>
        have hbne : boxes ≠ [] := hb.resolve_right (fun h => h rfl)
        have hlt : boxes.length / 2 < boxes.length := by
          have := List.length_pos_of_ne_nil hbne
          omega
        unfold profileAxes
        simp only []
        rw [List.getElem?_eq_getElem hlt]
        exact hgeo _ (by simp)
    obtain ⟨a₀, h0⟩ := hpa
    obtain ⟨a₁, h1⟩ := hs a₀
    have hpp : ∃ a₂, withPpoints order (if p then some pps else none) a₁ = .ok a₂ := by
      cases p with
      | false => exact ⟨a₁, rfl⟩
      | true =>
        unfold withPpoints plotPpoints axesOr withStations
        simp only [if_true]
        rw [if_neg hne]
        exact ⟨_, rfl⟩
    obtain ⟨a₂, h2⟩ := hpp
    unfold plotProfileMap
    rw [h0]
    simp only []
    rw [h1]
    simp only []
    rw [h2]
    exact ⟨_, rfl⟩

/-- **C129 (errors).** Without points there is no map of points (`IndexError` if the centre is needed, otherwise `TypeError`), without boxes
and axes no profile map (`IndexError`). -/
theorem C129_errors (order : List ((K × K) × Str) → List ((K × K) × Str)) (inv : Option (Stations K)) (labels crs : Bool) (a : MapAx K) (kwargs : Style K)
    (pps : Option (List (K × K))) :
    plotPpoints order [] inv labels none false kwargs = .error .indexError ∧
    plotPpoints order [] none labels none true kwargs = .error .typeError ∧
    plotPpoints order [] none labels (some a) crs kwargs = .error .typeError ∧
    plotProfileMap order [] inv labels pps none crs kwargs = .error .indexError := by
  refine ⟨rfl, ?_, ?_, rfl⟩ <;> rfl

example : ∃ a, plotProfileMap (K := ℚ) List.dedup
      [{ poly := [(0, 0), (1, 0), (1, 1), (0, 1)], latlon := (1 / 2, 1 / 2), pos := 0, length := 1, profile := none },
       { poly := [(1, 0), (2, 0), (2, 1), (1, 1)], latlon := (1 / 2, 3 / 2), pos := 1, length := 1, profile := none }]
      (some (.inventory [[((1 / 2, 1), "A".toList)]])) true (some [(1 / 2, 1 / 4)]) none false [("edgecolor", .str "r".toList)] = .ok a ∧
    a.proj = .centred (3 / 2) (1 / 2) ∧ a.elems.length = 5 ∧ a.elems[1]? = some (.label "A".toList (1, 1 / 2)) := by
  refine ⟨_, rfl, ?_, ?_, ?_⟩ <;> decide +kernel

end maps
end Verif.Props
