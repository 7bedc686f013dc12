import Verif.Props.ProfileHeaders
import Verif.Props.Stream
import Verif.Model.Text

/-!
# Text of a trace and construction of streams (C125, C126)
-/

set_option linter.unusedSimpArgs false
set_option linter.unusedSectionVars false

namespace Verif.Props
open Verif.Py Verif.Model Verif.Model.Text Verif.Spec

/-! ## C125: streams from traces -/

section stream
open Verif.Model.Headers
variable {K : Type} [Field K] (E : FmtEnv K)

theorem initLoop_spec (rs : List Nat) (o o' : Objs K) (l : List Nat) (hlt : ∀ r ∈ rs, r < o.next)
    (h : initLoop E o rs = (o', .ok l)) :
    l.length = rs.length ∧ o.next ≤ o'.next ∧ (∀ r, r < o.next → o'.heap r = o.heap r) ∧
    (∀ p ∈ rs.zip l,
      ((o.heap p.1).isRF = true → p.2 = p.1) ∧
      ((o.heap p.1).isRF = false → o.next ≤ p.2 ∧ p.2 < o'.next ∧ ∃ t, initTrace E (o.heap p.1).tr = .ok t ∧ o'.heap p.2 = ⟨t, true⟩)) ∧
    (∀ q ∈ l, (o'.heap q).isRF = true) ∧
    ((l.filter fun q => decide (o.next ≤ q)).Nodup) := by
  induction rs generalizing o o' l with
  | nil =>
    simp only [initLoop, Prod.mk.injEq, Except.ok.injEq] at h
    obtain ⟨rfl, rfl⟩ := h
    simp
  | cons r rs ih =>
    unfold initLoop at h
    have hr : r < o.next := hlt r (by simp)
    have hrs : ∀ q ∈ rs, q < o.next := fun q hq => hlt q (List.mem_cons_of_mem _ hq)
    cases hrf : (o.heap r).isRF with
    | true =>
      rw [hrf] at h
      simp only [if_true] at h
      cases hi : initLoop E o rs with
      | mk o1 res =>
        rw [hi] at h
        cases res with
        | error e => cases h
        | ok l1 =>
          simp only [Prod.mk.injEq, Except.ok.injEq] at h
          obtain ⟨rfl, rfl⟩ := h
          obtain ⟨h1, h2, h3, h4, h5, h6⟩ := ih o o1 l1 hrs hi
          refine ⟨by simp [h1], h2, h3, ?_, ?_, ?_⟩
          · intro p hp
            rw [List.zip_cons_cons, List.mem_cons] at hp
            rcases hp with rfl | hp
            · exact ⟨fun _ => rfl, fun hf => (by rw [hrf] at hf; cases hf)⟩
            · exact h4 p hp
          · intro q hq
            rw [List.mem_cons] at hq
            rcases hq with rfl | hq
            · rw [h3 q hr]; exact hrf
            · exact h5 q hq
          · rw [List.filter_cons, if_neg (by simpa using hr)]
            exact h6
    | false =>
      rw [hrf] at h
      simp only [Bool.false_eq_true, if_false] at h
      cases ht : initTrace E (o.heap r).tr with
      | error e => rw [ht] at h; cases h
      | ok t =>
        rw [ht] at h
        simp only [] at h
        cases hi : initLoop E ⟨fun q => if q = o.next then ⟨t, true⟩ else o.heap q, o.next + 1⟩ rs with
        | mk o1 res =>
          rw [hi] at h
          cases res with
          | error e => cases h
          | ok l1 =>
            simp only [Prod.mk.injEq, Except.ok.injEq] at h
            obtain ⟨rfl, rfl⟩ := h
            obtain ⟨h1, h2, h3, h4, h5, h6⟩ := ih _ o1 l1 (fun q hq => Nat.lt_succ_of_lt (hrs q hq)) hi
            simp only [] at h2 h3 h4 h6
            have hold : ∀ q, q < o.next → o1.heap q = o.heap q := by
              intro q hq
              rw [h3 q (Nat.lt_succ_of_lt hq), if_neg (Nat.ne_of_lt hq)]
            have hnew : o1.heap o.next = ⟨t, true⟩ := by rw [h3 _ (Nat.lt_succ_self _), if_pos rfl]
            refine ⟨by simp [h1], by omega, hold, ?_, ?_, ?_⟩
            · intro p hp
              rw [List.zip_cons_cons, List.mem_cons] at hp
              rcases hp with rfl | hp
              · exact ⟨fun hf => (by rw [hrf] at hf; cases hf), fun _ => ⟨le_refl _, by omega, t, ht, hnew⟩⟩
              · have hp1 : p.1 < o.next := hrs _ (List.of_mem_zip hp).1
                have := h4 p hp
                rw [if_neg (Nat.ne_of_lt hp1)] at this
                refine ⟨this.1, fun hf => ?_⟩
                obtain ⟨a, b, c⟩ := this.2 hf
                exact ⟨by omega, b, c⟩
            · intro q hq
              rw [List.mem_cons] at hq
              rcases hq with rfl | hq
              · rw [hnew]
              · exact h5 q hq
            · rw [List.filter_cons, if_pos (by simp), List.nodup_cons]
              have hge : ∀ q ∈ l1, o.next ≤ q → o.next + 1 ≤ q := by
                intro q hq hle
                by_contra hlt'
                have hqe : q = o.next := by omega
                obtain ⟨i, hi', rfl⟩ := List.getElem_of_mem hq
                have hir : i < rs.length := by omega
                have hz : (rs[i], l1[i]) ∈ rs.zip l1 := by
                  rw [← List.getElem_zip (h := by simp [List.length_zip]; omega)]
                  exact List.getElem_mem _
                have hp1 : rs[i] < o.next := hrs _ (List.getElem_mem _)
                have := h4 _ hz
                simp only [] at this
                rw [if_neg (Nat.ne_of_lt hp1)] at this
                cases hb : (o.heap rs[i]).isRF with
                | true => have := this.1 hb; omega
                | false => have := (this.2 hb).1; omega
              have hfe : (l1.filter fun q => decide (o.next ≤ q)) = l1.filter fun q => decide (o.next + 1 ≤ q) := by
                refine List.filter_congr ?_
                intro q hq
                rw [decide_eq_decide]
                exact ⟨hge q hq, fun h => by omega⟩
              rw [hfe]
              refine ⟨?_, h6⟩
              intro hm
              have := (List.mem_filter.1 hm).2
              simp at this

/-- **C125** `RFStream(traces)` has one trace for each of the given ones, in order.  `RFTrace` objects are used as they
are; any other trace is replaced by a new `RFTrace` of its own, into which the format specific header has been read, and
is left as it was. -/
theorem C125_traces (rs : List Nat) (o o' : Objs K) (l : List Nat) (hlt : ∀ r ∈ rs, r < o.next)
    (h : initStream E o (.seq rs) = (o', .ok l)) :
    l.length = rs.length ∧ (∀ r, r < o.next → o'.heap r = o.heap r) ∧
    (∀ p ∈ rs.zip l,
      ((o.heap p.1).isRF = true → p.2 = p.1) ∧
      ((o.heap p.1).isRF = false → o.next ≤ p.2 ∧ ∃ t, initTrace E (o.heap p.1).tr = .ok t ∧ o'.heap p.2 = ⟨t, true⟩)) ∧
    (∀ q ∈ l, (o'.heap q).isRF = true) ∧ (l.filter fun q => decide (o.next ≤ q)).Nodup := by
  obtain ⟨h1, -, h3, h4, h5, h6⟩ := initLoop_spec E rs o o' l hlt h
  exact ⟨h1, h3, fun p hp => ⟨(h4 p hp).1, fun hf => ⟨((h4 p hp).2 hf).1, ((h4 p hp).2 hf).2.2⟩⟩, h5, h6⟩

theorem initLoop_rf (rs : List Nat) (o : Objs K) (h : ∀ r ∈ rs, (o.heap r).isRF = true) : initLoop E o rs = (o, .ok rs) := by
  induction rs with
  | nil => rfl
  | cons r rs ih =>
    unfold initLoop
    rw [h r (by simp), ih fun q hq => h q (List.mem_cons_of_mem _ hq)]
    rfl

/-- **C125** Making a stream of a stream again gives the same trace objects and creates none. -/
theorem C125_idempotent (rs : List Nat) (o o' : Objs K) (l : List Nat) (hlt : ∀ r ∈ rs, r < o.next)
    (h : initStream E o (.seq rs) = (o', .ok l)) : initStream E o' (.seq l) = (o', .ok l) :=
  initLoop_rf E l o' (C125_traces E rs o o' l hlt h).2.2.2.1

/-- **C125** No traces, a single trace. -/
theorem C125_single (o : Objs K) (r : Nat) :
    initStream E o .none = (o, .ok []) ∧ initStream E o (.trace r) = initStream E o (.seq [r]) := ⟨rfl, rfl⟩

/-- **C125** The constructor fails exactly if the header of one of the plain traces cannot be read. -/
theorem C125_error (rs : List Nat) (o : Objs K) (hlt : ∀ r ∈ rs, r < o.next) :
    (∃ o' l, initStream E o (.seq rs) = (o', .ok l)) ↔
      ∀ r ∈ rs, (o.heap r).isRF = false → ∃ t, initTrace E (o.heap r).tr = .ok t := by
  show (∃ o' l, initLoop E o rs = (o', .ok l)) ↔ _
  induction rs generalizing o with
  | nil => simp [initLoop]
  | cons r rs ih =>
    have hrs : ∀ q ∈ rs, q < o.next := fun q hq => hlt q (List.mem_cons_of_mem _ hq)
    unfold initLoop
    cases hrf : (o.heap r).isRF with
    | true =>
      simp only [if_true]
      rw [List.forall_mem_cons]
      constructor
      · rintro ⟨o', l, h⟩
        refine ⟨fun hf => (by rw [hrf] at hf; cases hf), (ih o hrs).1 ?_⟩
        cases hi : initLoop E o rs with
        | mk o1 res =>
          rw [hi] at h
          cases res with
          | error e => cases h
          | ok l1 => exact ⟨o1, l1, rfl⟩
      · rintro ⟨-, h⟩
        obtain ⟨o1, l1, hi⟩ := (ih o hrs).2 h
        rw [hi]
        exact ⟨o1, r :: l1, rfl⟩
    | false =>
      simp only [Bool.false_eq_true, if_false]
      rw [List.forall_mem_cons]
      cases ht : initTrace E (o.heap r).tr with
      | error e =>
        constructor
        · rintro ⟨o', l, h⟩; cases h
        · rintro ⟨h, -⟩
          obtain ⟨t, h⟩ := h hrf
          cases h
      | ok t =>
        have hsame : ∀ q ∈ rs, (if q = o.next then (⟨t, true⟩ : Obj K) else o.heap q) = o.heap q := fun q hq =>
          if_neg (Nat.ne_of_lt (hrs q hq))
        have key := ih ⟨fun q => if q = o.next then ⟨t, true⟩ else o.heap q, o.next + 1⟩
          (fun q hq => Nat.lt_succ_of_lt (hrs q hq))
        simp only [] at key ⊢
        constructor
        · rintro ⟨o', l, h⟩
          refine ⟨fun _ => ⟨t, rfl⟩, ?_⟩
          have := key.1 (by
            cases hi : initLoop E ⟨fun q => if q = o.next then ⟨t, true⟩ else o.heap q, o.next + 1⟩ rs with
            | mk o1 res =>
              rw [hi] at h
              cases res with
              | error e => cases h
              | ok l1 => exact ⟨o1, l1, rfl⟩)
          intro q hq hf
          have := this q hq
          rw [hsame q hq] at this
          exact this hf
        · rintro ⟨-, h⟩
          obtain ⟨o1, l1, hi⟩ := key.2 (by
            intro q hq hf
            rw [hsame q hq] at hf ⊢
            exact h q hq hf)
          rw [hi]
          exact ⟨o1, o.next :: l1, rfl⟩

/-- **C125** `read_rf` reads the named file in the given format, or the example in SAC format, and makes an `RFStream` of
it. -/
theorem C125_read (example_ : Str) (read : Str × Option Str → Objs K → Objs K × Res (List Nat)) (o : Objs K)
    (format : Option Str) (path : Str) :
    readRf E example_ read none format o = readRf E example_ read (some example_) (some "SAC".toList) o ∧
    (∀ o1 l, read (path, format) o = (o1, .ok l) → readRf E example_ read (some path) format o = initStream E o1 (.seq l)) ∧
    (∀ o1 e, read (path, format) o = (o1, .error e) → readRf E example_ read (some path) format o = (o1, .error e)) := by
  refine ⟨rfl, ?_, ?_⟩
  · intro o1 l h
    unfold readRf readArgs
    rw [h]
  · intro o1 e h
    unfold readRf readArgs
    rw [h]

end stream

/-- A stream of a plain trace, an `RFTrace` and the plain trace again. -/
def threeObjs : Objs ℚ :=
  ⟨fun q => ⟨⟨[], [], [], ['A'], ⟨none, [], none, none⟩⟩, q = 1⟩, 2⟩

/-- The plain trace becomes two different traces, the `RFTrace` is kept. -/
example (E : Headers.FmtEnv ℚ) : (initStream E threeObjs (.seq [0, 1, 0])).2 = .ok [2, 1, 3] := rfl

/-! ## C126: text of a trace -/

section text
variable {K : Type} [Field K] [LinearOrder K] (E : TextEnv K)

/-- What a header entry with a number contributes to the text. -/
def Shown (t : Trace K) (key : String) (pre : Str) (f : K → Str) (post : Str) (l : List Str) : Prop :=
  (t.ext.get key = none ∧ l = []) ∨ ∃ x, t.ext.get key = some (.num x) ∧ l = [pre ++ f x ++ post]

theorem numField_ok (t : Trace K) (key : String) (pre : Str) (f : K → Str) (post : Str) (l : List Str) :
    numField t key pre f post = .ok l ↔ Shown t key pre f post l := by
  unfold numField Shown
  cases h : t.ext.get key with
  | none => simp [eq_comm]
  | some v => cases v <;> simp [eq_comm]

/-- **C126** Without onset the text is ObsPy's. -/
theorem C126_plain (masked : Bool) (t : Trace K) (h : t.ext.get "onset" = none) :
    strTrace E masked t = .ok (E.obspy t) := by
  unfold strTrace
  rw [h]

/-- **C126** The text of a trace with an onset: name, times relative to the onset, sampling, and exactly the entries which
the header has, in this order. -/
theorem C126_parts (masked : Bool) (t : Trace K) (onset : K) (ho : t.ext.get "onset" = some (.time onset)) (s : Str) :
    strTrace E masked t = .ok s ↔
      ∃ name mag dist baz pos slow, headPart t = .ok name ∧
        Shown t "event_magnitude" "mag:".toList E.f1 [] mag ∧ Shown t "distance" "dist:".toList E.f1 [] dist ∧
        Shown t "back_azimuth" "baz:".toList E.f1 [] baz ∧ Shown t "box_pos" "pos:".toList E.f2 "km".toList pos ∧
        Shown t "slowness" "slow:".toList E.f2 [] slow ∧
        s = name ++ " | ".toList ++ ((E.f1 (t.start - onset) ++ "s - ".toList ++ E.f1 (t.endtime - onset) ++ "s".toList ++
            (if t.start = 0 then [] else " onset:".toList ++ E.utc onset)) ++ " | ".toList ++
          ((E.num t.sr ++ " Hz, ".toList ++ E.nat t.npts ++ " samples".toList) ++ " | ".toList ++
            joinWith ' ' (mag ++ dist ++ baz ++ pos ++ slow ++
              (match t.ext.get "moveout" with | none => [] | some v => ["(".toList ++ E.val v ++ " moveout)".toList]) ++
              (if masked then ["(masked)".toList] else [])))) := by
  have htime : timePart E t onset = E.f1 (t.start - onset) ++ "s - ".toList ++ E.f1 (t.endtime - onset) ++ "s".toList ++
      (if t.start = 0 then [] else " onset:".toList ++ E.utc onset) := by
    unfold timePart
    by_cases h0 : t.start = 0
    · rw [if_neg (not_not.2 h0), if_pos h0, List.append_nil]
    · rw [if_pos h0, if_neg h0]
      simp only [List.append_assoc]
  unfold strTrace
  rw [ho]
  simp only []
  constructor
  · intro h
    cases hh : headPart t with
    | error e => rw [hh] at h; cases h
    | ok name =>
      rw [hh] at h
      simp only [] at h
      cases hi : infoPart E masked t with
      | error e => rw [hi] at h; cases h
      | ok o3 =>
        rw [hi] at h
        simp only [Except.ok.injEq] at h
        unfold infoPart at hi
        cases h1 : numField t "event_magnitude" "mag:".toList E.f1 [] with
        | error e => rw [h1] at hi; cases hi
        | ok mag =>
        cases h2 : numField t "distance" "dist:".toList E.f1 [] with
        | error e => rw [h1, h2] at hi; cases hi
        | ok dist =>
        cases h3 : numField t "back_azimuth" "baz:".toList E.f1 [] with
        | error e => rw [h1, h2, h3] at hi; cases hi
        | ok baz =>
        cases h4 : numField t "box_pos" "pos:".toList E.f2 "km".toList with
        | error e => rw [h1, h2, h3, h4] at hi; cases hi
        | ok pos =>
        cases h5 : numField t "slowness" "slow:".toList E.f2 [] with
        | error e => rw [h1, h2, h3, h4, h5] at hi; cases hi
        | ok slow =>
          rw [h1, h2, h3, h4, h5] at hi
          simp only [bind, Except.bind, pure, Except.pure, Except.ok.injEq] at hi
          refine ⟨name, mag, dist, baz, pos, slow, rfl, (numField_ok t _ _ _ _ _).1 h1, (numField_ok t _ _ _ _ _).1 h2,
            (numField_ok t _ _ _ _ _).1 h3, (numField_ok t _ _ _ _ _).1 h4, (numField_ok t _ _ _ _ _).1 h5, ?_⟩
          rw [← h, ← hi, htime]
          simp only [joinBars]
          cases t.ext.get "moveout" <;> rfl
  · rintro ⟨name, mag, dist, baz, pos, slow, hh, h1, h2, h3, h4, h5, rfl⟩
    rw [hh]
    have hi : infoPart E masked t = .ok (joinWith ' ' (mag ++ dist ++ baz ++ pos ++ slow ++
              (match t.ext.get "moveout" with | none => [] | some v => ["(".toList ++ E.val v ++ " moveout)".toList]) ++
              (if masked then ["(masked)".toList] else []))) := by
      unfold infoPart
      rw [(numField_ok t _ _ _ _ _).2 h1, (numField_ok t _ _ _ _ _).2 h2, (numField_ok t _ _ _ _ _).2 h3,
        (numField_ok t _ _ _ _ _).2 h4, (numField_ok t _ _ _ _ _).2 h5]
      simp only [bind, Except.bind, pure, Except.pure]
      cases t.ext.get "moveout" <;> rfl
    rw [hi]
    simp only [joinBars, htime]

/-- The name of a receiver function. -/
theorem headPart_rf (t : Trace K) (p : Str) (c : Char) (ht : t.ext.get "type" = some (.str "rf".toList))
    (hp : t.ext.get "phase" = some (.str p)) (hc : p.getLast? = some c) (hid : ¬ ("...".toList <+: t.id)) :
    headPart t = .ok ([c.toUpper] ++ "rf ".toList ++ t.id) := by
  unfold headPart letter
  rw [ht, hp]
  simp only [hc]
  rw [if_neg (show ¬ ("...".toList.isPrefixOf t.id = true) from fun h => hid (List.isPrefixOf_iff_prefix.1 h)),
    if_neg (show ¬ ("rf".toList ≠ "rf".toList) from fun h => h rfl)]
  simp

/-- **C126** After `rf` the text of a trace begins with the method: `Prf` or `Srf`, and its id. -/
theorem C126_after_rf [IsStrictOrderedRing K] [FloorRing K] (env : RfEnv K) (a : RfArgs K) (st st' : SState K) (hok : rf env a st = (st', none)) (m : Char)
    (hm : m = 'P' ∨ m = 'S') (ha : a.method = some [m] ∨ a.method = none ∧ streamMethod st.1 st.2 = .ok (some [m]))
    (r : Nat) (hr : r ∈ st'.2) (hp : ((st'.1 r).ext.get "phase").isSome) (hid : ¬ ("...".toList <+: (st'.1 r).id)) :
    headPart (st'.1 r) = .ok ([m] ++ "rf ".toList ++ (st'.1 r).id) := by
  obtain ⟨h1, h2⟩ := C44_labels env a st st' hok
  have h2 := h2 [m] (by rcases hm with rfl | rfl; exact .inl rfl; exact .inr rfl) (List.ne_nil_of_mem hr) ha
  unfold streamMethod at h2
  cases hu : uniqueHeader st'.1 st'.2 "phase" with
  | none => rw [hu] at h2; cases h2
  | some v =>
    rw [hu] at h2
    obtain ⟨-, hall⟩ := (uniqueHeader_eq_some _ _ _ _).1 hu
    obtain ⟨w, hw⟩ := Option.isSome_iff_exists.1 hp
    have hwv : w = v := hall r hr w hw
    subst hwv
    cases w with
    | str p =>
      simp only [] at h2
      cases hl : p.getLast? with
      | none => rw [hl] at h2; cases h2
      | some c =>
        rw [hl] at h2
        simp only [Except.ok.injEq, Option.some.injEq, upper, List.map_cons, List.map_nil, List.cons.injEq, and_true] at h2
        rw [headPart_rf _ p c (h1 r hr) hw hl hid, h2]
    | num x => cases h2
    | time x => cases h2
    | list l => cases h2

/-- **C126** Traces without network, station and location (profiles) are shown with type and component only. -/
theorem C126_profile (t : Trace K) (ty p : Str) (c d : Char) (ht : t.ext.get "type" = some (.str ty))
    (hty : ty ≠ "rf".toList) (hp : t.ext.get "phase" = some (.str p)) (hc : p.getLast? = some c) (hn : t.net = [])
    (hs : t.sta = []) (hl : t.loc = []) (hd : t.cha.getLast? = some d) :
    headPart t = .ok ([c.toUpper] ++ "rf ".toList ++ ty ++ " (".toList ++ [d] ++ ")".toList) := by
  have hid : t.id = "...".toList ++ t.cha := by
    unfold Trace.id
    rw [hn, hs, hl]
    rfl
  have hlast : t.id.getLast? = some d := by
    rw [hid, List.getLast?_append, hd]
    rfl
  unfold headPart letter
  rw [ht, hp]
  simp only [hc]
  rw [if_pos hty, if_pos (by rw [List.isPrefixOf_iff_prefix, hid]; exact List.prefix_append _ _), hlast]
  simp

/-- **C126** The text can be made unless the phase of a stream with a type is empty or no text, the type is no text, or an
entry is no number. -/
theorem C126_total (masked : Bool) (t : Trace K) (onset : K) (ho : t.ext.get "onset" = some (.time onset))
    (ht : ∀ v, t.ext.get "type" = some v → (∃ ty, v = .str ty) ∧
      ∀ w, t.ext.get "phase" = some w → ∃ p, w = .str p ∧ p ≠ [])
    (hn : ∀ k ∈ ["event_magnitude", "distance", "back_azimuth", "box_pos", "slowness"], ∀ v, t.ext.get k = some v →
      ∃ x, v = .num x) : ∃ s, strTrace E masked t = .ok s := by
  have hshown : ∀ k ∈ ["event_magnitude", "distance", "back_azimuth", "box_pos", "slowness"],
      ∀ (pre : Str) (f : K → Str) (post : Str), ∃ l, Shown t k pre f post l := by
    intro k hk pre f post
    cases h : t.ext.get k with
    | none => exact ⟨[], .inl ⟨h, rfl⟩⟩
    | some v =>
      obtain ⟨x, rfl⟩ := hn k hk v h
      exact ⟨_, .inr ⟨x, h, rfl⟩⟩
  have hhead : ∃ name, headPart t = .ok name := by
    unfold headPart
    cases h : t.ext.get "type" with
    | none => exact ⟨_, rfl⟩
    | some v =>
      obtain ⟨⟨ty, rfl⟩, hph⟩ := ht v h
      simp only []
      have : ∃ m, letter t = .ok m := by
        unfold letter
        cases hp : t.ext.get "phase" with
        | none => exact ⟨_, rfl⟩
        | some w =>
          obtain ⟨p, rfl, hne⟩ := hph w hp
          simp only []
          rw [List.getLast?_eq_some_getLast hne]
          exact ⟨_, rfl⟩
      obtain ⟨m, hm⟩ := this
      rw [hm]
      exact ⟨_, rfl⟩
  obtain ⟨name, hname⟩ := hhead
  obtain ⟨mag, h1⟩ := hshown "event_magnitude" (by simp) "mag:".toList E.f1 []
  obtain ⟨dist, h2⟩ := hshown "distance" (by simp) "dist:".toList E.f1 []
  obtain ⟨baz, h3⟩ := hshown "back_azimuth" (by simp) "baz:".toList E.f1 []
  obtain ⟨pos, h4⟩ := hshown "box_pos" (by simp) "pos:".toList E.f2 "km".toList
  obtain ⟨slow, h5⟩ := hshown "slowness" (by simp) "slow:".toList E.f2 []
  exact ⟨_, (C126_parts E masked t onset ho _).2 ⟨name, mag, dist, baz, pos, slow, hname, h1, h2, h3, h4, h5, rfl⟩⟩

end text

/-- Formatting of the numbers in the example. -/
def textEnv : TextEnv ℚ where
  f1 x := if x = -10 then "-10.0".toList else if x = 80 then "80.0".toList else "46.1".toList
  f2 _ := "6.40".toList
  num _ := "5.0".toList
  nat _ := "451".toList
  utc _ := "2011-02-25T13:15:38.169539Z".toList
  val v := match v with | .str s => s | _ => []
  obspy _ := []

/-- The trace of `test_str` in the test suite, with fewer entries. -/
def textTrace : Trace ℚ :=
  { net := "CX".toList, sta := "PB01".toList, loc := [], cha := "BHT".toList, start := 100, sr := 1,
    data := List.replicate 91 0,
    ext := [("onset", .time 110), ("type", .str "rf".toList), ("phase", .str "P".toList), ("distance", .num 46),
      ("slowness", .num 6), ("moveout", .str "Ps".toList)] }

example : strTrace textEnv false textTrace = .ok
    "Prf CX.PB01..BHT | -10.0s - 80.0s onset:2011-02-25T13:15:38.169539Z | 5.0 Hz, 451 samples | dist:46.1 slow:6.40 (Ps moveout)".toList := by
  decide +kernel

/-- An empty phase cannot be shown. -/
example : strTrace textEnv false (textTrace.put "phase" (.str [])) = .error .indexError := by decide +kernel

/-- A trace with nothing but an onset: the last part is empty. -/
example : strTrace textEnv true { textTrace with ext := [("onset", .time 110)], start := 0 } = .ok
    "CX.PB01..BHT | 46.1s - 46.1s | 5.0 Hz, 451 samples | (masked)".toList := by decide +kernel

end Verif.Props
