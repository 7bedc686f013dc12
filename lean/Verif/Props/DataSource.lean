import Verif.Props.BatchData
import Verif.Props.BatchCommands
import Verif.Model.DataSource

/-!
# Data sources of the batch program (C119, C120, C121, C122)
-/

set_option linter.unusedSimpArgs false
set_option linter.unusedSectionVars false

namespace Verif.Props
open Verif.Py Verif.Model Verif.Model.Batch Verif.Model.EventIter Verif.Model.Headers Verif.Model.DataSource Verif.Spec

/-! ## C119: choice of the source -/

theorem upTo_iff (p body rest : Str) : upTo p = some (body, rest) ↔ p = body ++ ']' :: rest ∧ ']' ∉ body := by
  induction p generalizing body with
  | nil => simp [upTo]
  | cons c p ih =>
    unfold upTo
    split
    · rename_i hc
      subst hc
      constructor
      · intro h
        simp only [Option.some.injEq, Prod.mk.injEq] at h
        obtain ⟨rfl, rfl⟩ := h
        exact ⟨rfl, by simp⟩
      · rintro ⟨h1, h2⟩
        cases body with
        | nil => simp only [List.nil_append, List.cons.injEq, true_and] at h1; rw [h1]
        | cons a body =>
          simp only [List.cons_append, List.cons.injEq] at h1
          exact absurd (by rw [← h1.1]; simp) h2
    · rename_i hc
      constructor
      · intro h
        cases hu : upTo p with
        | none => rw [hu] at h; simp at h
        | some x =>
          rw [hu] at h
          simp only [Option.map_some, Option.some.injEq, Prod.mk.injEq] at h
          obtain ⟨rfl, rfl⟩ := h
          obtain ⟨h1, h2⟩ := (ih x.1).1 (by rw [hu])
          refine ⟨by rw [List.cons_append, ← h1], ?_⟩
          simp only [List.mem_cons, not_or]
          exact ⟨Ne.symm hc, h2⟩
      · rintro ⟨h1, h2⟩
        cases body with
        | nil => simp only [List.nil_append, List.cons.injEq] at h1; exact absurd h1.1 hc
        | cons a body =>
          simp only [List.cons_append, List.cons.injEq] at h1
          simp only [List.mem_cons, not_or] at h2
          rw [(ih body).2 ⟨h1.2, h2.2⟩, h1.1]
          rfl

theorem setBody_iff (p body rest : Str) :
    setBody p = some (body, rest) ↔ p = body ++ ']' :: rest ∧ body ≠ [] ∧ ']' ∉ body.tail := by
  cases p with
  | nil => simp [setBody]
  | cons a p =>
    simp only [setBody]
    constructor
    · intro h
      cases hu : upTo p with
      | none => rw [hu] at h; simp at h
      | some x =>
        rw [hu] at h
        simp only [Option.map_some, Option.some.injEq, Prod.mk.injEq] at h
        obtain ⟨rfl, rfl⟩ := h
        obtain ⟨h1, h2⟩ := (upTo_iff p x.1 x.2).1 hu
        exact ⟨by rw [List.cons_append, ← h1], by simp, h2⟩
    · rintro ⟨h1, h2, h3⟩
      cases body with
      | nil => exact absurd rfl h2
      | cons b body =>
        simp only [List.cons_append, List.cons.injEq] at h1
        rw [(upTo_iff p body rest).2 ⟨h1.2, h3⟩, h1.1]
        rfl

/-- The sets of the pattern are recognised. -/
theorem bracket_iff (p : Str) (neg : Bool) (body rest : Str) : bracket p = some (neg, body, rest) ↔ IsSet p neg body rest := by
  unfold IsSet
  cases p with
  | nil => cases neg <;> simp [bracket]
  | cons c q =>
    simp only [bracket]
    by_cases hc : c = '!'
    · subst hc
      rw [if_pos rfl]
      cases neg with
      | true =>
        simp only [if_true, List.cons_append, List.nil_append, List.cons.injEq, true_and, reduceCtorEq, false_implies, and_true]
        rw [← setBody_iff]
        cases setBody q <;> simp
      | false =>
        constructor
        · intro h
          cases hs : setBody q <;> simp [hs] at h
        · rintro ⟨h1, h2, h3, h4⟩
          cases body with
          | nil => exact absurd rfl h2
          | cons b body =>
            simp only [Bool.false_eq_true, if_false, List.nil_append, List.cons_append, List.cons.injEq] at h1
            exact absurd (by rw [← h1.1]; rfl) (h4 rfl)
    · rw [if_neg hc]
      cases neg with
      | true =>
        constructor
        · intro h
          cases hs : setBody (c :: q) <;> simp [hs] at h
        · rintro ⟨h1, -⟩
          simp only [if_true, List.cons_append, List.nil_append, List.cons.injEq] at h1
          exact absurd h1.1 hc
      | false =>
        simp only [Bool.false_eq_true, if_false, List.nil_append]
        have e : (setBody (c :: q)).map (fun x => (false, x)) = some (false, body, rest) ↔
            setBody (c :: q) = some (body, rest) := by
          cases setBody (c :: q) <;> simp
        rw [e, setBody_iff]
        constructor
        · rintro ⟨h1, h2, h3⟩
          refine ⟨h1, h2, h3, fun _ hh => ?_⟩
          cases body with
          | nil => exact h2 rfl
          | cons b body =>
            simp only [List.cons_append, List.cons.injEq] at h1
            simp only [List.head?_cons, Option.some.injEq] at hh
            exact hc (h1.1.trans hh)
        · rintro ⟨h1, h2, h3, -⟩
          exact ⟨h1, h2, h3⟩

theorem wild_cons (c : Char) (p s : Str) (hc : c ≠ '*') (h : Wild (c :: p) s) : ∃ d t, s = d :: t ∧
    ((c = '?' ∧ Wild p t) ∨ (c = '[' ∧ ((∃ neg body rest, IsSet p neg body rest ∧ setHas body d ≠ neg ∧ Wild rest t) ∨
      ((¬ ∃ neg body rest, IsSet p neg body rest) ∧ d = '[' ∧ Wild p t))) ∨ (c ≠ '?' ∧ c ≠ '[' ∧ d = c ∧ Wild p t)) := by
  cases h with
  | one d _ t h => exact ⟨d, t, rfl, .inl ⟨rfl, h⟩⟩
  | many => exact absurd rfl hc
  | set neg body d _ rest t hp hm h => exact ⟨d, t, rfl, .inr (.inl ⟨rfl, .inl ⟨neg, body, rest, hp, hm, h⟩⟩)⟩
  | «open» _ t hp h => exact ⟨_, t, rfl, .inr (.inl ⟨rfl, .inr ⟨hp, rfl, h⟩⟩)⟩
  | char _ _ t h1 h2 h3 h => exact ⟨c, t, rfl, .inr (.inr ⟨h1, h3, rfl, h⟩)⟩

/-- `fnmatch` decides what `?`, `*` and sets mean. -/
theorem C119_wildcards (p s : Str) : fnmatch p s = true ↔ Wild p s := by
  induction hn : p.length using Nat.strong_induction_on generalizing p s with
  | _ n ih =>
    subst hn
    cases p with
    | nil =>
      constructor
      · intro h
        cases s with
        | nil => exact .nil
        | cons c s => simp [fnmatch, tokens, matchToks] at h
      · intro h
        cases h
        rfl
    | cons c p =>
      have ihp : ∀ s, fnmatch p s = true ↔ Wild p s := fun s => ih p.length (by simp) p s rfl
      by_cases hc : c = '*'
      · subst hc
        rw [C110_wildcard]
        constructor
        · rintro ⟨a, b, rfl, h⟩
          exact .many a p b ((ihp b).1 h)
        · intro h
          cases h with
          | many x _ s h => exact ⟨x, s, rfl, (ihp s).2 h⟩
          | char _ _ _ _ h2 => exact absurd rfl h2
      · by_cases hq : c = '?'
        · subst hq
          rw [fnmatch_one]
          constructor
          · intro h
            cases s with
            | nil => simp at h
            | cons d s => exact .one d p s ((ihp s).1 h)
          · intro h
            obtain ⟨d, t, rfl, hw⟩ := wild_cons _ p s hc h; clear h
            rcases hw with ⟨-, h⟩ | ⟨h, -⟩ | ⟨h, -⟩
            · exact (ihp t).2 h
            · exact absurd h (by decide)
            · exact absurd rfl h
        · by_cases hb : c = '['
          · subst hb
            cases hbr : bracket p with
            | none =>
              have hno : ¬ ∃ neg body rest, IsSet p neg body rest := by
                rintro ⟨neg, body, rest, h⟩
                rw [← bracket_iff, hbr] at h
                cases h
              rw [fnmatch_open p s hbr]
              constructor
              · intro h
                cases s with
                | nil => simp at h
                | cons d s =>
                  simp only [Bool.and_eq_true, decide_eq_true_eq] at h
                  rw [← h.1]
                  exact .open p s hno ((ihp s).1 h.2)
              · intro h
                obtain ⟨d, t, rfl, hw⟩ := wild_cons _ p s hc h; clear h
                rcases hw with ⟨h, -⟩ | ⟨-, h⟩ | ⟨-, h, -⟩
                · exact absurd h (by decide)
                · rcases h with ⟨neg, body, rest, h, -⟩ | ⟨-, hd, h⟩
                  · exact absurd ⟨neg, body, rest, h⟩ hno
                  · simp only [Bool.and_eq_true, decide_eq_true_eq]
                    exact ⟨hd.symm, (ihp t).2 h⟩
                · exact absurd rfl h
            | some x =>
              obtain ⟨neg, body, rest⟩ := x
              have hset := (bracket_iff p neg body rest).1 hbr
              have hl := bracket_length p neg body rest hbr
              have ihr : ∀ s, fnmatch rest s = true ↔ Wild rest s :=
                fun s => ih rest.length (by simp only [List.length_cons]; omega) rest s rfl
              rw [fnmatch_set p s neg body rest hbr]
              constructor
              · intro h
                cases s with
                | nil => simp at h
                | cons d s =>
                  simp only [Bool.and_eq_true, bne_iff_ne] at h
                  exact .set neg body d p rest s hset h.1 ((ihr s).1 h.2)
              · intro h
                obtain ⟨d, t, rfl, hw⟩ := wild_cons _ p s hc h; clear h
                rcases hw with ⟨h, -⟩ | ⟨-, h⟩ | ⟨-, h, -⟩
                · exact absurd h (by decide)
                · rcases h with ⟨neg', body', rest', h1, h2, h3⟩ | ⟨h1, -⟩
                  · rw [← bracket_iff, hbr] at h1
                    simp only [Option.some.injEq, Prod.mk.injEq] at h1
                    obtain ⟨rfl, rfl, rfl⟩ := h1
                    simp only [Bool.and_eq_true, bne_iff_ne]
                    exact ⟨h2, (ihr t).2 h3⟩
                  · exact absurd ⟨neg, body, rest, hset⟩ h1
                · exact absurd rfl h
          · rw [fnmatch_cons c p s hq hc hb]
            constructor
            · intro h
              cases s with
              | nil => simp at h
              | cons d s =>
                simp only [Bool.and_eq_true, decide_eq_true_eq] at h
                rw [← h.1]
                exact .char c p s hq hc hb ((ihp s).1 h.2)
            · intro h
              obtain ⟨d, t, rfl, hw⟩ := wild_cons _ p s hc h; clear h
              rcases hw with ⟨h, -⟩ | ⟨h, -⟩ | ⟨-, -, hd, h⟩
              · exact absurd h hq
              · exact absurd h hb
              · simp only [Bool.and_eq_true, decide_eq_true_eq]
                exact ⟨hd.symm, (ihp t).2 h⟩

section source
variable {K Ev : Type}

/-- Nothing but the result of `get`, with `None` in place of an exception. -/
def OrNone (get : Request K → Res (Option (List (WTrace K)))) (g : GetWf K Ev) : Prop :=
  ∀ kw, (∀ s, get kw.req = .ok s → g kw = .ok s) ∧ (∀ e, get kw.req = .error e → g kw = .ok none)

/-- **C119** If `obspy.clients.<data>` has a client, it is created with the options and asked for the data; the event is
not passed on.  Its exceptions become `None`. -/
theorem C119_client (I : Interp K Ev) (path path' : List Str) (data : Str) (opts : Option (Dict (Leaf K)))
    (plugin : Option Str) (m : PyMod K Ev) (mk : Dict (Leaf K) → Res (Request K → Res (Option (List (WTrace K)))))
    (himp : I.importModule path ("obspy.clients.".toList ++ data) = (path', .module m)) (hmk : m.client = some mk) :
    (∀ client, mk (opts.getD []) = .ok client →
      ∃ g, initData I path (some data) opts plugin = (path', .ok g) ∧ OrNone client g) ∧
    (∀ e, mk (opts.getD []) = .error e → initData I path (some data) opts plugin = (path', .error e)) := by
  constructor
  · intro client hc
    refine ⟨wrapper fun kw => client kw.req, ?_, ?_⟩
    · unfold initData source
      simp only [Option.getD_some, himp, hmk, hc]
    · intro kw
      constructor
      · intro s hs; unfold wrapper; simp only [hs]
      · intro e he; unfold wrapper; simp only [he]
  · intro e he
    unfold initData source
    simp only [Option.getD_some, himp, hmk, he]

/-- White space around a word. -/
def Padded (w s : Str) : Prop :=
  ∃ a b : Str, s = a ++ w ++ b ∧ (∀ c ∈ a, c.isWhitespace = true) ∧ (∀ c ∈ b, c.isWhitespace = true)

/-- A word which neither begins nor ends with white space. -/
def Word (w : Str) : Prop :=
  (∀ c, w.head? = some c → c.isWhitespace = false) ∧ (∀ c, w.getLast? = some c → c.isWhitespace = false)

theorem dropWhile_pad (p : Char → Bool) (a w : Str) (ha : ∀ c ∈ a, p c = true) (hw : ∀ c, w.head? = some c → p c = false) :
    (a ++ w).dropWhile p = w := by
  induction a with
  | nil =>
    cases w with
    | nil => rfl
    | cons c w =>
      rw [List.nil_append, List.dropWhile_cons, hw c rfl]
      rfl
  | cons c a ih =>
    rw [List.cons_append, List.dropWhile_cons, ha c (by simp)]
    exact ih fun d hd => ha d (List.mem_cons_of_mem _ hd)

theorem strip_padded (w s : Str) (hw : Word w) (hs : Padded w s) : strip s = w := by
  obtain ⟨a, b, rfl, ha, hb⟩ := hs
  unfold strip
  by_cases hne : w = []
  · subst hne
    have h1 : (a ++ [] ++ b).dropWhile Char.isWhitespace = [] := by
      rw [List.append_nil]
      have := dropWhile_pad Char.isWhitespace (a ++ b) [] (fun c hc => (List.mem_append.1 hc).elim (ha c) (hb c)) (by simp)
      rwa [List.append_nil] at this
    rw [h1]
    rfl
  · have h1 : (a ++ w ++ b).dropWhile Char.isWhitespace = w ++ b := by
      rw [List.append_assoc]
      refine dropWhile_pad _ a (w ++ b) ha ?_
      intro c hc
      obtain ⟨d, w', rfl⟩ := List.exists_cons_of_ne_nil hne
      exact hw.1 c hc
    rw [h1, List.reverse_append]
    have h2 : (b.reverse ++ w.reverse).dropWhile Char.isWhitespace = w.reverse := by
      refine dropWhile_pad _ _ _ (fun c hc => hb c (List.mem_reverse.1 hc)) ?_
      intro c hc
      rw [List.head?_reverse] at hc
      exact hw.2 c hc
    rw [h2, List.reverse_reverse]

/-- **C119** `data: plugin` with `plugin: "module : func"` (white space does not matter): the function is looked up in
the module, which is searched for in the current directory at last; it gets the arguments as they are. -/
theorem C119_plugin (I : Interp K Ev) (path path1 path2 : List Str) (opts : Option (Dict (Leaf K)))
    (modname funcname a b : Str) (m : PyMod K Ev) (f : GetWf K Ev)
    (hno : I.importModule path "obspy.clients.plugin".toList = (path1, .importError))
    (ha : Padded modname a) (hb : Padded funcname b) (hm : Word modname) (hf : Word funcname) (hca : ':' ∉ a)
    (hcb : ':' ∉ b) (himp : I.importModule (path1 ++ [['.']]) modname = (path2, .module m)) (hp : path2 ≠ [])
    (hfun : m.func funcname = some f) :
    ∃ g, initData I path (some "plugin".toList) opts (some (a ++ ':' :: b)) = (path2.dropLast, .ok g) ∧
      ∀ kw, (∀ s, f kw = .ok s → g kw = .ok s) ∧ (∀ e, f kw = .error e → g kw = .ok none) := by
  refine ⟨wrapper f, ?_, ?_⟩
  · unfold initData source
    have hname : "obspy.clients.".toList ++ "plugin".toList = "obspy.clients.plugin".toList := by decide +kernel
    rw [Option.getD_some, hname, hno]
    simp only []
    rw [if_pos trivial]
    simp only [splitOn_append ':' a b hca, splitOn_single ':' b hcb, strip_padded modname a hm ha,
      strip_padded funcname b hf hb]
    unfold loadFunc
    simp only [himp]
    rw [if_neg hp]
    simp only [hfun]
  · intro kw
    constructor
    · intro s hs; unfold wrapper; simp only [hs]
    · intro e he; unfold wrapper; simp only [he]

/-- A trace which a request asks for: all four codes match, whatever their case. -/
def Wanted (r : Request K) (w : WTrace K) : Prop :=
  Wild (upper r.network) (upper w.tr.net) ∧ Wild (upper r.station) (upper w.tr.sta) ∧
    Wild (upper r.location) (upper w.tr.loc) ∧ Wild (upper r.channel) (upper w.tr.cha)

open Classical in
/-- **C119** Otherwise `data` names files, which are read once: a request is answered by the traces whose codes match,
cut to the requested times, in the order of the files; traces without samples in the time window are left out. -/
theorem C119_files (I : Interp K Ev) (path path' : List Str) (data : Str) (opts : Option (Dict (Leaf K)))
    (plugin : Option Str) (stream : List (WTrace K))
    (hno : I.importModule path ("obspy.clients.".toList ++ data) = (path', .importError)) (hd : data ≠ "plugin".toList)
    (hr : I.read (some data) = .ok stream) :
    ∃ g, initData I path (some data) opts plugin = (path', .ok g) ∧
      ∀ kw, g kw = .ok (some ((stream.filter fun w => decide (Wanted kw.req w)).filterMap
        (I.sliceTrace kw.req.starttime kw.req.endtime))) := by
  refine ⟨wrapper (fromFiles I stream), ?_, ?_⟩
  · unfold initData source
    simp only [Option.getD_some, hno]
    rw [if_neg (by simpa using hd)]
    simp only [hr]
  · intro kw
    unfold wrapper fromFiles
    simp only []
    congr 4
    unfold select
    refine List.filter_congr ?_
    intro w _
    rw [Bool.eq_iff_iff]
    simp only [Bool.and_eq_true, C119_wildcards, and_assoc]
    exact (decide_eq_true_iff (p := Wanted kw.req w)).symm

/-- **C119** Whatever the source is, the function which delivers the data never raises. -/
theorem C119_never_raises (I : Interp K Ev) (path path' : List Str) (data : Option Str) (opts : Option (Dict (Leaf K)))
    (plugin : Option Str) (g : GetWf K Ev) (h : initData I path data opts plugin = (path', .ok g)) (kw : Kwargs K Ev) :
    ∃ s, g kw = .ok s := by
  unfold initData at h
  split at h
  · cases h
  · rename_i p get _
    simp only [Prod.mk.injEq, Except.ok.injEq] at h
    rw [← h.2]
    unfold wrapper
    cases get kw with
    | ok s => exact ⟨s, rfl⟩
    | error e => exact ⟨none, rfl⟩

/-- **C119** What can go wrong is reported: an unusable module, a client class which is missing, a plugin which is not
given as `module : func`, an unknown function, or files which cannot be read. -/
theorem C119_errors (I : Interp K Ev) (path : List Str) (data : Option Str) (opts : Option (Dict (Leaf K)))
    (plugin : Option Str) :
    (∀ p e, I.importModule path ("obspy.clients.".toList ++ data.getD "None".toList) = (p, .raises e) →
      initData I path data opts plugin = (p, .error e)) ∧
    (∀ p m, I.importModule path ("obspy.clients.".toList ++ data.getD "None".toList) = (p, .module m) →
      m.client = none → initData I path data opts plugin = (p, .error .attributeError)) ∧
    (∀ p, I.importModule path ("obspy.clients.".toList ++ data.getD "None".toList) = (p, .importError) →
      data = some "plugin".toList →
      (plugin = none → initData I path data opts plugin = (p, .error .attributeError)) ∧
      (∀ t, plugin = some t → t.count ':' ≠ 1 → initData I path data opts plugin = (p, .error .valueError))) ∧
    (∀ p e, I.importModule path ("obspy.clients.".toList ++ data.getD "None".toList) = (p, .importError) →
      data ≠ some "plugin".toList → I.read data = .error e → initData I path data opts plugin = (p, .error e)) := by
  refine ⟨?_, ?_, ?_, ?_⟩
  · intro p e h
    unfold initData source
    simp only [h]
  · intro p m h hm
    unfold initData source
    simp only [h, hm]
  · intro p h hd
    constructor
    · intro hp
      unfold initData source
      simp only [h]
      rw [if_pos hd, hp]
    · intro t ht hcount
      unfold initData source
      simp only [h]
      rw [if_pos hd, ht]
      simp only []
      have hlen : ∀ s : Str, (splitOn ':' s).length = s.count ':' + 1 := by
        intro s
        induction s with
        | nil => rfl
        | cons c s ih =>
          unfold splitOn
          by_cases hc : c = ':'
          · rw [if_pos hc, List.length_cons, ih, hc, List.count_cons_self]
          · rw [if_neg hc]
            cases hs : splitOn ':' s with
            | nil => exact absurd hs (splitOn_ne_nil _ _)
            | cons w ws =>
              rw [hs] at ih
              simp only [List.length_cons] at ih ⊢
              rw [ih, List.count_cons_of_ne hc]
      have := hlen t
      split
      · rename_i p' e heq
        split at heq
        · rename_i a b hsplit
          rw [hsplit] at this
          simp at this
          omega
        · exact heq.symm
      · rename_i p' g heq
        split at heq
        · rename_i a b hsplit
          rw [hsplit] at this
          simp at this
          omega
        · cases heq
  · intro p e h hd hr
    unfold initData source
    simp only [h]
    rw [if_neg hd]
    simp only [hr]

end source

/-- A world without client modules, in which `plug` is a module with the function `get`, and any file has one trace. -/
def smallWorld (f : GetWf ℚ Nat) : Interp ℚ Nat where
  importModule p n :=
    if n = "plug".toList then (p, .module ⟨fun x => if x = "get".toList then some f else none, none⟩)
    else if n = "tidy".toList then (p ++ ["lib".toList], .module ⟨fun _ => some f, none⟩)
    else (p, .importError)
  read _ := .ok [⟨⟨"BW".toList, "RJOB".toList, [], "EHZ".toList, ⟨none, [], none, none⟩⟩, false, false⟩]
  sliceTrace _ _ w := some w

/-- A request for all channels `EH?` of a station. -/
def smallRequest : Request ℚ := ⟨"BW".toList, "RJOB".toList, [], "EH?".toList, 0, 1⟩

/-- Answer of a source: codes of the delivered traces. -/
def answer (r : List Str × Res (GetWf ℚ Nat)) (q : Request ℚ) : Option (List Str) :=
  match r.2 with
  | .error _ => none
  | .ok g =>
    match called g q with
    | .ok (some s) => some (s.map fun w => w.tr.cha)
    | _ => none

/-- The hypotheses of `C119_plugin` and `C119_files` are met, with an answer in both cases. -/
example : answer (initData (smallWorld fun _ => .ok (some [])) [] (some "plugin".toList) none (some "plug : get".toList))
      smallRequest = some [] ∧
    answer (initData (smallWorld fun _ => .ok (some [])) [] (some "data.mseed".toList) none none) smallRequest =
      some ["EHZ".toList] ∧
    answer (initData (smallWorld fun _ => .ok (some [])) [] (some "data.mseed".toList) none none)
      { smallRequest with channel := "BH?".toList } = some [] := by
  decide +kernel

/-- The hypotheses on the text of the plugin. -/
example : Padded "plug".toList "plug ".toList ∧ Word "plug".toList ∧ Padded "get".toList " get".toList ∧ Word "get".toList := by
  refine ⟨⟨[], [' '], by decide, by simp, by decide⟩, ⟨by decide +kernel, by decide +kernel⟩,
    ⟨[' '], [], by decide, by decide, by simp⟩, ⟨by decide +kernel, by decide +kernel⟩⟩

/-- A client is used (`C119_client`). -/
example : answer (initData { smallWorld (fun _ => .error .other) with
      importModule := fun p n =>
        if n = "obspy.clients.fdsn".toList then
          (p, .module ⟨fun _ => none, some fun o => if o.isEmpty then .ok (fun _ => .ok (some [])) else .error .typeError⟩)
        else (p, .importError) } [] (some "fdsn".toList) none none) smallRequest = some [] := by
  decide +kernel

/-! ## C120: no data source given -/

section missing
variable {K Ev : Type}

/-- **C120** (what holds) A source which is given but neither a client, nor `plugin`, nor readable files, is reported. -/
theorem C120_reported_partial (I : Interp K Ev) (path path' : List Str) (data : Str) (opts : Option (Dict (Leaf K)))
    (plugin : Option Str) (e : PyErr)
    (hno : I.importModule path ("obspy.clients.".toList ++ data) = (path', .importError)) (hd : data ≠ "plugin".toList)
    (hr : I.read (some data) = .error e) : (initData I path (some data) opts plugin).2 = .error e := by
  rw [(C119_errors I path (some data) opts plugin).2.2.2 path' e hno (by simpa using hd) hr]

/-- **C120** (general form of the defect) Without the option the example waveforms which come with ObsPy (`read()`
without a file name) are used as data. -/
theorem C120_example (I : Interp K Ev) (path path' : List Str) (opts : Option (Dict (Leaf K))) (plugin : Option Str)
    (stream : List (WTrace K)) (hno : I.importModule path "obspy.clients.None".toList = (path', .importError))
    (hr : I.read none = .ok stream) :
    ∃ g, initData I path none opts plugin = (path', .ok g) ∧
      ∀ kw, g kw = .ok (some ((select kw.req stream).filterMap (I.sliceTrace kw.req.starttime kw.req.endtime))) := by
  refine ⟨wrapper (fromFiles I stream), ?_, fun kw => rfl⟩
  unfold initData source
  have hname : "obspy.clients.".toList ++ "None".toList = "obspy.clients.None".toList := by decide +kernel
  rw [Option.getD_none, hname, hno]
  simp only []
  rw [if_neg (by simp)]
  simp only [hr]

end missing

/-- **C120** is false: no source is given and waveforms are delivered. -/
theorem C120_counterexample :
    answer (initData (smallWorld fun _ => .error .other) [] none none none) smallRequest = some ["EHZ".toList] := by
  decide +kernel

/-! ## C121: the search path of modules -/

section path
variable {K Ev : Type}

/-- **C121** (what holds) If the module can be imported and leaves the search path alone, the path is the same
afterwards, whether the function exists or not. -/
theorem C121_restored_partial (I : Interp K Ev) (path : List Str) (modname funcname : Str) (m : PyMod K Ev)
    (h : I.importModule (path ++ [['.']]) modname = (path ++ [['.']], .module m)) :
    (loadFunc I path modname funcname).1 = path := by
  unfold loadFunc
  simp only [h]
  rw [if_neg (by simp)]
  cases m.func funcname <;> simp

/-- **C121** (general form of the first defect) If the import fails, the current directory stays in the path. -/
theorem C121_failed (I : Interp K Ev) (path : List Str) (modname funcname : Str)
    (h1 : (I.importModule (path ++ [['.']]) modname).1 = path ++ [['.']])
    (h2 : ∀ m, (I.importModule (path ++ [['.']]) modname).2 ≠ .module m) :
    (loadFunc I path modname funcname).1 = path ++ [['.']] ∧ ∃ e, (loadFunc I path modname funcname).2 = .error e := by
  unfold loadFunc
  cases hi : I.importModule (path ++ [['.']]) modname with
  | mk p o =>
    rw [hi] at h1 h2
    simp only [] at h1 h2
    subst h1
    cases o with
    | module m => exact absurd rfl (h2 m)
    | importError => exact ⟨rfl, _, rfl⟩
    | raises e => exact ⟨rfl, _, rfl⟩

/-- **C121** (general form of the second defect) If the module appends a directory to the path, this entry is removed
and the current directory stays. -/
theorem C121_foreign (I : Interp K Ev) (path : List Str) (modname funcname dir : Str) (m : PyMod K Ev)
    (h : I.importModule (path ++ [['.']]) modname = (path ++ [['.'], dir], .module m)) :
    (loadFunc I path modname funcname).1 = path ++ [['.']] := by
  unfold loadFunc
  simp only [h]
  rw [if_neg (by simp)]
  have : (path ++ [['.'], dir]).dropLast = path ++ [['.']] := by
    rw [show path ++ [['.'], dir] = (path ++ [['.']]) ++ [dir] by simp, List.dropLast_concat]
  cases m.func funcname <;> simp only [this]

end path

/-- **C121** is false: a missing module, and a module which extends the path. -/
theorem C121_counterexample :
    (initData (smallWorld fun _ => .error .other) ["/usr".toList] (some "plugin".toList) none
      (some "nothing : get".toList)).1 = ["/usr".toList, ".".toList] ∧
    (initData (smallWorld fun _ => .error .other) ["/usr".toList] (some "plugin".toList) none
      (some "tidy : get".toList)).1 = ["/usr".toList, ".".toList] := by
  decide +kernel

example : (loadFunc (smallWorld fun _ => .error .other) ["/usr".toList] "plug".toList "unknown".toList).1 = ["/usr".toList] := by
  decide +kernel

/-! ## C122: the plugin of the example configuration -/

section plugin
variable {K Ev C : Type}

/-- The plugin shown in `rf/example/conf.json` lines 33-39: `kwargs.pop('event')`, then the client is asked. -/
def docPlugin (client : Request K → Res (Option (List (WTrace K)))) : GetWf K Ev := fun kw =>
  match kw.event with
  | none => .error .keyError
  | some _ => client kw.req

/-- A plugin which does not expect an event. -/
def plainPlugin (client : Request K → Res (Option (List (WTrace K)))) : GetWf K Ev := fun kw => client kw.req

/-- The services with the function of `init_data` as data service. -/
def servedBy (g : GetWf K Ev) (S : Services K Ev C) : Services K Ev C := { S with waveforms := called g }

theorem called_wrapper (get : GetWf K Ev) : called (wrapper get) = wrapWaveforms (called get) := by
  funext r
  unfold called wrapper wrapWaveforms
  simp only []
  cases get ⟨r, none⟩ <;> rfl

variable [Field K] (E : FmtEnv K)

/-- **C122** (general form of the defect) With the plugin of the example configuration no stream is ever delivered,
whatever the client has: `event` is not among the arguments.  The first pair in range ends the program. -/
theorem C122_nothing (client : Request K → Res (Option (List (WTrace K)))) (S : Nat → Services K Ev C) (events : List Ev)
    (channels : List Str) (phase : Str) (win : Option (K × K)) (pad : K) :
    (iterEventData E (fun n => servedBy (wrapper (docPlugin client)) (S n)) events channels phase win pad).1.items = [] := by
  unfold iterEventData
  cases requestWindow phase win with
  | error e => rfl
  | ok w =>
    simp only []
    cases getStations channels with
    | error e => rfl
    | ok stations =>
      simp only []
      have hstep : ∀ (S : Services K Ev C) (ev : Ev) (st : Str × Char) (x : Item K Ev),
          step E (servedBy (wrapper (docPlugin client)) S) w pad ev st ≠ .yield x := by
        intro S ev st x
        unfold step servedBy
        simp only []
        cases S.originTime ev with
        | error e => simp
        | ok ot =>
          simp only []
          cases S.coords (st.1.dropLast ++ [st.2]) ot with
          | error e => simp
          | ok c =>
            simp only []
            cases S.rfstats c ev with
            | error e => simp
            | ok o =>
              cases o with
              | none => simp
              | some os =>
                obtain ⟨onset, stats⟩ := os
                simp only []
                unfold fetch
                split
                · simp only [called, wrapper, docPlugin]
                  simp
                · simp
      generalize (pairs events stations).zipIdx = l
      induction l with
      | nil => rfl
      | cons p l ih =>
        unfold genLoop
        cases hs : step E (servedBy (wrapper (docPlugin client)) (S p.2)) w pad p.1.1 p.1.2 with
        | abort e => rfl
        | skip => exact ih
        | yield x => exact absurd hs (hstep _ _ _ x)

/-- **C122** (what holds) A plugin which does without the event is as good as the client itself. -/
theorem C122_plain_partial (client : Request K → Res (Option (List (WTrace K)))) (S : Nat → Services K Ev C)
    (events : List Ev) (channels : List Str) (phase : Str) (win : Option (K × K)) (pad : K)
    (hc : ∀ r, ∃ s, client r = .ok s) :
    iterEventData E (fun n => servedBy (wrapper (plainPlugin client)) (S n)) events channels phase win pad =
      iterEventData E (fun n => { S n with waveforms := client }) events channels phase win pad := by
  have : ∀ n, servedBy (wrapper (plainPlugin client)) (S n) = { S n with waveforms := client } := by
    intro n
    unfold servedBy
    have : called (wrapper (plainPlugin (Ev := Ev) client)) = client := by
      funext r
      obtain ⟨s, hs⟩ := hc r
      unfold called wrapper plainPlugin
      simp only [hs]
    rw [this]
  simp only [this]

end plugin

/-- A client with three components for every request. -/
def fullClient (_ : Request ℚ) : Res (Option (List (WTrace ℚ))) :=
  .ok (some (List.replicate 3 ⟨⟨[], [], [], [], ⟨none, [], none, none⟩⟩, false, true⟩))

/-- **C122** is false: one event, one station, complete data, and the program ends with `AttributeError`; without the
event in the plugin the stream is delivered. -/
theorem C122_counterexample (E : FmtEnv ℚ) :
    (iterEventData E (fun _ => servedBy (wrapper (docPlugin fullClient)) gapService) [7] ["CX.PB01..BHZ".toList] "P".toList none 10).1.err =
      some .attributeError ∧
    ((iterEventData E (fun _ => servedBy (wrapper (plainPlugin fullClient)) gapService) [7] ["CX.PB01..BHZ".toList] "P".toList none 10).1.items.map
      (fun x => (x.event, x.seedid))) = [(7, "CX.PB01..BH?".toList)] := by
  refine ⟨?_, ?_⟩ <;> rfl

end Verif.Props
