import Verif.Files.CommandRun
import Verif.Export.ItsdbDefault
/-
C165: `xigt export -f itsdb`: /repo/xigt/exporters/itsdb.py:23-54, 64-73.

`delphin.itsdb.make_skeleton` and `eval` are not in the repository; they are parameters.
-/
set_option linter.unusedSectionVars false

namespace Xigt.Tsdb

open Xigt.Files Xigt.Opt

section
variable {W : Type}

/-! ### Model -/

/-- what is not modelled -/
structure Delphin (W : Type) where
  /-- the environment variable `LOGONROOT`, if there is one -/
  logon : Option Str
  /-- evaluating the text of an expression for an IGT -/
  eval : Str → Obj → Py W
  /-- `make_skeleton(path, relations, rows)`; the rows are a generator, that may end with an exception -/
  skeleton : Str → Str → List (Dict Str (Val W)) × Option PyErr → Act Unit

/-- itsdb.py:25, 28 -/
def RELATIONS : Str := lit! "relations"
/-- itsdb.py:37 -/
def START : Str := lit! "i-id_start"
/-- itsdb.py:38 -/
def SKIP : Str := lit! "i-id_skip"
/-- itsdb.py:50 -/
def CELLS : Str := lit! "cells"
/-- itsdb.py:43 -/
def RELPATH : Str := lit! "lingo/lkb/src/tsdb/skeletons/english/Relations"

/-- `os.path.join` with a second part that does not begin with `/` -/
def pjoin (a b : Str) : Str := if a = [] ∨ a.getLast? = some '/' then a ++ b else a ++ '/' :: b

/-- `a, b = v`: two elements of a list, characters of a text or keys of a dict -/
def unpack : V → Py (V × V)
  | .arr [a, b] => .ok (a, b)
  | .str [a, b] => .ok (.str [a], .str [b])
  | .obj [a, b] => .ok (.str a.1, .str b.1)
  | .arr _ => .error .valueError
  | .str _ => .error .valueError
  | .obj _ => .error .valueError
  | _ => .error .typeError

/-- what `for … in v` goes through -/
def elems : V → Py (List V)
  | .arr l => .ok l
  | .str s => .ok (s.map fun c => .str [c])
  | .obj d => .ok (d.map fun p => .str p.1)
  | _ => .error .typeError

/-- itsdb.py:14-21 -/
def dCells : V := .arr [.arr [.str I_INPUT, .str DEFAULT_INPUT]]

/-- itsdb.py:34-36: `null` is `None`; other things than dicts have no `setdefault` -/
def given : Option V → Py (Dict Str V)
  | none => .ok []
  | some .null => .ok []
  | some (.obj d) => .ok d
  | some _ => .error .attributeError

/-- itsdb.py:37-50 -/
def fillConfig (logon : Option Str) (isf : Str → Bool) (c : Dict Str V) : Dict Str V :=
  let c := setDefault c START (.num 0)
  let c := setDefault c SKIP (.num 10)
  let c := match Dict.has c RELATIONS, logon with
    | false, some root => if isf (pjoin root RELPATH) then Dict.set c RELATIONS (.str (pjoin root RELPATH)) else c
    | _, _ => c
  setDefault c CELLS dCells

/-- itsdb.py:34-54 `prepare_config`: the configuration and its cells -/
def prepareConfig (logon : Option Str) (isf : Str → Bool) (v : Option V) : Py (Dict Str V × List (V × V)) := do
  let c ← given v
  let es ← elems ((Dict.get? (fillConfig logon isf c) CELLS).getD .null)
  let cells ← mapPy unpack es
  .ok (fillConfig logon isf c, cells)

/-- itsdb.py:25: the file, if it is there; numbers, which would be open files, are a TypeError here as other things are that are no names -/
def relations (isf : Str → Bool) (c : Dict Str V) : Py (Option Str) := match Dict.get? c RELATIONS with
  | none => .ok none
  | some (.str s) => .ok (if s ≠ [] ∧ isf s = true then some s else none)
  | some v => if v.truthy then .error .typeError else .ok none

/-- a number of the configuration; `True` and `False` are numbers -/
def int? : V → Option Int
  | .num n => some n
  | .bool b => some (if b then 1 else 0)
  | _ => none

/-- a cell of texts -/
def strs? : V × V → Option (Str × Str)
  | (.str a, .str b) => some (a, b)
  | _ => none

/-- all of them -/
def allStrs : List (V × V) → Option (List (Str × Str))
  | [] => some []
  | c :: cs => (strs? c).bind fun p => (allStrs cs).map (p :: ·)

/-- the configuration, if numbers are numbers and cells are texts.  (Otherwise, in the code there is an exception in most cases when the first row is made.
Texts as numbers, where `'a' + 0 * 'b'` is `'a'`, and keys of cells that are no texts are left out.) -/
def conf? (c : Dict Str V × List (V × V)) : Option Conf :=
  ((Dict.get? c.1 START).bind int?).bind fun a => ((Dict.get? c.1 SKIP).bind int?).bind fun b => (allStrs c.2).map fun l => ⟨a, b, l⟩

/-- itsdb.py:55-62 `export_corpus` as a generator, from the `i`-th IGT on: the rows, and the exception with which it ends -/
def rowsOf (ev : Str → Obj → Py W) (cf : Conf) : Nat → List (Py Obj) → List (Dict Str (Val W)) × Option PyErr
  | _, [] => ([], none)
  | i, x :: xs =>
    match x with
    | .error e => ([], some e)
    | .ok g =>
      match exportIgt ev g (cf.start + i * cf.skip) (prepare cf.cells) with
      | .error e => ([], some e)
      | .ok r => let p := rowsOf ev cf (i + 1) xs; (r :: p.1, p.2)

/-- the rows for a configuration -/
def rows (ev : Str → Obj → Py W) (c : Dict Str V × List (V × V)) (igts : List (Py Obj)) : List (Dict Str (Val W)) × Option PyErr :=
  match conf? c with
  | some cf => rowsOf ev cf 0 igts
  | none => ([], match igts with
    | [] => none
    | .error e :: _ => some e
    | .ok _ :: _ => some .typeError)

/-- itsdb.py:23-32 `xigt_export` -/
def exportF (d : Delphin W) (v : Option V) (o : Opened) (outpath : Str) : Act Unit := fun fs =>
  match prepareConfig d.logon (isFile fs) v with
  | .error e => (.error (.py e), fs)
  | .ok c =>
    match relations (isFile fs) c.1 with
    | .error e => (.error (.py e), fs)
    | .ok none => (.ok (), fs)
    | .ok (some rel) => d.skeleton outpath rel (rows d.eval c o.igts) fs

/-! ### Specification -/

/-- what a configuration says of a key: nothing if there is none, or it is `null` -/
def says (v : Option V) (k : Str) : Option V := match v with
  | some (.obj d) => Dict.get? d k
  | _ => none

/-- configurations as they should be: absent, or a dict in which the numbers are integers, the cells pairs of texts, and the name of the Relations file a text -/
structure Good (v : Option V) (start skip : Int) (cells : List (Str × Str)) : Prop where
  dict : v = none ∨ v = some .null ∨ ∃ d, v = some (.obj d)
  start : says v START = some (.num start) ∨ says v START = none ∧ start = 0
  skip : says v SKIP = some (.num skip) ∨ says v SKIP = none ∧ skip = 10
  cells : says v CELLS = some (.arr (cells.map fun c => .arr [.str c.1, .str c.2])) ∨ says v CELLS = none ∧ cells = [(I_INPUT, DEFAULT_INPUT)]
  rel : says v RELATIONS = none ∨ ∃ s, says v RELATIONS = some (.str s)

/-- the path of `b` inside the directory `a`, which may or may not end in `/` -/
inductive Inside (b : Str) : Str → Str → Prop
  | here : Inside b [] b
  | slash {a : Str} : Inside b (a ++ ['/']) (a ++ ['/'] ++ b)
  | plain {a : Str} {c : Char} : c ≠ '/' → Inside b (a ++ [c]) (a ++ [c] ++ ['/'] ++ b)

theorem inside_iff {a b p : Str} : Inside b a p ↔ p = pjoin a b := by
  constructor
  · intro h
    cases h with
    | here => simp [pjoin]
    | slash => simp [pjoin]
    | plain h => simp [pjoin, h]
  · rintro rfl
    rcases List.eq_nil_or_concat a with rfl | ⟨a, c, rfl⟩
    · exact .here
    · rw [List.concat_eq_append]
      by_cases h : c = '/'
      · subst h
        have : pjoin (a ++ ['/']) b = a ++ ['/'] ++ b := by simp [pjoin]
        rw [this]
        exact .slash
      · have : pjoin (a ++ [c]) b = a ++ [c] ++ ['/'] ++ b := by simp [pjoin, h]
        rw [this]
        exact .plain h

/-- the Relations file: the one that the configuration names if it does so, and otherwise that of LOGON; it has to be there -/
inductive Relations (logon : Option Str) (fs : FS) (v : Option V) : Str → Prop
  | said {s : Str} : says v RELATIONS = some (.str s) → s ≠ [] → isFile fs s = true → Relations logon fs v s
  | found {root p : Str} : says v RELATIONS = none → logon = some root → Inside (lit! "lingo/lkb/src/tsdb/skeletons/english/Relations") root p → isFile fs p = true → Relations logon fs v p

/-- the rows of the IGTs up to the first that cannot be read or exported, and what that raises -/
inductive RowsAre (ev : Str → Obj → Py W) (cf : Conf) (igts : List (Py Obj)) : List (Dict Str (Val W)) × Option PyErr → Prop
  | all {gs rs} (x : Obj) : x.kids = gs → igts = gs.map .ok → exportCorpus ev cf x = .ok rs → RowsAre ev cf igts (rs, none)
  | unread {gs rs e post} (x : Obj) : x.kids = gs → igts = gs.map .ok ++ .error e :: post → exportCorpus ev cf x = .ok rs → RowsAre ev cf igts (rs, some e)
  | stopped {gs rs g e post} (x y : Obj) : x.kids = gs → y.kids = gs ++ [g] → igts = gs.map .ok ++ .ok g :: post → exportCorpus ev cf x = .ok rs →
      exportCorpus ev cf y = .error e → RowsAre ev cf igts (rs, some e)

/-! ### Properties -/

theorem says_get {v : Option V} {c : Dict Str V} (h : given v = .ok c) (k : Str) : Dict.get? c k = says v k := by
  unfold says
  unfold given at h
  split at h
  · cases h; rfl
  · cases h; rfl
  · cases h; rfl
  · cases h

theorem get_default (c : Dict Str V) (k j : Str) (v : V) : Dict.get? (setDefault c k v) j = if j = k then some ((Dict.get? c k).getD v) else Dict.get? c j := by
  unfold setDefault
  by_cases hj : j = k
  · subst hj
    simp only [if_true]
    split
    · rename_i h
      obtain ⟨w, hw⟩ := (Dict.has_true_iff _ _).1 h
      simp [hw]
    · rename_i h
      have := (Dict.has_false_iff c j).1 (by simpa using h)
      rw [Dict.get?_set, if_pos rfl, this]
      rfl
  · rw [if_neg hj]
    split
    · rfl
    · rw [Dict.get?_set, if_neg (fun e => hj e.symm)]

theorem fill_other (logon : Option Str) (isf : Str → Bool) (c : Dict Str V) {k : Str} (hk : k ≠ RELATIONS) : Dict.get? (fillConfig logon isf c) k =
    if k = CELLS then some ((Dict.get? c k).getD dCells) else if k = SKIP then some ((Dict.get? c k).getD (.num 10)) else
    if k = START then some ((Dict.get? c k).getD (.num 0)) else Dict.get? c k := by
  have hd : ∀ c' : Dict Str V, Dict.get? (match Dict.has c' RELATIONS, logon with
    | false, some root => if isf (pjoin root RELPATH) then Dict.set c' RELATIONS (.str (pjoin root RELPATH)) else c'
    | _, _ => c') k = Dict.get? c' k := by
    intro c'
    split
    · split
      · rw [Dict.get?_set, if_neg (fun e => hk e.symm)]
      · rfl
    · rfl
  unfold fillConfig
  rw [get_default]
  by_cases h1 : k = CELLS
  · subst h1
    rw [if_pos rfl, if_pos rfl, hd, get_default, if_neg (by decide), get_default, if_neg (by decide)]
  · rw [if_neg h1, if_neg h1, hd, get_default]
    by_cases h2 : k = SKIP
    · subst h2
      rw [if_pos rfl, if_pos rfl, get_default, if_neg (by decide)]
    · rw [if_neg h2, if_neg h2, get_default]
      split
      · rename_i h; rw [h]
      · rfl

theorem fill_relations (logon : Option Str) (isf : Str → Bool) (c : Dict Str V) : Dict.get? (fillConfig logon isf c) RELATIONS =
    match Dict.get? c RELATIONS, logon with
    | none, some root => if isf (pjoin root RELPATH) then some (.str (pjoin root RELPATH)) else none
    | x, _ => x := by
  unfold fillConfig
  simp only []
  generalize hc : setDefault (setDefault c START (.num 0)) SKIP (.num 10) = c'
  have h0 : Dict.get? c' RELATIONS = Dict.get? c RELATIONS := by
    rw [← hc, get_default, if_neg (by decide), get_default, if_neg (by decide)]
  rw [get_default, if_neg (by decide)]
  split
  · rename_i hh
    rw [Dict.has_false_iff, h0] at hh
    rw [hh]
    simp only []
    split
    · rw [Dict.get?_set, if_pos rfl]
    · rw [h0, hh]
  · rename_i hn
    rw [h0]
    split
    · rename_i root hh
      exact (hn _ ((Dict.has_false_iff _ _).2 (h0.trans hh)) rfl).elim
    · rfl

theorem cells_unpack (cells : List (Str × Str)) : mapPy unpack (cells.map fun c => .arr [.str c.1, .str c.2]) = .ok (cells.map fun c => (.str c.1, .str c.2)) := by
  induction cells with
  | nil => rfl
  | cons c cs ih => simp only [List.map_cons, mapPy, unpack, ih, bind, Except.bind, pure, Except.pure]

theorem cells_strs (cells : List (Str × Str)) : allStrs (cells.map fun c => (.str c.1, .str c.2)) = some cells := by
  induction cells with
  | nil => rfl
  | cons c cs ih => simp [allStrs, strs?, ih]

theorem Good.prepared {v : Option V} {a b : Int} {cells : List (Str × Str)} (h : Good v a b cells) (logon : Option Str) (isf : Str → Bool) :
    ∃ c, given v = .ok c ∧ prepareConfig logon isf v = .ok (fillConfig logon isf c, cells.map fun c => (.str c.1, .str c.2)) ∧
      conf? (fillConfig logon isf c, cells.map fun c => (.str c.1, .str c.2)) = some ⟨a, b, cells⟩ := by
  obtain ⟨c, hc⟩ : ∃ c, given v = .ok c := by
    rcases h.dict with rfl | rfl | ⟨d, rfl⟩ <;> exact ⟨_, rfl⟩
  have hs := says_get hc
  have h1 : Dict.get? (fillConfig logon isf c) CELLS = some (.arr (cells.map fun c => .arr [.str c.1, .str c.2])) := by
    rw [fill_other _ _ _ (by decide), if_pos rfl, hs]
    rcases h.cells with e | ⟨e, e'⟩
    · rw [e]; rfl
    · rw [e, e']; rfl
  have h2 : Dict.get? (fillConfig logon isf c) SKIP = some (.num b) := by
    rw [fill_other _ _ _ (by decide), if_neg (by decide), if_pos rfl, hs]
    rcases h.skip with e | ⟨e, e'⟩
    · rw [e]; rfl
    · rw [e, e']; rfl
  have h3 : Dict.get? (fillConfig logon isf c) START = some (.num a) := by
    rw [fill_other _ _ _ (by decide), if_neg (by decide), if_neg (by decide), if_pos rfl, hs]
    rcases h.start with e | ⟨e, e'⟩
    · rw [e]; rfl
    · rw [e, e']; rfl
  refine ⟨c, hc, ?_, ?_⟩
  · simp only [prepareConfig, hc, h1, bind, Except.bind, Option.getD_some, elems, cells_unpack]
  · simp only [conf?, h2, h3, cells_strs, Option.bind_some, int?, Option.map_some]

theorem relations_iff {logon : Option Str} {fs : FS} {v : Option V} {c : Dict Str V} (hc : given v = .ok c) (rel : Str) :
    relations (isFile fs) (fillConfig logon (isFile fs) c) = .ok (some rel) ↔ Relations logon fs v rel := by
  unfold relations
  rw [fill_relations, says_get hc]
  constructor
  · intro h
    cases hs : says v RELATIONS with
    | none =>
      rw [hs] at h
      cases logon with
      | none => cases h
      | some root =>
        simp only at h
        split at h
        · rename_i hx
          split at hx
          · cases hx
          · cases h
        · rename_i s hx
          split at hx
          · rename_i hf
            cases hx
            split at h
            · cases h
              exact .found hs rfl (inside_iff.2 rfl) hf
            · cases h
          · cases hx
        · rename_i w hw hx
          split at hx
          · cases hx
            exact (hw _ rfl).elim
          · cases hx
    | some w =>
      rw [hs] at h
      cases w with
      | str s =>
        simp only at h
        split at h
        · rename_i hh
          cases h
          exact .said hs hh.1 hh.2
        · cases h
      | _ =>
        simp only at h
        split at h <;> cases h
  · intro h
    cases h with
    | said h1 h2 h3 => simp only [h1, h2, h3, ne_eq, not_false_eq_true, and_self, if_true]
    | found h1 h2 hi h3 =>
      have hi := (inside_iff (b := RELPATH)).1 hi
      subst hi
      subst h2
      have hne : ∀ r, pjoin r RELPATH ≠ [] := by
        intro r
        unfold pjoin
        split <;> simp [RELPATH]
      simp only [h1, h3, if_true, ne_eq, hne, not_false_eq_true, and_self]

/-- the rows are those of the IGTs up to the first that cannot be read or exported -/
theorem rowsOf_are (ev : Str → Obj → Py W) (cf : Conf) : ∀ (igts : List (Py Obj)) (i : Nat),
    (∃ gs rs, igts = gs.map .ok ∧ exportFrom ev cf i gs = .ok rs ∧ rowsOf ev cf i igts = (rs, none)) ∨
    (∃ gs rs e post, igts = gs.map .ok ++ .error e :: post ∧ exportFrom ev cf i gs = .ok rs ∧ rowsOf ev cf i igts = (rs, some e)) ∨
    ∃ gs rs g e post, igts = gs.map .ok ++ .ok g :: post ∧ exportFrom ev cf i gs = .ok rs ∧ exportFrom ev cf i (gs ++ [g]) = .error e ∧
      rowsOf ev cf i igts = (rs, some e) := by
  intro igts
  induction igts with
  | nil => intro i; exact .inl ⟨[], [], rfl, rfl, rfl⟩
  | cons x xs ih =>
    intro i
    cases x with
    | error e => exact .inr (.inl ⟨[], [], e, xs, rfl, rfl, rfl⟩)
    | ok g =>
      cases hg : exportIgt ev g (cf.start + i * cf.skip) (prepare cf.cells) with
      | error e => exact .inr (.inr ⟨[], [], g, e, xs, rfl, rfl, by simp [exportFrom, hg, bind, Except.bind], by simp [rowsOf, hg]⟩)
      | ok r =>
        rcases ih (i + 1) with ⟨gs, rs, h1, h2, h3⟩ | ⟨gs, rs, e, post, h1, h2, h3⟩ | ⟨gs, rs, g', e, post, h1, h2, h3, h4⟩
        · exact .inl ⟨g :: gs, r :: rs, by rw [h1]; rfl, by simp [exportFrom, hg, h2, bind, Except.bind], by simp [rowsOf, hg, h3]⟩
        · exact .inr (.inl ⟨g :: gs, r :: rs, e, post, by rw [h1]; rfl, by simp [exportFrom, hg, h2, bind, Except.bind], by simp [rowsOf, hg, h3]⟩)
        · exact .inr (.inr ⟨g :: gs, r :: rs, g', e, post, by rw [h1]; rfl, by simp [exportFrom, hg, h2, bind, Except.bind],
            by simp [exportFrom, hg, h3, bind, Except.bind], by simp [rowsOf, hg, h4]⟩)

theorem rowsAre (ev : Str → Obj → Py W) (cf : Conf) (igts : List (Py Obj)) : RowsAre ev cf igts (rowsOf ev cf 0 igts) := by
  rcases rowsOf_are ev cf igts 0 with ⟨gs, rs, h1, h2, h3⟩ | ⟨gs, rs, e, post, h1, h2, h3⟩ | ⟨gs, rs, g, e, post, h1, h2, h3, h4⟩
  · rw [h3]; exact .all (.mk { cls := .corpus } [] gs) rfl h1 h2
  · rw [h3]; exact .unread (.mk { cls := .corpus } [] gs) rfl h1 h2
  · rw [h4]; exact .stopped (.mk { cls := .corpus } [] gs) (.mk { cls := .corpus } [] (gs ++ [g])) rfl rfl h1 h2 h3

/-- **C165**: with a configuration as it should be, or without any, and a Relations file, a profile is made once, at the output, with this file and the
rows of C61, numbered as the configuration says; if an IGT cannot be read or exported, the rows before it are given and then the exception. -/
theorem C165_profile (d : Delphin W) (v : Option V) (o : Opened) (outpath : Str) (fs : FS) (a b : Int) (cells : List (Str × Str)) (h : Good v a b cells)
    (rel : Str) (hr : Relations d.logon fs v rel) :
    ∃ rs, RowsAre d.eval ⟨a, b, cells⟩ o.igts rs ∧ exportF d v o outpath fs = d.skeleton outpath rel rs fs := by
  obtain ⟨c, h1, h2, h3⟩ := h.prepared d.logon (isFile fs)
  refine ⟨_, rowsAre d.eval ⟨a, b, cells⟩ o.igts, ?_⟩
  simp only [exportF, h2, (relations_iff h1 rel).2 hr, rows, h3]

/-- **C165**, of a corpus all of whose IGTs can be read and exported -/
theorem C165_rows (d : Delphin W) (v : Option V) (o : Opened) (outpath : Str) (fs : FS) (a b : Int) (cells : List (Str × Str)) (h : Good v a b cells)
    (rel : Str) (hr : Relations d.logon fs v rel) (x : Obj) (ho : o.igts = x.kids.map .ok) (rs : List (Dict Str (Val W)))
    (hx : exportCorpus d.eval ⟨a, b, cells⟩ x = .ok rs) : exportF d v o outpath fs = d.skeleton outpath rel (rs, none) fs := by
  obtain ⟨c, h1, h2, h3⟩ := h.prepared d.logon (isFile fs)
  have hrow : ∀ (gs : List Obj) (i : Nat) (rs : List (Dict Str (Val W))), exportFrom d.eval ⟨a, b, cells⟩ i gs = .ok rs →
      rowsOf d.eval ⟨a, b, cells⟩ i (gs.map .ok) = (rs, none) := by
    intro gs
    induction gs with
    | nil => intro i rs h; cases h; rfl
    | cons g gs ih =>
      intro i rs h
      simp only [exportFrom, bind, Except.bind] at h
      split at h
      · cases h
      rename_i r hr
      split at h
      · cases h
      rename_i rs' hrs
      cases h
      simp only [List.map_cons, rowsOf, hr, ih _ _ hrs]
  simp only [exportF, h2, (relations_iff h1 rel).2 hr, rows, h3, ho, hrow _ _ _ hx]

/-- **C165**: without a Relations file nothing is written, whatever the configuration and the corpus are; and if the configuration is as it should
be the program ends as if all went well (the message is in the log). -/
theorem C165_nothing (d : Delphin W) (v : Option V) (o : Opened) (outpath : Str) (fs : FS) (hr : ∀ rel, ¬ Relations d.logon fs v rel) :
    (∃ r, exportF d v o outpath fs = (r, fs)) ∧ ∀ a b cells, Good v a b cells → exportF d v o outpath fs = (.ok (), fs) := by
  constructor
  · unfold exportF
    cases hp : prepareConfig d.logon (isFile fs) v with
    | error e => exact ⟨_, rfl⟩
    | ok c =>
      obtain ⟨c0, h1, h⟩ := bindOk hp
      obtain ⟨es, -, h⟩ := bindOk h
      obtain ⟨cells, -, h⟩ := bindOk h
      cases h
      simp only
      cases hx : relations (isFile fs) (fillConfig d.logon (isFile fs) c0) with
      | error e => exact ⟨_, rfl⟩
      | ok q =>
        cases q with
        | none => exact ⟨_, rfl⟩
        | some rel => exact absurd ((relations_iff h1 rel).1 hx) (hr rel)
  · intro a b cells hg
    obtain ⟨c, h1, h2, -⟩ := hg.prepared d.logon (isFile fs)
    simp only [exportF, h2]
    cases hx : relations (isFile fs) (fillConfig d.logon (isFile fs) c) with
    | error e =>
      exfalso
      unfold relations at hx
      rw [fill_relations, says_get h1] at hx
      rcases hg.rel with e' | ⟨s, e'⟩
      · rw [e'] at hx
        cases hl : d.logon with
        | none => rw [hl] at hx; cases hx
        | some root =>
          rw [hl] at hx
          simp only at hx
          by_cases hf : isFile fs (pjoin root RELPATH) = true
          · rw [if_pos hf] at hx; cases hx
          · rw [if_neg hf] at hx; cases hx
      · rw [e'] at hx; cases hx
    | ok q =>
      cases q with
      | none => rfl
      | some rel => exact absurd ((relations_iff h1 rel).1 hx) (hr rel)

/-- **C165**: if the configuration names a Relations file, or says that there is none, the environment makes no difference -/
theorem C165_named (d : Delphin W) (logon : Option Str) (v : Option V) (w : V) (hs : says v RELATIONS = some w) (o : Opened) (outpath : Str) (fs : FS) :
    exportF { d with logon := logon } v o outpath fs = exportF d v o outpath fs := by
  have hfill : ∀ c, given v = .ok c → ∀ l l', fillConfig l (isFile fs) c = fillConfig l' (isFile fs) c := by
    intro c hc l l'
    have hh : Dict.has (setDefault (setDefault c START (.num 0)) SKIP (.num 10)) RELATIONS = true := by
      rw [Dict.has_true_iff]
      exact ⟨w, by rw [get_default, if_neg (by decide), get_default, if_neg (by decide), says_get hc, hs]⟩
    simp only [fillConfig, hh]
  have hp : prepareConfig logon (isFile fs) v = prepareConfig d.logon (isFile fs) v := by
    unfold prepareConfig
    cases hc : given v with
    | error e => rfl
    | ok c =>
      simp only [bind, Except.bind]
      rw [hfill c hc logon d.logon]
  simp only [exportF, hp]

section
variable [Uni] [XmlLex]

/-- **C165**: if `make_skeleton` changes nothing but what is at the output or below it, so does the export: this is what C156 assumes. -/
theorem C165_only (d : Delphin W) (hd : ∀ out rel rs fs, Only (fun p => ∃ q, Files.resolve fs out = some q ∧ q <+: p) fs (d.skeleton out rel rs fs).2)
    (v : Option V) (o : Opened) (outpath : Str) (fs : FS) :
    Only (fun p => ∃ q, Files.resolve fs outpath = some q ∧ q <+: p) fs (exportF d v o outpath fs).2 := by
  unfold exportF
  split
  · exact .refl fs
  · split
    · exact .refl fs
    · exact .refl fs
    · exact hd _ _ _ fs



/-- the program with this exporter -/
def withItsdb (w : Files.World) (d : Delphin W) : Files.World := { w with itsdb := exportF d }

/-- **C165** of the whole program, with options written in full: with a Relations file a profile of the rows is made at the last output that is said, and without one nothing is changed
or printed and the status is 0. -/
theorem C165_command (w : Files.World) (d : Delphin W) (gs : List Cmd.Given) (h : Cmd.Options Cmd.formatOptions gs) (hf : Cmd.FormatsIn [lit! "latex", lit! "itsdb"] gs)
    (i o : Str) (hi : Cmd.lastWord [lit! "-i", lit! "--input"] gs = some i) (ho : Cmd.lastWord [lit! "-o", lit! "--output"] gs = some o)
    (hl : Cmd.lastWord [lit! "-f", lit! "--format"] gs = some (lit! "itsdb")) (fs : FS) (v : Option V) (t : Str) (x : Opened)
    (hv : exportConfig w (Cmd.lastWord [lit! "-c", lit! "--config"] gs) fs = (.ok v, fs)) (ht : contents fs i = some t) (hx : openText w.look t = .ok x)
    (a b : Int) (cells : List (Str × Str)) (hg : Good v a b cells) :
    (∀ rel, Relations d.logon fs v rel → ∃ rs, RowsAre d.eval ⟨a, b, cells⟩ x.igts rs ∧
      xigtF (withItsdb w d) (lit! "export" :: gs.flatMap Cmd.Given.write) fs = silent (d.skeleton o rel rs fs)) ∧
    ((∀ rel, ¬ Relations d.logon fs v rel) → xigtF (withItsdb w d) (lit! "export" :: gs.flatMap Cmd.Given.write) fs = some (⟨0, []⟩, fs)) := by
  have key := (C157_export (withItsdb w d) gs h hf i o hi ho fs v t x (by
    have : exportConfig (withItsdb w d) = exportConfig w := by
      funext q
      unfold exportConfig
      rfl
    rw [this]; exact hv) ht hx).2 (by rw [hl]; rfl)
  refine ⟨fun rel hr => ?_, fun hr => ?_⟩
  · obtain ⟨rs, h1, h2⟩ := C165_profile d v x o fs a b cells hg rel hr
    exact ⟨rs, h1, by rw [key]; exact congrArg silent h2⟩
  · rw [key]
    show silent (exportF d v x o fs) = _
    rw [(C165_nothing d v x o fs hr).2 a b cells hg]
    rfl

end

end
/-! ### Examples and refutations -/

section
attribute [local instance] asciiUni asciiXml

/-- a library that writes one character for each row, and `!` if the generator failed, to a file in the directory -/
def exDelphin (logon : Option Str) : Delphin Str where
  logon := logon
  eval e g := if e = lit! "bad" then .error .keyError else .ok (e ++ g.data.id.getD [])
  skeleton out _ rs := do
    mkdir out
    let p ← openW (out ++ lit! "/item")
    put p (rs.1.map (fun _ => 'r') ++ (if rs.2.isSome then ['!'] else []))

/-- a corpus and two Relations files, one where LOGON has it -/
def exDisk : FS where
  files := [([lit! "in.xml"], lit! "<xigt-corpus><igt id=\"i1\" /><igt id=\"i2\" /></xigt-corpus>"), ([lit! "rel"], lit! "item:"),
    ([lit! "l", lit! "lingo", lit! "lkb", lit! "src", lit! "tsdb", lit! "skeletons", lit! "english", lit! "Relations"], lit! "item:")]
  dirs := [[lit! "l", lit! "lingo", lit! "lkb", lit! "src", lit! "tsdb", lit! "skeletons", lit! "english"], [lit! "l", lit! "lingo", lit! "lkb", lit! "src", lit! "tsdb", lit! "skeletons"],
    [lit! "l", lit! "lingo", lit! "lkb", lit! "src", lit! "tsdb"], [lit! "l", lit! "lingo", lit! "lkb", lit! "src"], [lit! "l", lit! "lingo", lit! "lkb"], [lit! "l", lit! "lingo"], [lit! "l"], []]
  cwd := []

/-- a configuration with a Relations file, numbers and cells -/
def exConfig (rel : V) : V := .obj [(RELATIONS, rel), (START, .num 1), (CELLS, .arr [.arr [.str (lit! "i-a"), .str (lit! "x")], .arr [.str (lit! "i-b"), .str (lit! "y")]])]

/-- it is as it should be -/
example : Good (some (exConfig (.str (lit! "rel")))) 1 10 [(lit! "i-a", lit! "x"), (lit! "i-b", lit! "y")] ∧
    Relations none exDisk (some (exConfig (.str (lit! "rel")))) (lit! "rel") ∧ Good none 0 10 [(I_INPUT, DEFAULT_INPUT)] ∧
    Relations (some (lit! "/l")) exDisk none (lit! "/l/lingo/lkb/src/tsdb/skeletons/english/Relations") ∧ (∀ rel, ¬ Relations none exDisk none rel) ∧
    ∀ l rel, ¬ Relations l exDisk (some (exConfig (.str (lit! "r")))) rel := by
  refine ⟨⟨.inr (.inr ⟨_, rfl⟩), .inl rfl, .inr ⟨rfl, rfl⟩, .inl rfl, .inr ⟨_, rfl⟩⟩, .said rfl (by decide) (by decide), ⟨.inl rfl, .inr ⟨rfl, rfl⟩, .inr ⟨rfl, rfl⟩, .inr ⟨rfl, rfl⟩, .inl rfl⟩,
    .found (root := lit! "/l") rfl rfl (inside_iff.2 rfl) (by decide +kernel), ?_, ?_⟩
  · intro rel h
    cases h with
    | said h => cases h
    | found _ h => cases h
  · intro l rel h
    cases h with
    | said h1 _ h3 =>
      cases h1
      exact absurd h3 (by decide)
    | found h => cases h

/-- the program with this library; configurations are read from no file -/
def exItsdb (logon : Option Str) (v : V) (args : List Str) : Option (Ended × Option Str) :=
  (xigtF (withItsdb { exWorld with json := fun _ => .ok v } (exDelphin logon)) ([lit! "export", lit! "-fitsdb", lit! "-i", lit! "in.xml", lit! "-o", lit! "out"] ++ args) exDisk).map
    fun r => (r.1, contents r.2 (lit! "out/item"))

/-- two rows with the Relations file of the configuration or of LOGON; with another name the one of LOGON is not taken; an exception while the first row is made -/
example : exItsdb none (exConfig (.str (lit! "rel"))) [lit! "-c", lit! "rel"] = some (⟨0, []⟩, some (lit! "rr")) ∧
    exItsdb (some (lit! "/l")) .null [] = some (⟨0, []⟩, some (lit! "rr")) ∧
    exItsdb (some (lit! "/l/")) (exConfig (.str (lit! "r"))) [lit! "-c", lit! "rel"] = some (⟨0, []⟩, none) ∧
    exItsdb none (.obj [(RELATIONS, .str (lit! "rel")), (CELLS, .arr [.arr [.str (lit! "i-a"), .str (lit! "bad")]])]) [lit! "-c", lit! "rel"] = some (⟨0, []⟩, some (lit! "!")) ∧
    exItsdb none (.obj [(RELATIONS, .str (lit! "rel")), (CELLS, .arr [.str (lit! "abc")])]) [lit! "-c", lit! "rel"] = some (⟨1, []⟩, none) := by
  refine ⟨?_, ?_, ?_, ?_, ?_⟩ <;> decide +kernel

/-- C165 does not hold of the status: without a Relations file the program ends with status 0, but nothing was exported of a corpus that has two IGTs. -/
theorem C165_refuted : ∃ (w : Files.World) (d : Delphin Str) (fs : FS) (t : Str) (x : Obj), contents fs (lit! "in.xml") = some t ∧ loadsXml w.look t = .ok x ∧ x.kids.length = 2 ∧
    xigtF (withItsdb w d) [lit! "export", lit! "-fitsdb", lit! "-i", lit! "in.xml", lit! "-o", lit! "out"] fs = some (⟨0, []⟩, fs) ∧ isDir fs (lit! "out") = false ∧ isFile fs (lit! "out") = false := by
  have h1 : (match loadsXml id (lit! "<xigt-corpus><igt id=\"i1\" /><igt id=\"i2\" /></xigt-corpus>") with
    | .ok x => decide (x.kids.length = 2)
    | .error _ => false) = true := by decide +kernel
  split at h1
  · rename_i x hx
    exact ⟨exWorld, exDelphin none, exDisk, _, x, rfl, hx, of_decide_eq_true h1, by rfl, by decide +kernel, by decide +kernel⟩
  · cases h1

end
end Xigt.Tsdb
