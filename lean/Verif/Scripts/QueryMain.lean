import Verif.Scripts.QueryFile
/-
C126: `xigt query` from its command line to its end, /repo/xigt/scripts/xigt_query.py:53-63, 145-200.

Simplifications: of the command line the options are modelled as argparse delivers them (a description, a file
description, `--basename`, the actions in order, the files with what loading them gives); `-v` only sets the level of the
log.  Printing itself does not fail.
-/

set_option linter.unusedSectionVars false

namespace Xigt.Qry
open Fmt

/-- `os.path.basename` on POSIX: what follows the last slash -/
def basename (s : Str) : Str := (s.reverse.takeWhile fun c => decide (c ≠ '/')).reverse

/-- what argparse delivers (xigt_query.py:154-194); a file is its name and the outcome of loading it -/
structure QArgs where
  opts : List Opt
  fileDescription : Option Str
  base : Bool
  files : List (Str × Py XP.PV)

/-- how the program ends -/
inductive Ending where
  | done
  /-- `parser.error`: exit status 2 -/
  | usage
  | raised (e : PyErr)
  deriving DecidableEq

/-- xigt_query.py:67-70: an empty description counts as none -/
def headingFormat (d : Option Str) : Str :=
  match d with
  | some (c :: cs) => c :: cs
  | _ => lit! "{filename}:"

section
variable [Uni]

/-- xigt_query.py:58-63: one file; the heading is formatted before the file is loaded -/
def oneFile (env : QEnv) (c : XP.PCfg) (a : QArgs) (agenda : List Agendum) (f : Str × Py XP.PV) : Py (List Str) :=
  let fn := if a.base then basename f.1 else f.1
  match f.2 with
  | .ok xc => fileLines env c (headingFormat a.fileDescription) fn xc agenda
  | .error e => do
    let _ ← strFormat env.toEnv [(lit! "filename", env.str fn)] (headingFormat a.fileDescription)
    .error e

/-- xigt_query.py:114-115: a line for each match, up to one whose description cannot be filled in -/
def printMatches (env : QEnv) (d : Str) : List XP.PV → List Str × Option PyErr
  | [] => ([], none)
  | m :: ms =>
    match fillMatch env (env.val m) d with
    | .error e => ([], some e)
    | .ok t =>
      let r := printMatches env d ms
      ((lit! "  " ++ t) :: r.1, r.2)

/-- xigt_query.py:97-110: what the agenda prints, and its results or the exception it ends with.  Only `find` prints; `findall` gives a
list, so nothing is printed of a path that fails -/
def printAgenda (env : QEnv) (c : XP.PCfg) (xc : XP.PV) : List Agendum → List Str × Py (List (Nat × Str))
  | [] => ([], .ok [])
  | ⟨.find q, d⟩ :: as =>
    match XP.findall c xc q with
    | .error e => ([], .error e)
    | .ok ms =>
      match printMatches env d ms with
      | (ls, some e) => (ls, .error e)
      | (ls, none) =>
        let r := printAgenda env c xc as
        (ls ++ r.1, r.2)
  | a :: as =>
    match processOne env c xc a with
    | .error e => ([], .error e)
    | .ok p =>
      let r := printAgenda env c xc as
      (r.1, r.2.map fun rs => p.2 ++ rs)

/-- xigt_query.py:58-63: what is printed for a file, and the exception it ends with -/
def printFile (env : QEnv) (c : XP.PCfg) (a : QArgs) (agenda : List Agendum) (f : Str × Py XP.PV) : List Str × Option PyErr :=
  match strFormat env.toEnv [(lit! "filename", env.str (if a.base then basename f.1 else f.1))] (headingFormat a.fileDescription) with
  | .error e => ([], some e)
  | .ok h =>
    match f.2 with
    | .error e => ([h], some e)
    | .ok xc =>
      match printAgenda env c xc agenda with
      | (ls, .error e) => (h :: ls, some e)
      | (ls, .ok rs) => (h :: ls ++ resultLines rs ++ [[]], none)

/-- xigt_query.py:57-63: the loop -/
def allFiles (env : QEnv) (c : XP.PCfg) (a : QArgs) (agenda : List Agendum) : List (Str × Py XP.PV) → List Str × Ending
  | [] => ([], .done)
  | f :: fs =>
    match printFile env c a agenda f with
    | (ls, some e) => (ls, .raised e)
    | (ls, none) =>
      let r := allFiles env c a agenda fs
      (ls ++ r.1, r.2)

/-- xigt_query.py:195-200 `main` after the options are parsed, with 53-55: without an action there is no `args.agenda` (a list is made
by `AgendaAction`, 145-149), which `make_job` asks for (73) -/
def queryMain (env : QEnv) (c : XP.PCfg) (a : QArgs) : List Str × Ending :=
  if a.files.isEmpty then ([], .usage)
  else match a.opts with
    | [] => ([], .raised .attributeError)
    | .description _ :: _ => ([], .usage)
    | .act x :: os =>
      match makeJob env [] (.act x :: os) with
      | .error e => ([], .raised e)
      | .ok agenda => allFiles env c a agenda a.files

omit [Uni] in
/-- what `basename` gives: no slash, and before it nothing or what ends with a slash -/
theorem basename_spec (s : Str) : '/' ∉ basename s ∧ ∃ d, s = d ++ basename s ∧ (d = [] ∨ d.getLast? = some '/') := by
  constructor
  · intro h
    have key : ∀ l : Str, '/' ∉ l.takeWhile fun c => decide (c ≠ '/') := by
      intro l
      induction l with
      | nil => simp
      | cons c l ih =>
        rw [List.takeWhile_cons]
        by_cases hc : c = '/'
        · simp [hc]
        · rw [if_pos (by simpa using hc)]
          simp only [List.mem_cons, not_or]
          exact ⟨Ne.symm hc, ih⟩
    exact key _ (List.mem_reverse.1 h)
  · refine ⟨(s.reverse.dropWhile fun c => decide (c ≠ '/')).reverse, ?_, ?_⟩
    · rw [basename, ← List.reverse_append, List.takeWhile_append_dropWhile, List.reverse_reverse]
    · have h := List.head?_dropWhile_not (fun c => decide (c ≠ '/')) s.reverse
      cases hd : s.reverse.dropWhile fun c => decide (c ≠ '/') with
      | nil => exact .inl rfl
      | cons c t =>
        right
        rw [hd] at h
        simp at h
        simp [h]

omit [Uni] in
theorem bindOk {α β : Type} {r : Py α} {f : α → Py β} {y : β} (h : (r >>= f) = .ok y) : ∃ x, r = .ok x ∧ f x = .ok y := by
  cases r with
  | error e => cases h
  | ok x => exact ⟨x, rfl, h⟩

theorem printMatches_ok (env : QEnv) (d : Str) : ∀ (ms : List XP.PV) (ts : List Str), fillAll env d (ms.map env.val) = .ok ts →
    printMatches env d ms = (ts.map fun t => lit! "  " ++ t, none) := by
  intro ms
  induction ms with
  | nil => intro ts h; cases h; rfl
  | cons m ms ih =>
    intro ts h
    rw [List.map_cons, fillAll] at h
    obtain ⟨t, h1, h⟩ := bindOk h
    obtain ⟨ts', h2, h⟩ := bindOk h
    cases h
    simp only [printMatches, h1, ih _ h2, List.map_cons]

theorem printMatches_error (env : QEnv) (d : Str) : ∀ (ms : List XP.PV) (e : PyErr), fillAll env d (ms.map env.val) = .error e →
    (printMatches env d ms).2 = some e := by
  intro ms
  induction ms with
  | nil => intro e h; cases h
  | cons m ms ih =>
    intro e h
    rw [List.map_cons, fillAll] at h
    simp only [bind, Except.bind] at h
    cases h1 : fillMatch env (env.val m) d with
    | error e' => rw [h1] at h; cases h; simp only [printMatches, h1]
    | ok t =>
      rw [h1] at h
      simp only at h
      cases h2 : fillAll env d (ms.map env.val) with
      | error e' => rw [h2] at h; cases h; simp only [printMatches, h1]; exact ih e h2
      | ok ts => rw [h2] at h; cases h

theorem printAgenda_ok (env : QEnv) (c : XP.PCfg) (xc : XP.PV) : ∀ (as : List Agendum) (p : List Str × List (Nat × Str)),
    processAgenda env c xc as = .ok p → printAgenda env c xc as = (p.1, .ok p.2) := by
  intro as
  induction as with
  | nil => intro p h; cases h; rfl
  | cons a as ih =>
    intro p h
    rw [processAgenda] at h
    obtain ⟨x, h1, h⟩ := bindOk h
    obtain ⟨y, h2, h⟩ := bindOk h
    cases h
    obtain ⟨act, d⟩ := a
    cases act with
    | find q =>
      simp only [processOne, findLines] at h1
      obtain ⟨ls, h3, h1⟩ := bindOk h1
      obtain ⟨ms, h4, h3⟩ := bindOk h3
      obtain ⟨ts, h5, h3⟩ := bindOk h3
      cases h3
      cases h1
      simp only [printAgenda, h4, printMatches_ok env d ms ts h5, ih _ h2, List.nil_append]
    | tally q sub =>
      have hp : x.1 = [] := by
        simp only [processOne] at h1
        obtain ⟨_, _, h1⟩ := bindOk h1
        obtain ⟨_, _, h1⟩ := bindOk h1
        cases h1; rfl
      simp only [printAgenda, h1, ih _ h2, hp, List.nil_append]; rfl
    | unique q =>
      have hp : x.1 = [] := by
        simp only [processOne] at h1
        obtain ⟨_, _, h1⟩ := bindOk h1
        obtain ⟨_, _, h1⟩ := bindOk h1
        cases h1; rfl
      simp only [printAgenda, h1, ih _ h2, hp, List.nil_append]; rfl
    | count q =>
      have hp : x.1 = [] := by
        simp only [processOne] at h1
        obtain ⟨_, _, h1⟩ := bindOk h1
        obtain ⟨_, _, h1⟩ := bindOk h1
        cases h1; rfl
      simp only [printAgenda, h1, ih _ h2, hp, List.nil_append]; rfl

theorem printAgenda_error (env : QEnv) (c : XP.PCfg) (xc : XP.PV) : ∀ (as : List Agendum) (e : PyErr),
    processAgenda env c xc as = .error e → (printAgenda env c xc as).2 = .error e := by
  intro as
  induction as with
  | nil => intro e h; cases h
  | cons a as ih =>
    intro e h
    simp only [processAgenda, bind, Except.bind] at h
    obtain ⟨act, d⟩ := a
    cases h1 : processOne env c xc ⟨act, d⟩ with
    | error e' =>
      rw [h1] at h
      cases h
      cases act with
      | find q =>
        simp only [processOne, findLines, bind, Except.bind] at h1
        cases h4 : XP.findall c xc q with
        | error e' => rw [h4] at h1; cases h1; simp only [printAgenda, h4]
        | ok ms =>
          rw [h4] at h1
          simp only at h1
          cases h5 : fillAll env d (ms.map env.val) with
          | error e' =>
            rw [h5] at h1
            cases h1
            have := printMatches_error env d ms _ h5
            simp only [printAgenda, h4]
            cases hp : printMatches env d ms with
            | mk ls o => rw [hp] at this; simp only at this; subst this; rfl
          | ok ts => rw [h5] at h1; cases h1
      | tally q sub => simp only [printAgenda, h1]
      | unique q => simp only [printAgenda, h1]
      | count q => simp only [printAgenda, h1]
    | ok p =>
      rw [h1] at h
      simp only at h
      cases h2 : processAgenda env c xc as with
      | ok q => rw [h2] at h; cases h
      | error e' =>
        rw [h2] at h
        cases h
        have hr := ih _ h2
        cases act with
        | find q =>
          simp only [processOne, findLines, bind, Except.bind] at h1
          cases h4 : XP.findall c xc q with
          | error e' => rw [h4] at h1; cases h1
          | ok ms =>
            rw [h4] at h1
            simp only at h1
            cases h5 : fillAll env d (ms.map env.val) with
            | error e' => rw [h5] at h1; cases h1
            | ok ts => simp only [printAgenda, h4, printMatches_ok env d ms ts h5, hr]
        | tally q sub => simp only [printAgenda, h1, hr]; rfl
        | unique q => simp only [printAgenda, h1, hr]; rfl
        | count q => simp only [printAgenda, h1, hr]; rfl

/-- a file is printed to its end exactly if `oneFile` gives its lines, and otherwise ends with the same exception -/
theorem printFile_iff (env : QEnv) (c : XP.PCfg) (a : QArgs) (agenda : List Agendum) (f : Str × Py XP.PV) :
    match oneFile env c a agenda f with
    | .ok ls => printFile env c a agenda f = (ls, none)
    | .error e => (printFile env c a agenda f).2 = some e := by
  obtain ⟨fn, r⟩ := f
  simp only [oneFile, printFile]
  cases hh : strFormat env.toEnv [(lit! "filename", env.str (if a.base then basename fn else fn))] (headingFormat a.fileDescription) with
  | error e => cases r <;> simp [fileLines, hh, bind, Except.bind]
  | ok h =>
    cases r with
    | error e => simp [bind, Except.bind]
    | ok xc =>
      simp only [fileLines, hh, bind, Except.bind]
      cases hp : processAgenda env c xc agenda with
      | ok p => simp only [printAgenda_ok env c xc agenda p hp]
      | error e =>
        have := printAgenda_error env c xc agenda e hp
        simp only
        cases hq : printAgenda env c xc agenda with
        | mk ls o => rw [hq] at this; simp only at this; subst this; rfl

theorem allFiles_spec (env : QEnv) (c : XP.PCfg) (a : QArgs) (agenda : List Agendum) : ∀ (fs : List (Str × Py XP.PV)),
    ∃ good bad ls, fs = good ++ bad ∧ All2 (fun f l => printFile env c a agenda f = (l, none)) good ls ∧
      (bad = [] ∧ allFiles env c a agenda fs = (ls.flatten, .done) ∨
        ∃ f rest e begun, bad = f :: rest ∧ printFile env c a agenda f = (begun, some e) ∧ allFiles env c a agenda fs = (ls.flatten ++ begun, .raised e)) := by
  intro fs
  induction fs with
  | nil => exact ⟨[], [], [], rfl, .nil, .inl ⟨rfl, rfl⟩⟩
  | cons f fs ih =>
    cases h : printFile env c a agenda f with
    | mk l o => cases o with
      | some e => exact ⟨[], f :: fs, [], rfl, .nil, .inr ⟨f, fs, e, l, rfl, h, by simp [allFiles, h]⟩⟩
      | none =>
        obtain ⟨good, bad, ls, h1, h2, h4⟩ := ih
        refine ⟨f :: good, bad, l :: ls, by rw [h1]; rfl, .cons h h2, ?_⟩
        rcases h4 with ⟨h4, h5⟩ | ⟨g, rest, e, begun, h4, h5, h6⟩
        · exact .inl ⟨h4, by simp [allFiles, h, h5]⟩
        · exact .inr ⟨g, rest, e, begun, h4, h5, by simp [allFiles, h, h6]⟩

/-- **C126** (with an action first): the output is that of the files one after the other, each as if it were alone, up to and with the first that
fails; the program ends with the exception of that one, or regularly if there is none. -/
theorem C126_partial (env : QEnv) (c : XP.PCfg) (a : QArgs) (x : Action) (os : List Opt) (agenda : List Agendum) (ho : a.opts = .act x :: os)
    (hj : makeJob env [] a.opts = .ok agenda) (hf : a.files ≠ []) :
    ∃ good bad ls, a.files = good ++ bad ∧
      All2 (fun f l => queryMain env c { a with files := [f] } = (l, .done)) good ls ∧
      (bad = [] ∧ queryMain env c a = (ls.flatten, .done) ∨
        ∃ f rest e begun, bad = f :: rest ∧ queryMain env c { a with files := [f] } = (begun, .raised e) ∧
          queryMain env c a = (ls.flatten ++ begun, .raised e)) := by
  have hall : queryMain env c a = allFiles env c a agenda a.files := by
    unfold queryMain
    rw [if_neg (by cases h : a.files <;> simp_all)]
    rw [ho] at hj ⊢
    simp only [hj]
  have hone : ∀ f, queryMain env c { a with files := [f] } = allFiles env c a agenda [f] := by
    intro f
    unfold queryMain
    rw [ho] at hj
    simp only [List.isEmpty_cons, Bool.false_eq_true, if_false, ho, hj, allFiles]
    rfl
  have all2_imp : ∀ {good : List (Str × Py XP.PV)} {ls : List (List Str)}, All2 (fun f l => printFile env c a agenda f = (l, none)) good ls →
      All2 (fun f l => queryMain env c { a with files := [f] } = (l, .done)) good ls := by
    intro good ls h
    induction h with
    | nil => exact .nil
    | cons h _ ih => exact .cons (by rw [hone]; simp [allFiles, h]) ih
  obtain ⟨good, bad, ls, h1, h2, h4⟩ := allFiles_spec env c a agenda a.files
  refine ⟨good, bad, ls, h1, all2_imp h2, ?_⟩
  rw [hall]
  rcases h4 with h4 | ⟨f, rest, e, begun, h4, h5, h6⟩
  · exact .inl h4
  · exact .inr ⟨f, rest, e, begun, h4, by rw [hone]; simp [allFiles, h5], h6⟩

/-- **C126**, one file: it is printed to its end exactly if it can be loaded and all there is to print can be formed, and then that is printed (C96). -/
theorem C126_file (env : QEnv) (c : XP.PCfg) (a : QArgs) (x : Action) (os : List Opt) (agenda : List Agendum) (ho : a.opts = .act x :: os)
    (hj : makeJob env [] a.opts = .ok agenda) (f : Str × Py XP.PV) (ls : List Str) :
    queryMain env c { a with files := [f] } = (ls, .done) ↔
      ∃ xc, f.2 = .ok xc ∧ fileLines env c (headingFormat a.fileDescription) (if a.base then basename f.1 else f.1) xc agenda = .ok ls := by
  have hone : queryMain env c { a with files := [f] } = allFiles env c a agenda [f] := by
    unfold queryMain
    rw [ho] at hj
    simp only [List.isEmpty_cons, Bool.false_eq_true, if_false, ho, hj, allFiles]
    rfl
  rw [hone]
  have hi := printFile_iff env c a agenda f
  cases h1 : oneFile env c a agenda f with
  | ok l =>
    rw [h1] at hi
    simp only at hi
    simp only [allFiles, hi, List.append_nil, Prod.mk.injEq, and_true]
    unfold oneFile at h1
    cases hf : f.2 with
    | error e => rw [hf] at h1; obtain ⟨_, _, h1⟩ := bindOk h1; cases h1
    | ok xc =>
      rw [hf] at h1
      simp only at h1
      simp [h1]
  | error e =>
    rw [h1] at hi
    simp only at hi
    cases hp : printFile env c a agenda f with
    | mk l o =>
      rw [hp] at hi
      simp only at hi
      subst hi
      simp only [allFiles, hp, Prod.mk.injEq, reduceCtorEq, and_false, false_iff]
      rintro ⟨xc, h2, h3⟩
      unfold oneFile at h1
      rw [h2] at h1
      simp only [h3] at h1
      cases h1

theorem printMatches_begun {env : QEnv} {d : Str} {e : PyErr} : ∀ {ms : List XP.PV} {ls : List Str}, printMatches env d ms = (ls, some e) →
    ∃ good m rest ts, ms = good ++ m :: rest ∧ fillAll env d (good.map env.val) = .ok ts ∧ fillMatch env (env.val m) d = .error e ∧
      ls = ts.map fun t => lit! "  " ++ t := by
  intro ms
  induction ms with
  | nil => intro ls h; cases h
  | cons m ms ih =>
    intro ls h
    rw [printMatches] at h
    cases h1 : fillMatch env (env.val m) d with
    | error e' => rw [h1] at h; cases h; exact ⟨[], m, ms, [], rfl, rfl, h1, rfl⟩
    | ok t =>
      rw [h1] at h
      cases h2 : printMatches env d ms with
      | mk l o =>
        rw [h2] at h
        cases h
        obtain ⟨good, m', rest, ts, h3, h4, h5, h6⟩ := ih h2
        refine ⟨m :: good, m', rest, t :: ts, by rw [h3]; rfl, ?_, h5, by rw [h6]; rfl⟩
        rw [List.map_cons, fillAll, h1]
        simp [bind, Except.bind, h4]

/-- what a failing action has printed (spec): the lines of the matches of `find` before the first that cannot be described -/
def Began (env : QEnv) (c : XP.PCfg) (xc : XP.PV) (a : Agendum) (e : PyErr) (ls : List Str) : Prop :=
  ls = [] ∧ (∀ q ms, a.action = .find q → XP.findall c xc q ≠ .ok ms) ∨
  ∃ q good m rest ts, a.action = .find q ∧ XP.findall c xc q = .ok (good ++ m :: rest) ∧ fillAll env a.description (good.map env.val) = .ok ts ∧
    fillMatch env (env.val m) a.description = .error e ∧ ls = ts.map fun t => lit! "  " ++ t

theorem printAgenda_begun {env : QEnv} {c : XP.PCfg} {xc : XP.PV} {e : PyErr} : ∀ {as : List Agendum} {ls : List Str},
    printAgenda env c xc as = (ls, .error e) → ∃ pre x post p begun, as = pre ++ x :: post ∧ processAgenda env c xc pre = .ok p ∧
      processOne env c xc x = .error e ∧ ls = p.1 ++ begun ∧ Began env c xc x e begun := by
  intro as
  induction as with
  | nil => intro ls h; cases h
  | cons a as ih =>
    intro ls h
    have step : ∀ {x l}, processOne env c xc a = .ok x → printAgenda env c xc as = (l, .error e) → ls = x.1 ++ l →
        ∃ pre x post p begun, a :: as = pre ++ x :: post ∧ processAgenda env c xc pre = .ok p ∧
          processOne env c xc x = .error e ∧ ls = p.1 ++ begun ∧ Began env c xc x e begun := by
      intro x l h1 h2 h3
      obtain ⟨pre, y, post, p, begun, i1, i2, i3, i4, i5⟩ := ih h2
      refine ⟨a :: pre, y, post, (x.1 ++ p.1, x.2 ++ p.2), begun, by rw [i1]; rfl, ?_, i3, by rw [h3, i4, List.append_assoc], i5⟩
      simp [processAgenda, bind, Except.bind, h1, i2]
    obtain ⟨act, d⟩ := a
    have other : (∀ q, act ≠ .find q) → (∀ x, processOne env c xc ⟨act, d⟩ = .ok x → x.1 = []) →
        (printAgenda env c xc (⟨act, d⟩ :: as) = match processOne env c xc ⟨act, d⟩ with
          | .error e => ([], .error e)
          | .ok p => ((printAgenda env c xc as).1, (printAgenda env c xc as).2.map fun rs => p.2 ++ rs)) →
        ∃ pre x post p begun, ⟨act, d⟩ :: as = pre ++ x :: post ∧ processAgenda env c xc pre = .ok p ∧
          processOne env c xc x = .error e ∧ ls = p.1 ++ begun ∧ Began env c xc x e begun := by
      intro hn hp he
      rw [he] at h
      cases h1 : processOne env c xc ⟨act, d⟩ with
      | error e' => rw [h1] at h; cases h; exact ⟨[], _, as, ([], []), [], rfl, rfl, h1, rfl, .inl ⟨rfl, fun q _ hq => absurd hq (hn q)⟩⟩
      | ok x =>
        rw [h1] at h
        cases h2 : printAgenda env c xc as with
        | mk l o =>
          rw [h2] at h
          cases o with
          | ok rs => cases h
          | error e' => cases h; exact step h1 h2 (by rw [hp x h1]; rfl)
    cases act with
    | find q =>
      rw [printAgenda] at h
      cases h1 : XP.findall c xc q with
      | error e' =>
        rw [h1] at h
        cases h
        refine ⟨[], ⟨.find q, d⟩, as, ([], []), [], rfl, rfl, by simp [processOne, findLines, bind, Except.bind, h1], rfl, .inl ⟨rfl, ?_⟩⟩
        intro q' ms hq hm
        cases hq
        rw [h1] at hm
        cases hm
      | ok ms =>
        rw [h1] at h
        simp only at h
        cases h2 : printMatches env d ms with
        | mk l o =>
          rw [h2] at h
          have hf : ∀ {e'}, fillAll env d (ms.map env.val) = .error e' → processOne env c xc ⟨.find q, d⟩ = .error e' := by
            intro e' hh
            simp [processOne, findLines, bind, Except.bind, h1, hh]
          cases o with
          | some e' =>
            cases h
            obtain ⟨good, m, rest, ts, i1, i2, i3, i4⟩ := printMatches_begun h2
            have hp : processOne env c xc ⟨.find q, d⟩ = .error e := by
              cases hh : fillAll env d (ms.map env.val) with
              | error e' =>
                have := printMatches_error env d ms e' hh
                rw [h2] at this
                cases this
                exact hf hh
              | ok ts' =>
                have := printMatches_ok env d ms ts' hh
                rw [h2] at this
                cases this
            exact ⟨[], ⟨.find q, d⟩, as, ([], []), ls, rfl, rfl, hp, rfl, .inr ⟨q, good, m, rest, ts, rfl, by rw [h1, i1], i2, i3, i4⟩⟩
          | none =>
            cases h3 : printAgenda env c xc as with
            | mk l' o =>
              rw [h3] at h
              cases h
              refine step (x := (l, [])) ?_ h3 rfl
              cases hh : fillAll env d (ms.map env.val) with
              | error e' =>
                have := printMatches_error env d ms e' hh
                rw [h2] at this
                cases this
              | ok ts =>
                have := printMatches_ok env d ms ts hh
                rw [h2] at this
                cases this
                simp [processOne, findLines, bind, Except.bind, h1, hh]
    | tally q sub =>
      refine other (by simp) ?_ rfl
      intro x hx
      simp only [processOne] at hx
      obtain ⟨_, _, hx⟩ := bindOk hx
      obtain ⟨_, _, hx⟩ := bindOk hx
      cases hx; rfl
    | unique q =>
      refine other (by simp) ?_ rfl
      intro x hx
      simp only [processOne] at hx
      obtain ⟨_, _, hx⟩ := bindOk hx
      obtain ⟨_, _, hx⟩ := bindOk hx
      cases hx; rfl
    | count q =>
      refine other (by simp) ?_ rfl
      intro x hx
      simp only [processOne] at hx
      obtain ⟨_, _, hx⟩ := bindOk hx
      obtain ⟨_, _, hx⟩ := bindOk hx
      cases hx; rfl

/-- **C126**, a file that fails: nothing is printed if there is no heading, and only the heading if the file cannot be loaded; otherwise the heading, all
lines of the actions before the one that fails, and of that one the lines of the matches that can be described before one that cannot.  No results
are printed. -/
theorem C126_begun (env : QEnv) (c : XP.PCfg) (a : QArgs) (agenda : List Agendum) (f : Str × Py XP.PV) (ls : List Str) (e : PyErr)
    (h : printFile env c a agenda f = (ls, some e)) :
    ls = [] ∨ ∃ hd, strFormat env.toEnv [(lit! "filename", env.str (if a.base then basename f.1 else f.1))] (headingFormat a.fileDescription) = .ok hd ∧
      (f.2 = .error e ∧ ls = [hd] ∨ ∃ xc pre x post p begun, f.2 = .ok xc ∧ agenda = pre ++ x :: post ∧ processAgenda env c xc pre = .ok p ∧
        processOne env c xc x = .error e ∧ ls = hd :: p.1 ++ begun ∧ Began env c xc x e begun) := by
  unfold printFile at h
  cases hh : strFormat env.toEnv [(lit! "filename", env.str (if a.base then basename f.1 else f.1))] (headingFormat a.fileDescription) with
  | error e' => rw [hh] at h; cases h; exact .inl rfl
  | ok hd =>
    rw [hh] at h
    refine .inr ⟨hd, rfl, ?_⟩
    cases hf : f.2 with
    | error e' => rw [hf] at h; cases h; exact .inl ⟨rfl, rfl⟩
    | ok xc =>
      rw [hf] at h
      simp only at h
      cases hp : printAgenda env c xc agenda with
      | mk l o =>
        rw [hp] at h
        cases o with
        | ok rs => cases h
        | error e' =>
          cases h
          obtain ⟨pre, x, post, p, begun, h1, h2, h3, h4, h5⟩ := printAgenda_begun hp
          exact .inr ⟨xc, pre, x, post, p, begun, rfl, h1, h2, h3, by rw [h4]; rfl, h5⟩

/-- **C126**: without files, or with a description before any action, it ends with a message about its usage and prints nothing. -/
theorem C126_usage (env : QEnv) (c : XP.PCfg) (a : QArgs) :
    (queryMain env c a).2 = .usage ↔ a.files = [] ∨ ∃ d os, a.opts = .description d :: os := by
  have hall : ∀ agenda fs, (allFiles env c a agenda fs).2 ≠ .usage := by
    intro agenda fs h
    obtain ⟨good, bad, ls, h1, h2, h4⟩ := allFiles_spec env c a agenda fs
    rcases h4 with ⟨_, h4⟩ | ⟨f, rest, e, begun, _, _, h4⟩ <;> rw [h4] at h <;> cases h
  unfold queryMain
  cases hf : a.files with
  | nil => simp
  | cons f fs =>
    simp only [List.isEmpty_cons, Bool.false_eq_true, if_false]
    cases ho : a.opts with
    | nil => simp
    | cons o os =>
      cases o with
      | description d => simp
      | act x =>
        simp only
        cases hj : makeJob env [] (.act x :: os) with
        | error e => simp
        | ok agenda =>
          simp only
          constructor
          · intro h; exact absurd h (hall _ _)
          · rintro (h | ⟨d, os', h⟩) <;> cases h

omit [Uni] in
/-- with an action first, no description is without an action: what fails is filling in a description -/
theorem C126_described (env : QEnv) (x : Action) (os : List Opt) (e : PyErr) (h : makeJob env [] (.act x :: os) = .error e) :
    ∃ (a : Action) (d : Str), describe env a d = .error e := by
  suffices H : ∀ (os : List Opt) (ag : List Agendum), ag ≠ [] → makeJob env ag os = .error e → ∃ (a : Action) (d : Str), describe env a d = .error e by
    simp only [makeJob, addOpt, bind, Except.bind] at h
    cases hd : describe env x x.default with
    | error e' => rw [hd] at h; cases h; exact ⟨x, _, hd⟩
    | ok t => rw [hd] at h; exact H os _ (by simp) h
  intro os
  induction os with
  | nil => intro ag _ h; cases h
  | cons o os ih =>
    intro ag hne h
    simp only [makeJob, bind, Except.bind] at h
    cases o with
    | act y =>
      simp only [addOpt, bind, Except.bind] at h
      cases hd : describe env y y.default with
      | error e' => rw [hd] at h; cases h; exact ⟨y, _, hd⟩
      | ok t => rw [hd] at h; exact ih _ (by simp) h
    | description d =>
      simp only [addOpt] at h
      cases hg : ag.getLast? with
      | none => exact absurd (List.getLast?_eq_none_iff.1 hg) hne
      | some y =>
        simp only [hg, bind, Except.bind] at h
        cases hd : describe env y.action d with
        | error e' => rw [hd] at h; cases h; exact ⟨_, _, hd⟩
        | ok t => rw [hd] at h; exact ih _ (by simp) h

/-- C126 is false without actions: instead of a message about the usage there is an AttributeError, whatever the files. -/
theorem C126_refuted (env : QEnv) (c : XP.PCfg) (a : QArgs) (ho : a.opts = []) (hf : a.files ≠ []) :
    queryMain env c a = ([], .raised .attributeError) := by
  unfold queryMain
  rw [if_neg (by cases h : a.files <;> simp_all), ho]

end

section
attribute [local instance] asciiUni

/-- the hypotheses of C126_partial are met: the second file cannot be loaded -/
example : queryMain exQ exCfg ⟨[.act (.count (lit! "igt")), .description (lit! "all {match}")], none, true,
    [(lit! "d/a.xml", .ok (.node exCorpus [])), (lit! "b.xml", .error .parseError), (lit! "c.xml", .ok (.node exCorpus []))]⟩ =
    ([lit! "a.xml:", lit! " 4\tall ", [], lit! "b.xml:"], .raised .parseError) := by decide +kernel

/-- an action that fails: what the one before it prints is there, the results of the third are not -/
example : queryMain exQ exCfg ⟨[.act (.find (lit! "igt")), .act (.find (lit! "igt")), .description (lit! "{x}"), .act (.count (lit! "igt"))], none, true,
    [(lit! "d/a.xml", .ok (.node exCorpus []))]⟩ =
    (lit! "a.xml:" :: List.replicate 4 (lit! "  igt\t<object>"), .raised .keyError) := by decide +kernel

end
end Xigt.Qry
