import Verif.Tree.Model
/-
Model of the loading modes of a corpus (/repo/xigt/model.py:69-107 `XigtCorpus.__init__`, `__iter__`).

A corpus holds IGTs and, if it is not in full mode, a source of further ones: nothing, an iterator
(as from xigtxml.py:212-227) or a list (as from xigtjson.py:67-69), which every `for` loop begins anew.
Iterating yields a python generator; any number of these can be alive, advanced in any order or
abandoned.  The elements of the source are Igt objects; other members of the corpus play no role.
-/

namespace Xigt

/-- consts.py:10-12, the modes of model.py:70-107 -/
inductive Mode where
  | full | incremental | transient
  deriving DecidableEq

/-- what was given as `igts` -/
inductive SrcKind where
  | absent | once | again
  deriving DecidableEq

/-- the corpus; `pos` is how far an iterator given as source has been used -/
structure Corpus where
  mode : Mode
  held : List Obj
  kind : SrcKind
  items : List Obj
  pos : Nat

/-- a generator returned by `iter(corpus)`: not begun, in the loop over the list (line 97), in the loop
over the source (line 100; the number is the position in a source that is a list), or ended -/
inductive It where
  | fresh | list (i : Nat) | source (j : Nat) | ended
  deriving DecidableEq

/-- what a call of `next` on a generator does -/
inductive Ev where
  | yield (x : Obj)
  | stop
  | raise (e : PyErr)

/-- mixins.py:103-107, 131-137 `append`: raises if the ID is in use -/
def corpusAppend (held : List Obj) (x : Obj) : Py (List Obj) :=
  if x.data.id ≠ none ∧ x.data.id ∈ held.map (fun y => y.data.id) then .error .xigtError
  else .ok (held ++ [x])

/-- mixins.py:115-117 `extend` -/
def corpusExtend (held : List Obj) : List Obj → Py (List Obj)
  | [] => .ok held
  | x :: xs => match corpusAppend held x with
    | .error e => .error e
    | .ok held => corpusExtend held xs

/-- model.py:77-81 -/
def mkCorpus (mode : Mode) (kind : SrcKind) (items : List Obj) : Py Corpus :=
  if mode = .full then
    (corpusExtend [] (if kind = .absent then [] else items)).map fun held => ⟨mode, held, .absent, [], 0⟩
  else .ok ⟨mode, [], kind, items, 0⟩

/-- one round of the loop over the list (mixins.py: `list.__iter__`) -/
def nextList (c : Corpus) (i : Nat) : Ev × Corpus × It :=
  match c.held[i]? with
  | some x => (.yield x, c, .list (i + 1))
  | none => (.stop, c, .ended)

/-- where the loop over the source takes its next element from -/
def srcPos (c : Corpus) (j : Nat) : Nat := if c.kind = .once then c.pos else j

/-- one round of the loop over the source, model.py:100-107 -/
def nextSource (c : Corpus) (j : Nat) : Ev × Corpus × It :=
  if c.kind = .absent then (.raise .typeError, c, .ended)
  else match c.items[srcPos c j]? with
    | none => (.stop, { c with mode := .full }, .ended)
    | some x =>
      if c.mode = .incremental then
        match corpusAppend c.held x with
        | .error e => (.raise e, { c with pos := c.pos + 1 }, .ended)
        | .ok held => (.yield x, { c with pos := c.pos + 1, held := held }, .source (j + 1))
      else (.yield x, { c with pos := c.pos + 1 }, .source (j + 1))

/-- `next` on a generator, model.py:95-107 -/
def nextIt (c : Corpus) : It → Ev × Corpus × It
  | .fresh => if c.mode = .full then nextList c 0 else nextSource c 0
  | .list i => nextList c i
  | .source j => nextSource c j
  | .ended => (.stop, c, .ended)

/-- a program using the corpus: begin an iteration, or advance the k-th generator -/
inductive CorpOp where
  | iter
  | next (k : Nat)

/-- a corpus and the generators of `__iter__` (model.py:95-107) that were begun -/
structure CorpSt where
  corpus : Corpus
  its : List It

/-- a step of such a program: `iter(xc)`, or `next` on a generator (model.py:95-107) -/
def corpStep (s : CorpSt) : CorpOp → Option Ev × CorpSt
  | .iter => (none, { s with its := s.its ++ [.fresh] })
  | .next k => match s.its[k]? with
    | none => (none, s)
    | some it => (some (nextIt s.corpus it).1, ⟨(nextIt s.corpus it).2.1, s.its.set k (nextIt s.corpus it).2.2⟩)

/-- all its steps, and what the generators gave -/
def corpRun (s : CorpSt) : List CorpOp → List Ev × CorpSt
  | [] => ([], s)
  | op :: ops => ((corpStep s op).1.toList ++ (corpRun (corpStep s op).2 ops).1, (corpRun (corpStep s op).2 ops).2)

end Xigt
