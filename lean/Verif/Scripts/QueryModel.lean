import Verif.Path.Model
import Verif.Container.Model
/-
Model of /repo/xigt/scripts/xigt_query.py: the numbers and the matches reported.

Simplification: a tally gives the group itself instead of its description; the texts built from
descriptions are modelled in Scripts/QueryPrint.lean.  Objects (and lists) have no hash, because their classes define `__eq__`
only (mixins.py:39, model.py:88, 144, 278, 346, metadata.py:105, 149, 189).
-/

namespace Xigt.Qry

/-- what has a hash: strings and None (here `none`) -/
abbrev HKey := Option Str

/-- `hash(v)` fails for objects and lists -/
def hashKey : XP.PV → Py HKey
  | .str s => .ok (some s)
  | .none => .ok none
  | .node _ _ => .error .typeError
  | .list _ => .error .typeError

/-- the hash of a tuple needs those of its elements -/
def hashTuple : List XP.PV → Py (List HKey)
  | [] => .ok []
  | v :: vs => do
    let k ← hashKey v
    let ks ← hashTuple vs
    .ok (k :: ks)

/-- `counts[k] += 1` of a `Counter` -/
def bump {κ : Type} [DecidableEq κ] (d : Dict κ Nat) (k : κ) : Dict κ Nat :=
  Dict.set d k ((Dict.get? d k).getD 0 + 1)

/-- `Counter.most_common()`: by descending count, otherwise in the order of insertion -/
def mostCommon {κ : Type} (d : Dict κ Nat) : List (κ × Nat) :=
  sortBy (fun a b => decide (b.2 ≤ a.2)) d

section
variable [Uni]

/-- xigt_query.py:120-122 -/
def tallyLoop (c : XP.PCfg) (sub : Str) : List XP.PV → Dict (List HKey) Nat → Py (Dict (List HKey) Nat)
  | [], d => .ok d
  | m :: ms, d => do
    let g ← XP.findall c m sub
    let k ← hashTuple g
    tallyLoop c sub ms (bump d k)

/-- xigt_query.py:118-126 `tally_pattern` -/
def tally (c : XP.PCfg) (xc : XP.PV) (query sub : Str) : Py (List (List HKey × Nat)) := do
  let ms ← XP.findall c xc query
  let d ← tallyLoop c sub ms []
  .ok (mostCommon d)

/-- `Counter(l)` -/
def counter : List XP.PV → Dict HKey Nat → Py (Dict HKey Nat)
  | [], d => .ok d
  | m :: ms, d => do
    let k ← hashKey m
    counter ms (bump d k)

/-- xigt_query.py:129-131 `unique_pattern` -/
def unique (c : XP.PCfg) (xc : XP.PV) (query : Str) : Py Nat := do
  let ms ← XP.findall c xc query
  let d ← counter ms []
  .ok d.length

/-- xigt_query.py:134-136 `count_pattern` -/
def count (c : XP.PCfg) (xc : XP.PV) (query : Str) : Py Nat := do
  let ms ← XP.findall c xc query
  .ok ms.length

/-- xigt_query.py:80-93: the actions of an agenda -/
inductive Action where
  | find (q : Str)
  | tally (q sub : Str)
  | unique (q : Str)
  | count (q : Str)

end
end Xigt.Qry
