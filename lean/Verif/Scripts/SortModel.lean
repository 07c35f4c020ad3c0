import Verif.Path.Model
import Verif.Igt.SortModel
/-
Model of /repo/xigt/scripts/xigt_sort.py.

`list.sort` computes all keys first, while the list itself appears empty (CPython), and is stable.
Which keys it compares is not specified; here it is insertion, so an exception in a comparison ends the
sort if the comparison takes place.

Simplifications: no limit on the length of numerals (Python 3.11 and later do not convert strings of
more than 4300 digits); reading and printing the corpus are not modelled (see C40).
-/

namespace Xigt.Srt
section
variable [Uni]

/-- `r'(\d+)'` (xigt_sort.py:44) -/
def numRe : Re := .grp 1 (.plus (.cls Uni.isDigit))

/-- `re.split` with one group: the text between the matches, and the group for every match -/
def reSplit (r : Re) (s : Str) : List Str :=
  (r.scan s).1.flatMap (fun m => [m.1, m.2.2.group 1]) ++ [(r.scan s).2]

/-- elements of sort keys -/
inductive KPart where
  | int (n : Int)
  | str (s : Str)
  deriving DecidableEq

/-- xigt_sort.py:37-41 `safe_int` -/
def safeInt (s : Str) : KPart :=
  match pyInt s with
  | .ok n => .int n
  | .error _ => .str s

/-- xigt_sort.py:43-44: the elements for a key string -/
def parts (s : Str) : List KPart := (reSplit numRe s).map safeInt

/-- xigt_sort.py:44 `xp.find(x, sk) or ''` as an argument of `re.split`; empty containers are false -/
def keyStr (c : XP.PCfg) (v : XP.PV) (sk : Str) : Py Str := do
  match ← XP.find c v sk with
  | .none => .ok []
  | .str s => .ok s
  | .node x _ => if x.cls ≠ .item ∧ x.kids = [] then .ok [] else .error .typeError
  | .list xs => if xs = [] then .ok [] else .error .typeError

/-- xigt_sort.py:42-45: the key of an object -/
def sortKey (c : XP.PCfg) (v : XP.PV) : List Str → Py (List KPart)
  | [] => .ok []
  | sk :: sks => do
    let s ← keyStr c v sk
    let r ← sortKey c v sks
    .ok (parts s ++ r)

end

/-- `a < b` of elements that differ -/
def partLt : KPart → KPart → Py Bool
  | .int a, .int b => .ok (decide (a < b))
  | .str a, .str b => .ok (decide (a < b))
  | _, _ => .error .typeError

/-- `a < b` of lists -/
def keyLt : List KPart → List KPart → Py Bool
  | [], [] => .ok false
  | [], _ :: _ => .ok true
  | _ :: _, [] => .ok false
  | x :: xs, y :: ys => if x = y then keyLt xs ys else partLt x y

/-- insertion before the first element that is not less -/
def insertPy {α : Type} (lt : α → α → Py Bool) (x : α) : List α → Py (List α)
  | [] => .ok [x]
  | y :: ys => do
    if ← lt y x then
      let r ← insertPy lt x ys
      .ok (y :: r)
    else .ok (x :: y :: ys)

/-- `list.sort` -/
def sortPy {α : Type} (lt : α → α → Py Bool) : List α → Py (List α)
  | [] => .ok []
  | x :: xs => do
    let r ← sortPy lt xs
    insertPy lt x r

section
variable [Uni]

/-- the keys of objects -/
def withKeys (c : XP.PCfg) (sks : List Str) (up : List Obj) : List Obj → Py (List (List KPart × Obj))
  | [] => .ok []
  | x :: xs => do
    let k ← sortKey c (.node x up) sks
    let r ← withKeys c sks up xs
    .ok ((k, x) :: r)

/-- `x.sort(key=make_sortkey(sks))` -/
def sortKids (c : XP.PCfg) (sks : List Str) (x : Obj) (up : List Obj) : Py Obj := do
  let l ← withKeys c sks (.mk x.data x.md [] :: up) x.kids
  let r ← sortPy (fun a b => keyLt a.1 b.1) l
  .ok (.mk x.data x.md (r.map Prod.snd))

/-- `for y in x: ...` changing the contents -/
def forKids (f : Obj → List Obj → Run Obj) (x : Obj) (up : List Obj) : List Obj → Run (List Obj)
  | [] => some (.ok [])
  | y :: ys =>
    match f y (x :: up) with
    | none => none
    | some (.error e) => some (.error e)
    | some (.ok y') =>
      match forKids f x up ys with
      | none => none
      | some (.error e) => some (.error e)
      | some (.ok ys') => some (.ok (y' :: ys'))

/-- xigt_sort.py:18-19, 23-24, 27-29: do something with each child -/
def eachKid (f : Obj → List Obj → Run Obj) (x : Obj) (up : List Obj) : Run Obj :=
  (forKids f x up x.kids).map fun r => r.map fun ys => .mk x.data x.md ys

/-- the arguments (xigt_sort.py:60-88); the tier dependencies split and stripped (xigt_sort.py:22) -/
structure Args where
  igtKey : List Str := []
  tierKey : List Str := []
  tierDeps : List Str := []
  itemKey : List Str := []

/-- what comes after it, if it ends and raises nothing -/
def thenRun {α β : Type} (r : Run α) (f : α → Run β) : Run β :=
  match r with
  | none => none
  | some (.error e) => some (.error e)
  | some (.ok a) => f a

/-- xigt_sort.py:23-24 `igt.sort_tiers`; `n` bounds its loop (C31) -/
def depSort (n : Nat) (deps : List Str) (igt : Obj) : Run Obj :=
  (sortTiers n deps igt.kids).map fun r => r.map fun ts => .mk igt.data igt.md ts

/-- xigt_sort.py:11-29 `run` up to the output -/
def run (c : XP.PCfg) (n : Nat) (a : Args) (xc : Obj) : Run Obj :=
  thenRun (if a.igtKey ≠ [] then some (sortKids c a.igtKey xc []) else some (.ok xc)) fun xc =>
  thenRun (if a.tierKey ≠ [] then eachKid (fun igt up => some (sortKids c a.tierKey igt up)) xc []
    else if a.tierDeps ≠ [] then eachKid (fun igt _ => depSort n a.tierDeps igt) xc []
    else some (.ok xc)) fun xc =>
  if a.itemKey ≠ [] then
    eachKid (fun igt up => eachKid (fun tier up => some (sortKids c a.itemKey tier up)) igt up) xc []
  else some (.ok xc)
end

end Xigt.Srt
