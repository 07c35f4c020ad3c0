import Verif.Igt.RefModel
/-
Model of `Igt.sort_tiers` (/repo/xigt/model.py:221-240).

Simplification: the values of the reference attributes are read directly from the attributes
(`get_attribute` does that for keys without ':' if the namespace map has no default namespace).
-/

namespace Xigt
variable [Uni]

/-- a computation that may not have ended yet (`none`) -/
abbrev Run (α : Type) := Option (Py α)

/-- model.py:222 `idx` -/
def sortIdx (ts : List Obj) : Dict (Option Str) Nat :=
  (ts.zipIdx 1).foldl (fun d p => Dict.set d p.1.data.id p.2) []

/-- model.py:225-231: value of the first reference attribute present, and its number -/
def firstRef (refattrs : List Str) (t : Obj) : Option (Str × Nat) :=
  ((refattrs.zipIdx).find? fun p => Dict.has t.data.attrs p.1).map fun p => (attr0 t p.1, p.2)

/-- model.py:230-231 -/
def prStep (refattrs : List Str) (d : Dict (Option Str) (Str × Nat)) (t : Obj) : Dict (Option Str) (Str × Nat) :=
  match firstRef refattrs t with
  | some p => Dict.set d t.data.id p
  | none => d

/-- model.py:223-231 `pr` -/
def sortPr (refattrs : List Str) (ts : List Obj) : Dict (Option Str) (Str × Nat) :=
  ts.foldl (prStep refattrs) []

/-- model.py:236-238: the while loop, as the list of what it appends to `key`; `n` bounds the number
of iterations -/
def keyLoop (idx : Dict (Option Str) Nat) (pr : Dict (Option Str) (Str × Nat)) :
    Nat → Option (Str × Nat) → Run (List (Nat × Nat))
  | _, none => some (.ok [])
  | 0, some _ => none
  | n + 1, some (r, i) =>
    match Dict.get? idx (some r) with
    | none => some (.error .keyError)
    | some k => (keyLoop idx pr n (Dict.get? pr (some r))).map (Except.map ((k, i) :: ·))

/-- model.py:234-239: the key of a tier -/
def tierKey (n : Nat) (idx : Dict (Option Str) Nat) (pr : Dict (Option Str) (Str × Nat)) (t : Obj) :
    Run (List (Nat × Nat)) :=
  match Dict.get? idx t.data.id with
  | none => some (.error .keyError)
  | some k => (keyLoop idx pr n (Dict.get? pr t.data.id)).map (Except.map fun l => ((k, 0) :: l).reverse)

/-- model.py:232-239 `dfi` -/
def tierKeys (n : Nat) (idx : Dict (Option Str) Nat) (pr : Dict (Option Str) (Str × Nat)) :
    List Obj → Dict (Option Str) (List (Nat × Nat)) → Run (Dict (Option Str) (List (Nat × Nat)))
  | [], d => some (.ok d)
  | t :: ts, d =>
    match tierKey n idx pr t with
    | none => none
    | some (.error e) => some (.error e)
    | some (.ok k) => tierKeys n idx pr ts (Dict.set d t.data.id k)

/-- `a <= b` for tuples of pairs of ints -/
def keyLe : List (Nat × Nat) → List (Nat × Nat) → Bool
  | [], _ => true
  | _ :: _, [] => false
  | (a, i) :: k, (b, j) :: l =>
    if a < b then true else if b < a then false
    else if i < j then true else if j < i then false else keyLe k l

/-- model.py:221-240 `Igt.sort_tiers` on the list of tiers -/
def sortTiers (n : Nat) (refattrs : List Str) (ts : List Obj) : Run (List Obj) :=
  match tierKeys n (sortIdx ts) (sortPr refattrs ts) ts [] with
  | none => none
  | some (.error e) => some (.error e)
  | some (.ok dfi) =>
    let key := fun t : Obj => (Dict.get? dfi t.data.id).getD []
    some (.ok (sortBy (fun a b => keyLe (key a) (key b)) ts))

end Xigt
