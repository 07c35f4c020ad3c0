import Verif.Ref.Model
/-
Model of XigtContainerMixin (/repo/xigt/mixins.py:29-158): a heap of objects and of containers,
and the container operations as functions on the heap.

Simplifications: objects are addresses (`Nat`); what the operations look at is the object's class,
ID, parent and equality.  Everything else an object holds is an opaque `body : β` compared by an
arbitrary function `beq`.  A container is the list part and the `_dict` part of a
XigtContainerMixin; several containers exist side by side and share objects.  Subclassing of the
model classes is not modelled (`isinstance` is class equality).
-/

namespace Xigt

/-- the classes of the data model -/
inductive Cls where
  | corpus | igt | tier | item | metadata | metaC | metaChild
  deriving DecidableEq, Repr

/-- an object as far as containers look at it (mixins.py:161-217 `id`, `_parent`) -/
structure CObj (β : Type) where
  cls : Cls
  id : Option Str
  parent : Option Nat
  body : β

/-- a container: mixins.py:34-37 (`_container`, `_contained_type`, `_dict`) and its list part -/
structure Cont where
  owner : Nat
  contained : Cls
  list : List Nat
  dict : Dict Str Nat

/-- the heap -/
structure World (β : Type) where
  obj : Nat → CObj β
  cont : Nat → Cont

/-- a subscript: `c[int]`, `c[str]`, `c[a:b]` -/
inductive Key where
  | int (i : Int)
  | str (s : Str)
  | slice (a b : Option Int)

/-- result of a subscription: an object, or a list of objects for a slice -/
inductive Got where
  | one (a : Nat)
  | many (l : List Nat)
  deriving DecidableEq

variable {β : Type}

/-- the world with object `a` replaced -/
def World.setObj (w : World β) (a : Nat) (o : CObj β) : World β :=
  { w with obj := fun x => if x = a then o else w.obj x }

/-- the world with container `k` replaced -/
def World.setCont (w : World β) (k : Nat) (c : Cont) : World β :=
  { w with cont := fun x => if x = k then c else w.cont x }

/-- `a == b` on objects of a container, as used by `list.remove` (which tests identity first);
XigtAttributeMixin.__eq__ (mixins.py:175-185) compares IDs, the rest is `beq` -/
def World.eqv (beq : β → β → Bool) (w : World β) (a b : Nat) : Bool :=
  a == b || (decide ((w.obj a).id = (w.obj b).id) && beq (w.obj a).body (w.obj b).body)

section
variable [Uni]

/-- mixins.py:50-60 `__getitem__` -/
def getItem (w : World β) (k : Nat) : Key → Py Got
  | .int i => (pyGet (w.cont k).list i).map .one
  | .slice a b => .ok (.many (pySlice (w.cont k).list a b))
  | .str s =>
    match Dict.get? (w.cont k).dict s with
    | some a => .ok (.one a)
    | none =>
      match pyInt s with
      | .ok i => (pyGet (w.cont k).list i).map .one
      | .error _ => .error .keyError

/-- mixins.py:81-86 `get` -/
def getDef (w : World β) (k : Nat) (key : Key) (dflt : Option Got) : Py (Option Got) :=
  match getItem w k key with
  | .ok g => .ok (some g)
  | .error e => if e = .keyError ∨ e = .indexError then .ok dflt else .error e
end

/-- mixins.py:96-101 `_assert_type` -/
def assertType (w : World β) (k a : Nat) : Py Unit :=
  if (w.obj a).cls = (w.cont k).contained then .ok () else .error .xigtStructureError

/-- outcome of a mutating call: the world it leaves behind (also when it raises), and whether it
raised -/
abbrev Out (β : Type) := World β × Py Unit

/-- mixins.py:131-137 `_create_id_mapping` -/
def createMapping (w : World β) (k a : Nat) : Out β :=
  match (w.obj a).id with
  | none => (w, .ok ())
  | some i =>
    if Dict.has (w.cont k).dict i then (w, .error .xigtError)
    else (w.setCont k { w.cont k with dict := Dict.set (w.cont k).dict i a }, .ok ())

/-- `obj._parent = self._container` -/
def setParent (w : World β) (k a : Nat) : World β :=
  w.setObj a { w.obj a with parent := some (w.cont k).owner }

/-- list part of container `k` replaced -/
def World.setList (w : World β) (k : Nat) (l : List Nat) : World β :=
  w.setCont k { w.cont k with list := l }

/-- dict part of container `k` replaced -/
def World.setDict (w : World β) (k : Nat) (d : Dict Str Nat) : World β :=
  w.setCont k { w.cont k with dict := d }

/-- mixins.py:103-107 `append` -/
def append (w : World β) (k a : Nat) : Out β :=
  match assertType w k a with
  | .error e => (w, .error e)
  | .ok () =>
    match createMapping (setParent w k a) k a with
    | (w, .error e) => (w, .error e)
    | (w, .ok ()) => (w.setList k ((w.cont k).list ++ [a]), .ok ())

/-- mixins.py:109-113 `insert` -/
def insert (w : World β) (k : Nat) (i : Int) (a : Nat) : Out β :=
  match assertType w k a with
  | .error e => (w, .error e)
  | .ok () =>
    match createMapping (setParent w k a) k a with
    | (w, .error e) => (w, .error e)
    | (w, .ok ()) => (w.setList k (pyInsert (w.cont k).list i a), .ok ())

/-- mixins.py:115-117 `extend` -/
def extend (w : World β) (k : Nat) : List Nat → Out β
  | [] => (w, .ok ())
  | a :: as =>
    match append w k a with
    | (w, .error e) => (w, .error e)
    | (w, .ok ()) => extend w k as

/-- `list.remove(self, obj)`: the list without its first element equal to `a`, if any -/
def removeFirst (p : Nat → Bool) : List Nat → Option (List Nat)
  | [] => none
  | x :: xs => if p x then some xs else (removeFirst p xs).map (x :: ·)

/-- mixins.py:71-72 and 121-122: `if obj.id is not None: del self._dict[obj.id]`; `none` is the
KeyError -/
def dropMapping (w : World β) (k a : Nat) : Option (World β) :=
  match (w.obj a).id with
  | none => some w
  | some i => if Dict.has (w.cont k).dict i then some (w.setDict k (Dict.del (w.cont k).dict i))
              else none

/-- mixins.py:119-123 `remove` -/
def remove (beq : β → β → Bool) (w : World β) (k a : Nat) : Out β :=
  match dropMapping w k a with
  | none => (w, .error .keyError)
  | some w =>
    match removeFirst (fun x => w.eqv beq x a) (w.cont k).list with
    | none => (w, .error .valueError)
    | some l => (w.setList k l, .ok ())

section
variable [Uni]

/-- mixins.py:76-79 `__delitem__`; a slice gives a list, which has no `id` -/
def delItem (beq : β → β → Bool) (w : World β) (k : Nat) (key : Key) : Out β :=
  match getItem w k key with
  | .error e => (w, .error e)
  | .ok (.many _) => (w, .error .attributeError)
  | .ok (.one a) => remove beq w k a

/-- mixins.py:66-70: the index meant by a key in an item assignment -/
def setIdx : Key → Py Int
  | .int i => .ok i
  | .str s => pyInt s
  | .slice _ _ => .error .attributeError

/-- mixins.py:62-74 `__setitem__`; for a slice `cur_obj` is a list, which has no `id`.
(`__setitem__` does not set the parent.) -/
def setItem (w : World β) (k : Nat) (key : Key) (a : Nat) : Out β :=
  match assertType w k a with
  | .error e => (w, .error e)
  | .ok () =>
    match setIdx key with
    | .error e => (w, .error e)
    | .ok i =>
      match pyIdx (w.cont k).list.length i with
      | none => (w, .error .indexError)
      | some n =>
        match (w.cont k).list[n]? with
        | none => (w, .error .indexError)
        | some cur =>
          match dropMapping w k cur with
          | none => (w, .error .keyError)
          | some w =>
            match createMapping w k a with
            | (w, .error e) => (w, .error e)
            | (w, .ok ()) => (w.setList k ((w.cont k).list.set n a), .ok ())
end

/-- mixins.py:125-129 `clear` -/
def clear (w : World β) (k : Nat) : Out β :=
  (w.setCont k { w.cont k with list := [], dict := [] }, .ok ())

/-- loop of `refresh_index` (mixins.py:141-142) -/
def refreshLoop (w : World β) (k : Nat) : List Nat → Out β
  | [] => (w, .ok ())
  | a :: as =>
    match createMapping w k a with
    | (w, .error e) => (w, .error e)
    | (w, .ok ()) => refreshLoop w k as

/-- mixins.py:139-142 `refresh_index` -/
def refreshIndex (w : World β) (k : Nat) : Out β :=
  refreshLoop (w.setDict k []) k (w.cont k).list

/-- insert into a sorted list, before the first element that is not smaller -/
def insertBy {α} (le : α → α → Bool) (x : α) : List α → List α
  | [] => [x]
  | y :: ys => if le x y then x :: y :: ys else y :: insertBy le x ys

/-- stable sort (specification of `list.sort`): insertion sort from the right -/
def sortBy {α} (le : α → α → Bool) : List α → List α
  | [] => []
  | x :: xs => insertBy le x (sortBy le xs)

/-- `list.sort(key=key)`, inherited from list (model.py:240 uses it); keys are integers here -/
def sortList (w : World β) (k : Nat) (key : Nat → Int) : Out β :=
  (w.setList k (sortBy (fun a b => decide (key a ≤ key b)) (w.cont k).list), .ok ())

/-- calls on containers, and changes to an object that do not concern its ID -/
inductive Op (β : Type) where
  | append (a : Nat)
  | insert (i : Int) (a : Nat)
  | extend (as : List Nat)
  | remove (a : Nat)
  | delItem (key : Key)
  | setItem (key : Key) (a : Nat)
  | clear
  | refreshIndex
  | sort (key : Nat → Int)
  | setBody (a : Nat) (b : β)

section
variable [Uni]

/-- one call on container `k` -/
def step (beq : β → β → Bool) (w : World β) (k : Nat) : Op β → Out β
  | .append a => append w k a
  | .insert i a => insert w k i a
  | .extend as => extend w k as
  | .remove a => remove beq w k a
  | .delItem key => delItem beq w k key
  | .setItem key a => setItem w k key a
  | .clear => clear w k
  | .refreshIndex => refreshIndex w k
  | .sort key => sortList w k key
  | .setBody a b => (w.setObj a { w.obj a with body := b }, .ok ())

/-- a history: calls on any containers, exceptions being caught by the caller -/
def runHist (beq : β → β → Bool) (w : World β) : List (Nat × Op β) → World β
  | [] => w
  | (k, op) :: h => runHist beq (step beq w k op).1 h
end

end Xigt
