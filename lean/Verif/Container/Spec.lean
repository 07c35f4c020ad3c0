import Verif.Container.Model
/- What is expected of containers, in terms of contents and lookups only. -/

namespace Xigt
variable {β : Type}

/-- IDs of the contained objects, in order -/
def idList (w : World β) (k : Nat) : List Str := (w.cont k).list.filterMap fun a => (w.obj a).id

/-- no two positions hold objects with the same ID -/
def Distinct (w : World β) (k : Nat) : Prop := (idList w k).Nodup

/-- lookup by searching the contents -/
def lookupSpec (w : World β) (k : Nat) (i : Str) : Py Got :=
  match (w.cont k).list.find? (fun a => decide ((w.obj a).id = some i)) with
  | some a => .ok (.one a)
  | none => .error .keyError

/-- every object is of the contained class -/
def Homogeneous (w : World β) (k : Nat) : Prop :=
  ∀ a ∈ (w.cont k).list, (w.obj a).cls = (w.cont k).contained

variable [Uni]

/-- IDs were checked when they were set (mixins.py:214-217) -/
def ValidIds (w : World β) : Prop := ∀ a i, (w.obj a).id = some i → idAccepted i = true

/-- lookup by ID agrees with the contents -/
def Exact (w : World β) (k : Nat) : Prop :=
  ∀ i, idAccepted i = true → getItem w k (.str i) = lookupSpec w k i

/-- the same sequence of objects and the same answer to every subscription -/
def SameView (w w' : World β) (k : Nat) : Prop :=
  (w'.cont k).list = (w.cont k).list ∧ ∀ key, getItem w' k key = getItem w k key

/-- all containers are empty (freshly constructed) -/
def Fresh (w : World β) : Prop := ∀ k, (w.cont k).list = [] ∧ (w.cont k).dict = []

/-- excluded calls: an item assignment rejected because of a duplicate ID, and the removal of an
object that is not in the container although its ID is -/
def Benign (beq : β → β → Bool) (w : World β) (k : Nat) (op : Op β) : Prop :=
  match op with
  | .setItem _ _ => (step beq w k op).2 ≠ .error .xigtError
  | .remove a => (w.obj a).id = none ∨ (step beq w k op).2 ≠ .error .valueError
  | _ => True

/-- a history all of whose calls are benign -/
def BenignHist (beq : β → β → Bool) (w : World β) : List (Nat × Op β) → Prop
  | [] => True
  | (k, op) :: h => Benign beq w k op ∧ BenignHist beq (step beq w k op).1 h

/-- the object a call tries to put into a container -/
def Op.puts : Op β → List Nat
  | .append a => [a]
  | .insert _ a => [a]
  | .extend as => as
  | .setItem _ a => [a]
  | _ => []

def Op.isSetItem : Op β → Bool
  | .setItem _ _ => true
  | _ => false

end Xigt
