import Verif.Igt.RefSpec
import Verif.Igt.ValueSpec
/- What the steps of the reference queries are, on the data of the igt. -/

namespace Xigt
variable [Uni]

/-- `ra` is the first of `refattrs` that the tier has -/
def FirstAttr (refattrs : List Str) (t : Obj) (ra : Str) : Prop :=
  ∃ pre post, refattrs = pre ++ ra :: post ∧ (∃ v, (ra, v) ∈ t.data.attrs) ∧
    ∀ r ∈ pre, ∀ v, (r, v) ∉ t.data.attrs

/-- tier `t` refers to tier `u` by its first present reference attribute -/
def RefersFirst (igt : Obj) (refattrs : List Str) (t u : Obj) : Prop :=
  ∃ ra i rest, FirstAttr refattrs t ra ∧ ra ≠ [] ∧ ids (attr0 t ra) = i :: rest ∧
    contGet igt.kids i = some u

/-- a step up from a tier with some items: over the first present reference attribute to the tier it
names, with exactly the items there that the given items refer to, in document order -/
def AncStep (igt : Obj) (refattrs : List Str) (t : Obj) (items : List Obj) (s : Step) : Prop :=
  s.src = t ∧ FirstAttr refattrs t s.ra ∧
  (∃ i rest, ids (attr0 t s.ra) = i :: rest ∧ s.tgt ∈ igt.kids ∧ s.tgt.data.id = some i) ∧
  s.items = s.tgt.kids.filter fun x =>
    decide (∃ it ∈ items, ∃ j ∈ ids (attr0 it s.ra), x.data.id = some j)

/-- each step goes on from where the one before arrived -/
inductive AncSteps (igt : Obj) (refattrs : List Str) : Obj → List Obj → List Step → Prop
  | nil {t items} : AncSteps igt refattrs t items []
  | cons {t items s rest} : AncStep igt refattrs t items s → AncSteps igt refattrs s.tgt s.items rest →
      AncSteps igt refattrs t items (s :: rest)

/-- tier `u` (with an ID) refers to the tier with ID `tid` -/
def RefersTo (igt : Obj) (ra : Str) (u : Obj) (tid : Str) : Prop :=
  u ∈ igt.kids ∧ u.data.id ≠ none ∧ tid ∈ ids (attr0 u ra)

/-- a step down from a tier with some items: to a tier that refers to it, with exactly its items that
refer to one of the given items, in document order -/
def DescStep (igt : Obj) (refattrs : List Str) (items : List Obj) (s : Step) : Prop :=
  s.ra ∈ refattrs ∧ (∃ tid, s.src.data.id = some tid ∧ RefersTo igt s.ra s.tgt tid) ∧
  s.items = s.tgt.kids.filter fun x =>
    decide (∃ it ∈ items, ∃ j ∈ ids (attr0 x s.ra), it.data.id = some j)

/-- tiers that refer directly or indirectly to a tier -/
inductive RefersVia (igt : Obj) (refattrs : List Str) (t : Obj) : Obj → Prop
  | direct {u ra tid} : ra ∈ refattrs → t.data.id = some tid → RefersTo igt ra u tid →
      RefersVia igt refattrs t u
  | step {u v ra uid} : RefersVia igt refattrs t u → ra ∈ refattrs → u.data.id = some uid →
      RefersTo igt ra v uid → RefersVia igt refattrs t v

/-- the containers and the ID setter ensure this (C02, C09) -/
structure TiersOK (igt : Obj) : Prop where
  unique : (igt.kids.filterMap fun t => t.data.id).Nodup
  valid : ∀ t ∈ igt.kids, ∀ i, t.data.id = some i → idAccepted i = true

end Xigt
