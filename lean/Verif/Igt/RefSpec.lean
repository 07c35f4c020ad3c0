import Verif.Igt.RefModel
/- Vocabulary for the properties of references. -/

namespace Xigt
variable [Uni]

/-- references stay within tiers or within items -/
inductive Level | tiers | items

def levelEntries (igt : Obj) : Level → List Entry
  | .tiers => tierEntries igt
  | .items => itemEntries igt

/-- IDs of the objects of a level in document order -/
def levelIds (igt : Obj) (lv : Level) : List Str := (levelEntries igt lv).filterMap Entry.id

/-- what the ID setter and the containers ensure (C02, C09), and that no ID is used both for a tier
and an item or in two tiers -/
structure IgtOK (igt : Obj) : Prop where
  unique : ((tierEntries igt ++ itemEntries igt).filterMap Entry.id).Nodup
  valid : ∀ e ∈ tierEntries igt ++ itemEntries igt, ∀ i, e.id = some i → idAccepted i = true

/-- every current item is found in the item index -/
def Indexed (st : IgtState) : Prop :=
  ∀ e ∈ itemEntries st.igt, ∀ i, e.id = some i → igtGetItem st (some i) = some e

/-- the list under a key, if any -/
def listed (m : Dict Str (List Str)) (ra : Str) : List Str := (Dict.get? m ra).getD []

end Xigt
