import Verif.Igt.Model
import Verif.Ref.Model
/-
Model of the reference indexes of an igt and of the reference queries:
/repo/xigt/model.py:151-219 (Igt.refresh_indices ... referrers), /repo/xigt/ref.py:213-285,
/repo/xigt/query.py.
-/

namespace Xigt
variable [Uni]

/-- a tier (`tier = none`) or an item with the tier it is in -/
structure Entry where
  tier : Option Obj
  obj : Obj

/-- an item together with the tier it is in, as an entry -/
def nodeEntry (n : Obj × Obj) : Entry := { tier := some n.1, obj := n.2 }

/-- `x.id` (mixins.py:161-173) -/
abbrev Entry.id (e : Entry) : Option Str := e.obj.data.id

/-- `x.attributes.get(ra, '')` -/
def attr0 (x : Obj) (ra : Str) : Str := (Dict.get? x.data.attrs ra).getD []

/-- an igt with its item index and reference caches (model.py:131-134); `itemdict` values are
items, preceded by their parent tiers -/
structure IgtState where
  igt : Obj
  itemdict : Dict (Option Str) (Obj × Obj) := []
  referentC : Dict Str (Dict Str (List Str)) := []
  referrerC : Dict Str (Dict Str (List Str)) := []

/-- `igt.tiers` -/
def tierEntries (igt : Obj) : List Entry := igt.kids.map fun t => { tier := none, obj := t }
/-- `[i for t in igt.tiers for i in t.items]` (model.py:156, ref.py:247) -/
def itemNodes (igt : Obj) : List (Obj × Obj) :=
  igt.kids.flatMap fun t => t.kids.map fun i => (t, i)
/-- the items of the igt (model.py:156, ref.py:247) as entries -/
def itemEntries (igt : Obj) : List Entry := (itemNodes igt).map nodeEntry

/-- model.py:157-166: the item index; it is updated, never cleared (the comparison in 160-164 only
issues warnings) -/
def refreshItems (d : Dict (Option Str) (Obj × Obj)) (xs : List (Obj × Obj)) :
    Dict (Option Str) (Obj × Obj) :=
  xs.foldl (fun d n => Dict.set d n.2.data.id n) d

/-- model.py:175-177, ref.py:227: IDs in the reference attributes of an object -/
def raMap (x : Obj) (ras : List Str) : Dict Str (List Str) :=
  ras.foldl (fun m ra => Dict.set m ra (ids (attr0 x ra))) []

/-- model.py:171-177 -/
def idsMap (allowed : Entry → List Str) (xs : List Entry) : Dict Str (Dict Str (List Str)) :=
  xs.foldl (fun m e => match e.id with
    | none => m
    | some i => Dict.set m i (raMap e.obj (allowed e))) []

/-- `inv[ref_id][refattr].append(obj_id)` on nested defaultdicts (model.py:188) -/
def invAdd (inv : Dict Str (Dict Str (List Str))) (refId ra objId : Str) :
    Dict Str (Dict Str (List Str)) :=
  let m := (Dict.get? inv refId).getD []
  Dict.set inv refId (Dict.set m ra ((Dict.get? m ra).getD [] ++ [objId]))

/-- the `(ref_id, refattr, obj_id)` in the order of the loops of model.py:185-187 -/
def invTriples (m : Dict Str (Dict Str (List Str))) : List (Str × Str × Str) :=
  m.flatMap fun o => o.2.flatMap fun r => r.2.map fun i => (i, r.1, o.1)

/-- model.py:184-189 -/
def invMap (m : Dict Str (Dict Str (List Str))) : Dict Str (Dict Str (List Str)) :=
  (invTriples m).foldl (fun inv t => invAdd inv t.1 t.2.1 t.2.2) []

/-- model.py:151-189 `Igt.refresh_indices()` with default arguments; `allowed` is
`obj.allowed_reference_attributes()` (model.py:304-309, 412-419: tables that extensions may change) -/
def refreshIndices (allowed : Entry → List Str) (st : IgtState) : IgtState :=
  let m := idsMap allowed (tierEntries st.igt ++ itemEntries st.igt)
  { st with itemdict := refreshItems st.itemdict (itemNodes st.igt), referentC := m, referrerC := invMap m }

/-- a newly constructed igt (model.py:131-137) -/
def newIgt (allowed : Entry → List Str) (igt : Obj) : IgtState := refreshIndices allowed { igt := igt }

/-- model.py:203-204 `Igt.get_item` -/
def igtGetItem (st : IgtState) (i : Option Str) : Option Entry :=
  (Dict.get? st.itemdict i).map nodeEntry

/-- model.py:206-207 `Igt.get_any` -/
def getAny (st : IgtState) (i : Str) : Option Entry :=
  match contGet st.igt.kids i with
  | some t => some { tier := none, obj := t }
  | none => igtGetItem st (some i)

/-- ref.py:213-227 `referents` -/
def referents (allowed : Entry → List Str) (st : IgtState) (i : Str) (refattrs : Option (List Str)) :
    Py (Dict Str (List Str)) :=
  match getAny st i with
  | none => .error .xigtLookupError
  | some e => .ok (raMap e.obj (refattrs.getD (allowed e)))

/-- ref.py:262-264: one reference attribute of one object -/
def referrersAttr (i : Str) (o : Obj) (oid : Str) (res : Dict Str (List Str)) (ra : Str) :
    Dict Str (List Str) :=
  let cur := (Dict.get? res ra).getD []
  Dict.set res ra (if i ∈ ids (attr0 o ra) then cur ++ [oid] else cur)

/-- ref.py:253-264: one object -/
def referrersObj (allowed : Entry → List Str) (i : Str) (refattrs : Option (List Str))
    (res : Dict Str (List Str)) (e : Entry) : Dict Str (List Str) :=
  match e.id with
  | none => res
  | some oid => (refattrs.getD (allowed e)).foldl (referrersAttr i e.obj oid) res

/-- ref.py:236-239 -/
def referrersInit : Option (List Str) → Dict Str (List Str)
  | none => []
  | some ras => ras.foldl (fun m ra => Dict.set m ra []) []

/-- ref.py:230-265 `referrers` -/
def referrers (allowed : Entry → List Str) (st : IgtState) (i : Str) (refattrs : Option (List Str)) :
    Py (Dict Str (List Str)) :=
  match contItem st.igt.kids i with
  | .ok _ => .ok ((tierEntries st.igt).foldl (referrersObj allowed i refattrs) (referrersInit refattrs))
  | .error .keyError =>
    match igtGetItem st (some i) with
    | none => .error .xigtLookupError
    | some _ =>
      .ok ((itemEntries st.igt).foldl (referrersObj allowed i refattrs) (referrersInit refattrs))
  | .error e => .error e

/-- model.py:209-213 `Igt.referents` -/
def igtReferents (allowed : Entry → List Str) (st : IgtState) (i : Str) (refattrs : Option (List Str)) :
    Py (Dict Str (List Str)) :=
  match refattrs with
  | none => .ok ((Dict.get? st.referentC i).getD [])
  | some ras => referents allowed st i (some ras)

/-- model.py:215-219 `Igt.referrers` -/
def igtReferrers (allowed : Entry → List Str) (st : IgtState) (i : Str) (refattrs : Option (List Str)) :
    Py (Dict Str (List Str)) :=
  match refattrs with
  | none => .ok ((Dict.get? st.referrerC i).getD [])
  | some ras => referrers allowed st i (some ras)

/-- ref.py:268-271 `dereference` of an object in the igt; the result is what `get_any` returns -/
def dereference (st : IgtState) (x : Obj) (ra : Str) : Py (Option Entry) := do
  let e ← Dict.getItem x.data.attrs ra
  match ids e with
  | [] => .error .indexError
  | i :: _ => .ok (getAny st i)

/-! ### queries -/

/-- one result of `ancestors` or `descendants` -/
structure Step where
  src : Obj
  ra : Str
  tgt : Obj
  items : List Obj

/-- how a generator run ends; `running`: not yet, with the given number of loop iterations -/
inductive End where
  | stop
  | raised (e : PyErr)
  | running
  deriving DecidableEq

/-- query.py:36-39 -/
def refItems (ra : Str) (items : List Obj) (reftier : Obj) : List Obj :=
  let is := items.flatMap fun i => ids (attr0 i ra)
  reftier.kids.filter fun i => is.any fun j => decide (i.data.id = some j)

/-- query.py:30-46: the loop of `ancestors`, at most the given number of iterations.
`visited.update(reftier.id)` adds the characters of the ID.  A dereferenced object that is not a
tier has no `items`. -/
def ancLoop (st : IgtState) (refattrs : List Str) :
    Nat → List (Option Str) → Obj → List Obj → List Step × End
  | 0, _, _, _ => ([], .running)
  | n + 1, visited, tier, items =>
    match refattrs.find? (fun ra => Dict.has tier.data.attrs ra) with
    | none => ([], .stop)
    | some [] => ([], .stop)
    | some (c :: cs) =>
      match dereference st tier (c :: cs) with
      | .error e => ([], .raised e)
      | .ok none => ([], .raised .attributeError)
      | .ok (some { tier := some _, obj := _ }) => ([], .raised .attributeError)
      | .ok (some { tier := none, obj := reftier }) =>
        let its := refItems (c :: cs) items reftier
        let step : Step := { src := tier, ra := c :: cs, tgt := reftier, items := its }
        if reftier.data.id ∈ visited then ([step], .stop)
        else
          match reftier.data.id with
          | none => ([step], .raised .typeError)
          | some s =>
            let r := ancLoop st refattrs n (visited ++ s.map fun ch => some [ch]) reftier its
            (step :: r.1, r.2)

/-- query.py:13-46 `ancestors` from a tier with some of its items (the start tier with all items, or
the tier of the start item with that item, lines 21-26) -/
def ancestors (st : IgtState) (refattrs : List Str) (n : Nat) (tier : Obj) (items : List Obj) :
    List Step × End := ancLoop st refattrs n [tier.data.id] tier items

/-- query.py:85-93: the steps to the tiers with the given IDs -/
def descTiers (igt : Obj) (tier : Obj) (ra : Str) (itemIds : List Str) :
    List Str → List Step × Option PyErr
  | [] => ([], none)
  | i :: is =>
    match contItem igt.kids i with
    | .error e => ([], some e)
    | .ok reftier =>
      let its := reftier.kids.filter fun x => (ids (attr0 x ra)).any fun j => decide (j ∈ itemIds)
      let r := descTiers igt tier ra itemIds is
      ({ src := tier, ra := ra, tgt := reftier, items := its } :: r.1, r.2)

/-- query.py:79-93: the loop over the reference attributes; results: visited, steps, error -/
def descAttrs (igt : Obj) (tier : Obj) (tid : Str) (itemIds : List Str) (m : Dict Str (List Str)) :
    List (Str × Str) → List Str → List (Str × Str) × List Step × Option PyErr
  | visited, [] => (visited, [], none)
  | visited, ra :: ras =>
    if (tid, ra) ∈ visited then descAttrs igt tier tid itemIds m visited ras
    else
      let s := descTiers igt tier ra itemIds ((Dict.get? m ra).getD [])
      match s.2 with
      | some e => (visited ++ [(tid, ra)], s.1, some e)
      | none =>
        let r := descAttrs igt tier tid itemIds m (visited ++ [(tid, ra)]) ras
        (r.1, s.1 ++ r.2.1, r.2.2)

/-- query.py:72-77: the attributes to follow -/
def descFollow (all : Bool) (refattrs : List Str) (m : Dict Str (List Str)) : List Str :=
  let ras := refattrs.filter fun ra => ((Dict.get? m ra).getD []) ≠ []
  if all then ras else ras.take 1

/-- mixins.py:266-271 `tier.referrers(refattrs)` -/
def tierReferrers (allowed : Entry → List Str) (st : IgtState) (tier : Obj) (refattrs : List Str) :
    Py (Str × Dict Str (List Str)) :=
  match tier.data.id with
  | none => .error .xigtError
  | some [] => .error .xigtError
  | some (c :: cs) =>
    (igtReferrers allowed st (c :: cs) (some refattrs)).map fun m => (c :: cs, m)

/-- query.py:68-93: the loop of `descendants`, at most the given number of iterations; `agenda` holds
tiers with items -/
def descLoop (allowed : Entry → List Str) (st : IgtState) (refattrs : List Str) (all : Bool) :
    Nat → List (Str × Str) → List (Obj × List Obj) → List Step × End
  | 0, _, _ => ([], .running)
  | _ + 1, _, [] => ([], .stop)
  | n + 1, visited, (tier, items) :: agenda =>
    match tierReferrers allowed st tier refattrs with
    | .error e => ([], .raised e)
    | .ok (tid, m) =>
      let r := descAttrs st.igt tier tid (items.filterMap fun i => i.data.id) m visited
        (descFollow all refattrs m)
      match r.2.2 with
      | some e => (r.2.1, .raised e)
      | none =>
        let q := descLoop allowed st refattrs all n r.1
          (agenda ++ r.2.1.map fun s => (s.tgt, s.items))
        (r.2.1 ++ q.1, q.2)

/-- query.py:49-93 `descendants` from a tier with some of its items; `all` is `follow != 'first'` -/
def descendants (allowed : Entry → List Str) (st : IgtState) (refattrs : List Str) (all : Bool)
    (n : Nat) (tier : Obj) (items : List Obj) : List Step × End :=
  descLoop allowed st refattrs all n [] [(tier, items)]

end Xigt
