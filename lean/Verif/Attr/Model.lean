import Verif.Tree.Model
/-
Model of attribute and metadata lookup along the parents (/repo/xigt/mixins.py:187-232,
/repo/xigt/metadata.py:46-61), of `select` (mixins.py:88-94) and of the constructor of the
reference attributes (mixins.py:244-257).

An object with its parents is the list `[object, parent, parent's parent, ...]`; `_has_parent`
(mixins.py:25-26) is that the list goes on.  Keys of namespace maps are strings (the decoders never
produce `None` as prefix).
-/

namespace Xigt

/-- mixins.py:219-227 `nsmap` -/
def nsmapOf : List Obj → Dict Str Str
  | [] => []
  | x :: rest => match x.data.nsmap with
    | some m => m
    | none => nsmapOf rest

/-- `'{%s}%s' % (uri, key)` -/
def qual (uri key : Str) : Str := '{' :: (uri ++ '}' :: key)

/-- mixins.py:193-199: the key looked up -/
def qualify (nsmap : Dict Str Str) (key : Str) (ns : Option Str) : Py Str :=
  match (if key.head? = some '{' then none else splitOnce ':' key) with
  | some (pre, suf) => (Dict.getItem nsmap pre).map fun uri => qual uri suf
  | none =>
    match ns with
    | none => .ok key
    | some n =>
      match Dict.get? nsmap n with
      | some uri => .ok (qual uri key)
      | none => if n = [] then .ok key else .ok (qual n key)

/-- mixins.py:187-208 `get_attribute(key, default, inherit, namespace)`; the `key is None` check
does not arise -/
def getAttribute : List Obj → Str → Option Str → Bool → Option Str → Py (Option Str)
  | [], _, default, _, _ => .ok default
  | x :: rest, key, default, inherit, ns =>
    match qualify (nsmapOf (x :: rest)) key ns with
    | .error e => .error e
    | .ok key =>
      match Dict.get? x.data.attrs key with
      | some v => .ok (some v)
      | none => if inherit = true ∧ rest ≠ [] then getAttribute rest key default inherit ns else .ok default

/-- metadata.py:50-55: the matching metas of one object -/
def ownMetas (key : Option Str) (conds : List (Obj → Bool)) (x : Obj) : List Obj :=
  x.md.flatMap fun md =>
    if md.data.type = some (lit! "xigt-meta") then
      md.kids.filter fun m => decide (m.data.type = key) && conds.all fun c => c m
    else []

/-- metadata.py:46-61 `get_meta`; `none` is the default (whatever it is).  All objects in the list
have metadata (corpus, igt, tier). -/
def getMeta : List Obj → Option Str → List (Obj → Bool) → Bool → Option (List Obj)
  | [], _, _, _ => none
  | x :: rest, key, conds, inherit =>
    match ownMetas key conds x with
    | m :: ms => some (m :: ms)
    | [] => if inherit = true ∧ rest ≠ [] then getMeta rest key conds inherit else none

/-! ### select -/

/-- consts.py:5 -/
def ALIGN : Str := lit! "alignment"
/-- consts.py:6 -/
def CONT : Str := lit! "content"
/-- consts.py:7 -/
def SEGM : Str := lit! "segmentation"

/-- `getattr(x, k, None)` for the members with string values; other names give None (members with
other values, and `Metadata.text`, are not modelled) -/
def member (x : Obj) (k : Str) : Option Str :=
  if k = lit! "id" then x.data.id
  else if k = lit! "type" then x.data.type
  else if k = lit! "namespace" then x.data.ns
  else if k = lit! "text" then (if x.cls.hasText then x.data.text else none)
  else if k = lit! "name" then x.data.name
  else if k = ALIGN ∨ k = CONT ∨ k = SEGM then
    (if x.cls = .tier ∨ x.cls = .item then Dict.get? x.data.attrs k else none)
  else none

/-- mixins.py:90-91: the namespace criterion -/
def nsCriterion (nsmap : Dict Str Str) (crit : Dict Str (Option Str)) : Dict Str (Option Str) :=
  match Dict.get? crit (lit! "namespace") with
  | some (some n) => match Dict.get? nsmap n with
    | some uri => Dict.set crit (lit! "namespace") (some uri)
    | none => crit
  | _ => crit

/-- mixins.py:88-94 `select(**crit)` of a container with the given contents; `nsmap` is its namespace
map, `none` for the metadata container of an object, which has no such member (metadata.py:23) -/
def select (nsmap : Option (Dict Str Str)) (xs : List Obj) (crit : Dict Str (Option Str)) : Py (List Obj) :=
  if Dict.has crit (lit! "namespace") then
    match nsmap with
    | none => .error .attributeError
    | some m => .ok (xs.filter fun x => (nsCriterion m crit).all fun p => decide (member x p.1 = p.2))
  else .ok (xs.filter fun x => crit.all fun p => decide (member x p.1 = p.2))

/-! ### Reference attributes at construction -/

/-- python truth of an optional string -/
def truthy : Option Str → Bool
  | none => false
  | some s => !s.isEmpty

/-- `if v is not None: attributes[k] = v` -/
def setOpt (attrs : Dict Str Str) (k : Str) : Option Str → Dict Str Str
  | none => attrs
  | some v => Dict.set attrs k v

/-- mixins.py:245-257 `XigtReferenceAttributeMixin.__init__` on the attributes of the object -/
def refInit (attrs : Dict Str Str) (alignment content segmentation : Option Str) : Py (Dict Str Str) :=
  if truthy segmentation && (truthy content || truthy alignment) then .error .xigtError
  else .ok (setOpt (setOpt (setOpt attrs ALIGN alignment) CONT content) SEGM segmentation)

end Xigt
