import Verif.Tree.Build
/-
Model of the JSON codec (/repo/xigt/codecs/xigtjson.py:60-257) between objects and JSON values.  The text
layer (`json.dumps`, `json.loads`) is in Json/Text.lean.

JSON values are null, strings, arrays and objects (encoding produces no others, and no null); decoding a
value of another shape than expected is modelled as TypeError.  The order of keys in a python dict made from a set
(line 189) is that of the set of origin here; nothing depends on it.
-/

namespace Xigt

/-- the values the module json makes of what the codec gives it, and what it reads: no numbers and booleans -/
inductive J where
  | null
  | str (s : Str)
  | arr (l : List J)
  | obj (d : List (Str × J))

/-- `[f(x) for x in xs]` where `f` may raise -/
def mapPy {α β : Type} (f : α → Py β) : List α → Py (List β)
  | [] => .ok []
  | x :: xs => do
    let y ← f x
    let ys ← mapPy f xs
    return y :: ys

/-! ### Encoding -/

/-- xigtjson.py:187-188 `dict((uri, pre) for pre, uri in active_nsmap.items())` -/
def inverse (m : Dict Str Str) : Dict Str Str := m.foldl (fun acc p => Dict.set acc p.2 p.1) []

/-- xigtjson.py:197-202 -/
def jsonKey (inv : Dict Str Str) (k : Str) : Py Str :=
  match k with
  | '{' :: r =>
    match splitOnce '}' r with
    | none => .error .valueError
    | some (uri, key) =>
      match Dict.get? inv uri with
      | some pre => .ok (pre ++ ':' :: key)
      | none => .ok k
  | _ => .ok k

/-- xigtjson.py:195-203 -/
def jsonAttrs (inv : Dict Str Str) : Dict Str Str → Dict Str Str → Py (Dict Str Str)
  | acc, [] => .ok acc
  | acc, (k, v) :: rest => do
    let k ← jsonKey inv k
    jsonAttrs inv (Dict.set acc k v) rest

/-- a key that is set only if there is a value -/
def field (k : Str) : Option J → List (Str × J)
  | none => []
  | some v => [(k, v)]

/-- `if s: obj[k] = s` -/
def strField (k : Str) (s : Option Str) : List (Str × J) :=
  field k ((s.filter fun s => !s.isEmpty).map .str)

/-- a python dict of strings as JSON -/
def jDict (d : Dict Str Str) : J := .obj (d.map fun p => (p.1, .str p.2))

/-- `x.nsmap` (mixins.py:219-227), given that of the parent -/
def effNs (d : Data) (eff : Dict Str Str) : Dict Str Str := d.nsmap.getD eff

/-- xigtjson.py:185-186 `active_nsmap` -/
def activeNs (d : Data) (eff ctx : Dict Str Str) : Dict Str Str := Dict.update ctx (effNs d eff)

/-- xigtjson.py:189 `nsmap` -/
def newNs (active ctx : Dict Str Str) : Dict Str Str := active.filter fun p => !(ctx.contains p)

/-- xigtjson.py:183-207 `_make_obj`; the second result (active_nsmap) is `activeNs` -/
def makeObj (d : Data) (eff ctx : Dict Str Str) : Py (List (Str × J)) := do
  let attrs ← jsonAttrs (inverse (activeNs d eff ctx)) [] d.attrs
  let ns := newNs (activeNs d eff ctx) ctx
  return strField (lit! "id") d.id ++ strField (lit! "type") d.type ++
    (if d.attrs.isEmpty then [] else [(lit! "attributes", jDict attrs)]) ++
    strField (lit! "namespace") d.ns ++ (if ns.isEmpty then [] else [(lit! "namespaces", jDict ns)])

/-- `if text is not None: obj['text'] = text` -/
def textField (s : Option Str) : List (Str × J) := field (lit! "text") (s.map .str)

/-- `if xs: obj[k] = [...]` -/
def listField (k : Str) (l : List J) : List (Str × J) := if l.isEmpty then [] else [(k, .arr l)]

/-- xigtjson.py:230-234: the name of a MetaChild -/
def mcName (inv : Dict Str Str) (fs : List (Str × J)) (name : Str) : List (Str × J) :=
  match Dict.get? fs (lit! "namespace") with
  | some (.str u) =>
    match Dict.get? inv u with
    | some pre => Dict.del fs (lit! "namespace") ++ [(lit! "name", .str (pre ++ ':' :: name))]
    | none => fs ++ [(lit! "name", .str name)]
  | _ => fs ++ [(lit! "name", .str name)]

mutual
/-- xigtjson.py:228-238 `encode_metachild` -/
def encodeMc (eff ctx : Dict Str Str) : Obj → Py J
  | .mk d _ kids => do
    let fs ← makeObj d eff ctx
    let ks ← encodeMcs (effNs d eff) (activeNs d eff ctx) kids
    return .obj (mcName (inverse (activeNs d eff ctx)) fs (d.name.getD []) ++ textField d.text ++
      listField (lit! "children") ks)
/-- xigtjson.py:225, 237: the children -/
def encodeMcs (eff ctx : Dict Str Str) : List Obj → Py (List J)
  | [] => .ok []
  | x :: xs => do
    let y ← encodeMc eff ctx x
    let ys ← encodeMcs eff ctx xs
    return y :: ys
end

/-- xigtjson.py:221-226 `encode_meta` -/
def encodeMeta (eff ctx : Dict Str Str) (x : Obj) : Py J := do
  let fs ← makeObj x.data eff ctx
  let ks ← encodeMcs (effNs x.data eff) (activeNs x.data eff ctx) x.kids
  return .obj (fs ++ textField x.data.text ++ listField (lit! "children") ks)

/-- xigtjson.py:216-219 `encode_metadata` -/
def encodeMd (eff ctx : Dict Str Str) (x : Obj) : Py J := do
  let fs ← makeObj x.data eff ctx
  let ks ← mapPy (encodeMeta (effNs x.data eff) (activeNs x.data eff ctx)) x.kids
  return .obj (fs ++ [(lit! "metas", .arr ks)])

/-- xigtjson.py:254-257 `encode_item` -/
def encodeItem (eff ctx : Dict Str Str) (x : Obj) : Py J := do
  let fs ← makeObj x.data eff ctx
  return .obj (fs ++ strField (lit! "text") x.data.text)

/-- xigtjson.py:247-252 `encode_tier` -/
def encodeTier (eff ctx : Dict Str Str) (x : Obj) : Py J := do
  let fs ← makeObj x.data eff ctx
  let md ← mapPy (encodeMd (effNs x.data eff) (activeNs x.data eff ctx)) x.md
  let ks ← mapPy (encodeItem (effNs x.data eff) (activeNs x.data eff ctx)) x.kids
  return .obj (fs ++ listField (lit! "metadata") md ++ [(lit! "items", .arr ks)])

/-- xigtjson.py:240-245 `encode_igt` -/
def encodeIgt (eff ctx : Dict Str Str) (x : Obj) : Py J := do
  let fs ← makeObj x.data eff ctx
  let md ← mapPy (encodeMd (effNs x.data eff) (activeNs x.data eff ctx)) x.md
  let ks ← mapPy (encodeTier (effNs x.data eff) (activeNs x.data eff ctx)) x.kids
  return .obj (fs ++ listField (lit! "metadata") md ++ [(lit! "tiers", .arr ks)])

/-- xigtjson.py:209-214 `encode` -/
def encodeCorpus (x : Obj) : Py J := do
  let fs ← makeObj x.data [] []
  let md ← mapPy (encodeMd (effNs x.data []) (activeNs x.data [] [])) x.md
  let ks ← mapPy (encodeIgt (effNs x.data []) (activeNs x.data [] [])) x.kids
  return .obj (fs ++ listField (lit! "metadata") md ++ [(lit! "igts", .arr ks)])

/-! ### Decoding -/

/-- `obj.get(k)` for a string: null is None, as if there were no such member -/
def jStr (d : List (Str × J)) (k : Str) : Py (Option Str) :=
  match Dict.get? d k with
  | none => .ok none
  | some .null => .ok none
  | some (.str s) => .ok (some s)
  | some _ => .error .typeError

/-- `obj.get(k, [])`: null is None, which is no iterable -/
def jList (d : List (Str × J)) (k : Str) : Py (List J) :=
  match Dict.get? d k with
  | none => .ok []
  | some (.arr l) => .ok l
  | some _ => .error .typeError

/-- a JSON object of strings as python dict (a later entry of the same key wins) -/
def jPairs : Dict Str Str → List (Str × J) → Py (Dict Str Str)
  | acc, [] => .ok acc
  | acc, (k, .str v) :: rest => jPairs (Dict.set acc k v) rest
  | _, _ => .error .typeError

/-- `obj.get(k)` for a dict of strings, given to `dict.update` (which takes no None) -/
def jDictGet (d : List (Str × J)) (k : Str) : Py (Option (Dict Str Str)) :=
  match Dict.get? d k with
  | none => .ok none
  | some (.obj o) => (jPairs [] o).map some
  | some _ => .error .typeError

/-- `obj.get('attributes', {})`, where None is as good as `{}` (mixins.py:167) -/
def jAttrs (d : List (Str × J)) : Py (Option (Dict Str Str)) :=
  match Dict.get? d (lit! "attributes") with
  | some .null => .ok none
  | _ => jDictGet d (lit! "attributes")

/-- the members all decoders read (e.g. xigtjson.py:76-85) -/
def decodeData (cls : Cls) (d : List (Str × J)) : Py Data := do
  let id ← jStr d (lit! "id")
  let type ← jStr d (lit! "type")
  let attrs ← jAttrs d
  let ns ← jStr d (lit! "namespace")
  let nsmap ← jDictGet d (lit! "namespaces")
  return { cls := cls, id := id, type := type, attrs := attrs.getD [], ns := ns, nsmap := nsmap }

/-- xigtjson.py:173-176 `active_namespaces` -/
def activeJson (d : List (Str × J)) (nsmap : Dict Str Str) : Py (Dict Str Str) := do
  let new ← jDictGet d (lit! "namespaces")
  return Dict.update nsmap (new.getD [])

/-- xigtjson.py:154-160: name and namespace of a MetaChild -/
def mcNameNs (nsmap : Dict Str Str) (name : Str) (ns : Option Str) : Str × Option Str :=
  match splitOnce ':' name with
  | some (pre, name) => (name, some ((Dict.get? nsmap pre).getD pre))
  | none => (name, ns.map fun n => (Dict.get? nsmap n).getD n)

/-- `obj['name']` -/
def jName (d : List (Str × J)) : Py Str :=
  match Dict.get? d (lit! "name") with
  | none => .error .keyError
  | some (.str s) => .ok s
  | some _ => .error .typeError

section
variable [Uni]

mutual
/-- xigtjson.py:151-170 `decode_metachild` (which passes no `id` and `type` on) -/
def decodeMc (nsmap : Dict Str Str) : J → Py Obj
  | .obj d => do
    let nsmap ← activeJson d nsmap
    let name ← jName d
    let data ← decodeData .metaChild d
    let text ← jStr d (lit! "text")
    let kids ← decodeMcKids nsmap d
    construct { data with
      id := none, type := none, text := text,
      name := some (mcNameNs nsmap name data.ns).1, ns := (mcNameNs nsmap name data.ns).2 } [] kids
  | _ => .error .typeError
/-- the decoded `obj.get('children', [])` -/
def decodeMcKids (nsmap : Dict Str Str) : List (Str × J) → Py (List Obj)
  | [] => .ok []
  | (k, v) :: rest => if k = lit! "children" then decodeMcArr nsmap v else decodeMcKids nsmap rest
/-- xigtjson.py:143, 165: the value has to be a list -/
def decodeMcArr (nsmap : Dict Str Str) : J → Py (List Obj)
  | .arr l => decodeMcs nsmap l
  | _ => .error .typeError
/-- xigtjson.py:143, 165: each of them -/
def decodeMcs (nsmap : Dict Str Str) : List J → Py (List Obj)
  | [] => .ok []
  | x :: xs => do
    let y ← decodeMc nsmap x
    let ys ← decodeMcs nsmap xs
    return y :: ys
end

/-- the entries of a JSON object -/
def jObj : J → Py (List (Str × J))
  | .obj d => .ok d
  | _ => .error .typeError

/-- xigtjson.py:133-148 `decode_meta` -/
def decodeMeta (nsmap : Dict Str Str) (j : J) : Py Obj := do
  let d ← jObj j
  let nsmap ← activeJson d nsmap
  let data ← decodeData .metaC d
  let text ← jStr d (lit! "text")
  let kids ← decodeMcKids nsmap d
  construct { data with text := text } [] kids

/-- xigtjson.py:119-130 `decode_metadata` -/
def decodeMd (nsmap : Dict Str Str) (j : J) : Py Obj := do
  let d ← jObj j
  let nsmap ← activeJson d nsmap
  let data ← decodeData .metadata d
  let ks ← jList d (lit! "metas")
  let kids ← mapPy (decodeMeta nsmap) ks
  construct data [] kids

/-- xigtjson.py:106-116 `decode_item` -/
def decodeItem (nsmap : Dict Str Str) (j : J) : Py Obj := do
  let d ← jObj j
  let _ ← activeJson d nsmap
  let data ← decodeData .item d
  let text ← jStr d (lit! "text")
  construct { data with text := text } [] []

/-- xigtjson.py:90-103 `decode_tier` -/
def decodeTier (nsmap : Dict Str Str) (j : J) : Py Obj := do
  let d ← jObj j
  let nsmap ← activeJson d nsmap
  let data ← decodeData .tier d
  let ms ← jList d (lit! "metadata")
  let md ← mapPy (decodeMd nsmap) ms
  let ks ← jList d (lit! "items")
  let kids ← mapPy (decodeItem nsmap) ks
  construct data md kids

/-- xigtjson.py:74-87 `decode_igt` -/
def decodeIgt (nsmap : Dict Str Str) (j : J) : Py Obj := do
  let d ← jObj j
  let nsmap ← activeJson d nsmap
  let data ← decodeData .igt d
  let ms ← jList d (lit! "metadata")
  let md ← mapPy (decodeMd nsmap) ms
  let ks ← jList d (lit! "tiers")
  let kids ← mapPy (decodeTier nsmap) ks
  construct data md kids

/-- xigtjson.py:60-72 `decode` in full mode (which passes no `type` on) -/
def decodeCorpus (j : J) : Py Obj := do
  let d ← jObj j
  let nsmap ← activeJson d []
  let data ← decodeData .corpus d
  let ms ← jList d (lit! "metadata")
  let md ← mapPy (decodeMd nsmap) ms
  let ks ← jList d (lit! "igts")
  let kids ← mapPy (decodeIgt nsmap) ks
  construct { data with type := none } md kids
end

end Xigt
