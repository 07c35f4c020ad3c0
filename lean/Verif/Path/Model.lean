import Verif.Regex
import Verif.Json.Model
import Verif.Attr.Model
import Verif.Igt.RefModel
/-
Model of /repo/xigt/xigtpath.py.

An object is known with its parents, as in `Verif.Attr.Model`.  A generator is the list of what it
yields together with the exception that ends it, if any (`Gen`); nothing but the deque of tokens has
side effects, and tokens are consumed before anything is yielded (the body of `_step` runs up to its
loop when the first result is asked for), except that `_disjunction` goes through its objects at once.

Simplifications: corpora are in full mode; RecursionError does not occur in the functions of this
module; the item index and the allowed reference attributes of igts are parameters (`PCfg`).
-/

namespace Xigt.XP

/-- what results depend on besides the tree: the allowed recursion depth of `Item.value()`
(model.py:373-380), the tables of reference attributes (model.py:304-309, 412-419) and the item index
of an igt (model.py:134) -/
structure PCfg where
  depth : Nat
  allowed : Entry → List Str
  index : Obj → Dict (Option Str) (Obj × Obj)

/-- results of paths: objects with their parents, strings, None, and lists (`Metadata.text`,
metadata.py:122-124) -/
inductive PV where
  | node (x : Obj) (up : List Obj)
  | str (s : Str)
  | none
  | list (xs : List Obj)

/-- a string or None -/
def PV.ofOpt : Option Str → PV
  | some s => .str s
  | .none => .none

/-- a generator: what it yields, and the exception it ends with -/
structure Gen where
  vals : List PV
  err : Option PyErr := none

namespace Gen
/-- a generator that raises at once -/
def fail (e : PyErr) : Gen := ⟨[], some e⟩
/-- a generator of the members of a list, or that raises -/
def ofPy : Py (List PV) → Gen
  | .ok l => ⟨l, .none⟩
  | .error e => fail e

/-- `(r for v in g for r in f(v))` -/
def bindL (f : PV → Gen) (e : Option PyErr) : List PV → Gen
  | [] => ⟨[], e⟩
  | v :: vs =>
    match (f v).err with
    | some x => ⟨(f v).vals, some x⟩
    | .none => ⟨(f v).vals ++ (bindL f e vs).vals, (bindL f e vs).err⟩
/-- `(r for v in g for r in f(v))` -/
def bind (g : Gen) (f : PV → Gen) : Gen := bindL f g.err g.vals

/-- `filter(t, g)` -/
def filterL (t : PV → Py Bool) (e : Option PyErr) : List PV → Gen
  | [] => ⟨[], e⟩
  | v :: vs =>
    match t v with
    | .error x => ⟨[], some x⟩
    | .ok true => ⟨v :: (filterL t e vs).vals, (filterL t e vs).err⟩
    | .ok false => filterL t e vs
/-- `filter(t, g)` -/
def filter (g : Gen) (t : PV → Py Bool) : Gen := filterL t g.err g.vals

/-- `list(g)` -/
def toList (g : Gen) : Py (List PV) :=
  match g.err with
  | .none => .ok g.vals
  | some e => .error e
end Gen

/-! ### Nodes -/

/-- xigtpath.py:167-169, 206-207, 218-219 -/
def splitNs (name : Str) : Option Str × Str :=
  match splitOnce ':' name with
  | some (a, b) => (some a, b)
  | .none => (.none, name)

/-- xigtpath.py:166-169, 192: the criteria -/
def crit (ns name : Option Str) : Dict Str (Option Str) :=
  (match ns with
    | some n => [(lit! "namespace", some n)]
    | .none => []) ++
  (match name with
    | some n => [(lit! "name", some n)]
    | .none => [])

/-- `obj.select(**kwargs)` -/
def selectKids (x : Obj) (up : List Obj) (ns name : Option Str) : Py (List PV) :=
  (select (some (nsmapOf (x :: up))) x.kids (crit ns name)).map fun l => l.map fun k => .node k (x :: up)

/-- xigtpath.py:174-177: the name of the contents of a class -/
def kidName : Cls → Option Str
  | .corpus => some (lit! "igt")
  | .igt => some (lit! "tier")
  | .tier => some (lit! "item")
  | .metadata => some (lit! "meta")
  | _ => none

/-- xigtpath.py:184-189 -/
def mdKids (x : Obj) (up : List Obj) (ns : Option Str) : List PV :=
  (match ns with
    | some n => x.md.filter fun (m : Obj) => decide (m.data.ns = some n)
    | .none => x.md).map fun k => .node k (x :: up)

/-- xigtpath.py:163-195 `_find_child`; strings and lists have `__iter__` but no `select` -/
def findChild (v : PV) (name : Str) : Py (List PV) :=
  let ns := (splitNs name).1
  let n := (splitNs name).2
  match v with
  | .node x up =>
    if n = lit! "*" ∧ x.cls ≠ .item then (selectKids x up ns none).map fun l => mdKids x up none ++ l
    else if kidName x.cls = some n then selectKids x up ns none
    else if n = lit! "metadata" ∧ x.cls.hasMd = true then .ok (mdKids x up ns)
    else if x.cls = .metaC ∨ x.cls = .metaChild then selectKids x up ns (some n)
    else .ok []
  | .none => .ok []
  | _ => if n = lit! "*" then .error .attributeError else .ok []

/-- xigtpath.py:208-212 -/
def getAttr1 (chain : List Obj) (ns : Option Str) (a : Str) : Py PV :=
  (getAttribute chain a none false ns).map .ofOpt

/-- xigtpath.py:197-214 `_find_attr` -/
def findAttr (v : PV) (attr : Str) : Py (List PV) :=
  if attr = lit! "type" ∨ attr = lit! "id" ∨ attr = lit! "name" then
    match v with
    | .node x _ => match member x attr with
      | some s => .ok [.str s]
      | .none => .ok []
    | _ => .ok []
  else
    match v with
    | .node x up =>
      if (splitNs attr).2 = lit! "*" then mapPy (getAttr1 (x :: up) (splitNs attr).1) x.data.attrs.keys
      else (getAttr1 (x :: up) (splitNs attr).1 (splitNs attr).2).map fun a => [a]
    | _ => .error .attributeError

/-- xigtpath.py:220-223 -/
def objName (x : Obj) : Option Str :=
  match x.cls with
  | .corpus => some (lit! "xigtcorpus")
  | .igt => some (lit! "igt")
  | .tier => some (lit! "tier")
  | .item => some (lit! "item")
  | .metadata => some (lit! "metadata")
  | .metaC => some (lit! "meta")
  | .metaChild => x.data.name

mutual
/-- xigtpath.py:216-228 `_find_descendant_or_self` of an object: the recursive calls have no prefix
any more -/
def descObj (name : Str) (up : List Obj) : Obj → List PV
  | .mk d md kids =>
    (if ((splitNs name).1 = none ∨ d.ns = (splitNs name).1) ∧ objName (.mk d md kids) = some (splitNs name).2
      then [.node (.mk d md kids) up] else []) ++
    (if d.cls = .item then []
      else descObjs (splitNs name).2 (.mk d md kids :: up) md ++ descObjs (splitNs name).2 (.mk d md kids :: up) kids)
/-- xigtpath.py:216-228: of each object of a list -/
def descObjs (name : Str) (up : List Obj) : List Obj → List PV
  | [] => []
  | x :: xs => descObj name up x ++ descObjs name up xs
end

/-- xigtpath.py:216-228 `_find_descendant_or_self`; the classes of other values are str, NoneType and
list -/
def descSelf (v : PV) (name : Str) : Gen :=
  match v with
  | .node x up => ⟨descObj name up x, none⟩
  | v =>
    if (splitNs name).1 ≠ none then .fail .attributeError
    else match v with
      | .str s => ⟨if name = lit! "str" then [.str s] else [], some .attributeError⟩
      | .list l => ⟨if name = lit! "list" then [.list l] else [], some .attributeError⟩
      | v => ⟨if name = lit! "nonetype" then [v] else [], none⟩

/-- `_parent` (xigtpath.py:123): a corpus, and metadata that was never added, have no such member -/
def parentOf : PV → Py PV
  | .node _ (p :: up) => .ok (.node p up)
  | .node x [] => if x.cls = .corpus ∨ x.cls = .metadata then .error .attributeError else .ok .none
  | _ => .error .attributeError

/-- xigtpath.py:267-270 `_get_corpus` -/
def getCorpus : PV → Py PV
  | .node x up =>
    match (x :: up).dropWhile fun y => decide (y.cls ≠ .corpus) with
    | c :: up' => .ok (.node c up')
    | [] => .error .attributeError
  | _ => .error .attributeError

section
variable [Uni]

/-! ### Functions -/

/-- order of strings (code points) -/
def strLe : Str → Str → Bool
  | [], _ => true
  | _ :: _, [] => false
  | a :: as, b :: bs => if a = b then strLe as bs else decide (a.toNat < b.toNat)

/-- insertion into a list sorted by key -/
def insKey (p : Str × List Str) : Dict Str (List Str) → Dict Str (List Str)
  | [] => [p]
  | q :: l => if strLe p.1 q.1 then p :: q :: l else q :: insKey p l

/-- `sorted(d.items())`: the keys are distinct -/
def sortItems (d : Dict Str (List Str)) : Dict Str (List Str) := d.foldr insKey []

/-- `igt.get_any(i)` as a result -/
def anyV (c : PCfg) (igt : Obj) (up : List Obj) (i : Str) : PV :=
  match getAny { igt := igt, itemdict := c.index igt } i with
  | none => .none
  | some { tier := none, obj := t } => .node t (igt :: up)
  | some { tier := some t, obj := i } => .node i (t :: igt :: up)

/-- xigtpath.py:230-246 `_find_referent` and `_find_referrer` in an igt -/
def findRefs (c : PCfg) (referrer : Bool) (igt : Obj) (up : List Obj) (id : Option Str) (ras : Option (List Str)) :
    Py (List PV) :=
  match id with
  | none => .error .typeError
  | some i => do
    let st : IgtState := { igt := igt, itemdict := c.index igt }
    let d ← if referrer then referrers c.allowed st i ras else referents c.allowed st i ras
    .ok ((sortItems d).flatMap fun p => p.2.map (anyV c igt up))

/-- xigtpath.py:230-246, 154-159: what has an `igt` member, what is an igt, and the rest -/
def refsOf (c : PCfg) (referrer : Bool) (v : PV) (ras : Option (List Str)) : Py (List PV) :=
  match v with
  | .node x up =>
    match x.cls, up with
    | .igt, up => findRefs c referrer x up x.data.id ras
    | .tier, i :: up => findRefs c referrer i up x.data.id ras
    | .item, _ :: i :: up => findRefs c referrer i up x.data.id ras
    | _, _ => .error .attributeError
  | _ => .error .attributeError

/-- xigtpath.py:148-161 `_function` -/
def function (c : PCfg) (v : PV) (f : Str) (args : List Str) : Py (List PV) :=
  if f = lit! "text" then
    match v with
    | .node x _ =>
      if x.cls.hasText = true then .ok [.ofOpt x.data.text]
      else if x.cls = .metadata then .ok [.list x.kids]
      else .error .attributeError
    | _ => .error .attributeError
  else if f = lit! "value" then
    match v with
    | .node x up =>
      if x.cls = .item then (value c.depth up[1]? up[0]? x).map fun s => [.ofOpt s]
      else .error .attributeError
    | _ => .error .attributeError
  else
    refsOf c (decide (f ≠ lit! "referent")) v
      (if args = [] then none else some ((args.filter fun a => decide (a ≠ lit! ",")).map (stripChars (lit! "\""))))

/-! ### Tokens -/

/-- the characters of names: `[^.\/\[\]!=|()]` (xigtpath.py:44) -/
def nameCh (c : Char) : Bool :=
  !(c == '.' || c == '/' || c == '[' || c == ']' || c == '!' || c == '=' || c == '|' || c == '(' || c == ')')

/-- `"(?:\\.|[^\\"])*"` (xigtpath.py:34) -/
def quotedRe : Re := .cat [.chr '"',
  .star (.alt (.seq (.chr '\\') (.cls fun c => c != '\n')) (.cls fun c => c != '\\' && c != '"')), .chr '"']

/-- alternatives, the first that matches counts -/
def altRe : List Re → Re
  | [] => .cls fun _ => false
  | [r] => r
  | r :: rs => .alt r (altRe rs)

/-- xigtpath.py:33-45 `xp_tokenizer_re` -/
def tokenRe : Re := altRe [quotedRe,
  .seq (.chr '/') (.opt (.chr '/')),
  .seq (.chr '.') (.opt (.chr '.')),
  .chr '@', .chr '[', .chr ']', .chr '(', .chr ')', .chr '|',
  .str (lit! "!="), .chr '=',
  altRe [.str (lit! "text"), .str (lit! "value"), .str (lit! "referent"), .str (lit! "referrer")],
  .chr '*', .plus (.cls nameCh)]

/-- xigtpath.py:47-48 `tokenize` -/
def tokenize (path : Str) : List Str :=
  ((tokenRe.findAll path).map fun m => strip m.1).filter fun t => decide (t ≠ [])

/-! ### Predicates -/

/-- the tokens that end the path of a predicate -/
def predEnd (t : Str) : Bool := decide (t = lit! "]") || decide (t = lit! "=") || decide (t = lit! "!=")

/-- `any(v==val ...)`: only a string is equal to a string -/
def PV.isStr (val : Str) : PV → Bool
  | .str s => decide (s = val)
  | _ => false

/-- xigtpath.py:248-265 `_make_predicate_test`, after the `[`; `sub` is `iterfind` -/
def predTest (sub : PV → Str → Gen) (ts : List Str) : Py ((PV → Py Bool) × List Str) :=
  let path := (ts.takeWhile fun t => !predEnd t).flatten
  match ts.dropWhile fun t => !predEnd t with
  | [] => .error .indexError
  | t :: r =>
    if t = lit! "]" then .ok (fun v => do
      let _ ← (sub v path).toList
      .error .typeError, r)
    else match r with
      | val :: _ :: r' =>
        let val := stripChars (lit! "\"") val
        if t = lit! "=" then .ok (fun v => do
          let l ← (sub v path).toList
          return l.any (PV.isStr val), r')
        else .ok (fun v => do
          let l ← (sub v path).toList
          return l.all fun w => !PV.isStr val w, r')
      | _ => .error .indexError

/-- xigtpath.py:138-140; `n` bounds the number of predicates (the number of tokens is enough) -/
def predLoop (sub : PV → Str → Gen) : Nat → Gen → List Str → Py (Gen × List Str)
  | n + 1, g, t :: ts =>
    if t = lit! "[" then do
      let (p, r) ← predTest sub ts
      predLoop sub n (g.filter p) r
    else .ok (g, t :: ts)
  | _, g, ts => .ok (g, ts)

/-! ### Steps -/

/-- xigtpath.py:90: the loop of `_disjunction`; `alt` is the loop over the alternatives for one object.
Only the first one uses up tokens of the caller (xigtpath.py:87-89, 102). -/
def disj (alt : PV → List Str → Py (List PV × List Str)) (g : Gen) (ts : List Str) : Py (List PV × List Str) :=
  match g.vals with
  | [] => match g.err with
    | some e => .error e
    | none => .ok ([], ts)
  | v :: vs => do
    let (r, rest) ← alt v ts
    let rs ← mapPy (fun w => (alt w ts).map Prod.fst) vs
    match g.err with
    | some e => .error e
    | none => .ok (r ++ rs.flatten, rest)

/-- xigtpath.py:111-136: a step without its predicates -/
def node (c : PCfg) (alt : PV → List Str → Py (List PV × List Str)) (g : Gen) (t : Str) (ts : List Str) :
    Py (Gen × List Str) :=
  if t = lit! "(" then (disj alt g ts).map fun r => (⟨r.1, none⟩, r.2)
  else if t = lit! "//" then
    match ts with
    | name :: r => .ok (g.bind fun v => descSelf v name, r)
    | [] => .error .indexError
  else if t = lit! "@" then
    match ts with
    | attr :: r => .ok (g.bind fun v => .ofPy (findAttr v attr), r)
    | [] => .error .indexError
  else if t = lit! ".." then .ok (g.bind fun v => .ofPy ((parentOf v).map fun p => [p]), ts)
  else if t = lit! "." then .ok (g, ts)
  else if t = lit! "text" ∨ t = lit! "value" ∨ t = lit! "referent" ∨ t = lit! "referrer" then
    match ts with
    | [] => .error .indexError
    | _ :: r =>
      match r.dropWhile fun a => decide (a ≠ lit! ")") with
      | [] => .error .indexError
      | _ :: r' => .ok (g.bind fun v => .ofPy (function c v t (r.takeWhile fun a => decide (a ≠ lit! ")"))), r')
  else .ok (g.bind fun v => .ofPy (findChild v t), ts)

mutual
/-- xigtpath.py:106-146 `_step`.  Result: the generator and the tokens left.  `n` bounds the nesting
of calls (see `fuelFor`). -/
def step (c : PCfg) (sub : PV → Str → Gen) : Nat → Gen → List Str → Gen × List Str
  | 0, _, _ => (.fail .recursionError, [])
  | _ + 1, g, [] => (g, [])
  | n + 1, g, t :: ts =>
    match node c (altLoop c sub n) g t ts with
    | .error e => (.fail e, [])
    | .ok (g1, ts1) =>
      match predLoop sub ts1.length g1 ts1 with
      | .error e => (.fail e, [])
      | .ok (g2, []) => (g2, [])
      | .ok (g2, t2 :: ts2) =>
        if t2 = lit! "/" then step c sub n g2 ts2
        else if t2 = lit! "//" then step c sub n g2 (t2 :: ts2)
        else (g2, t2 :: ts2)
/-- xigtpath.py:72-83 `_expr` -/
def expr (c : PCfg) (sub : PV → Str → Gen) : Nat → PV → List Str → Gen × List Str
  | 0, _, _ => (.fail .recursionError, [])
  | _ + 1, _, [] => (.fail .indexError, [])
  | n + 1, v, t :: ts =>
    if t = lit! "(" then
      match disj (altLoop c sub n) ⟨[v], none⟩ ts with
      | .error e => (.fail e, [])
      | .ok (l, r) => (⟨l, none⟩, r)
    else if t = lit! "/" ∨ t = lit! "//" then
      match getCorpus v with
      | .error e => (.fail e, [])
      | .ok x => step c sub n ⟨[x], none⟩ (if t = lit! "/" then ts else t :: ts)
    else step c sub n ⟨[v], none⟩ (t :: ts)
/-- xigtpath.py:91-101: the alternatives for one object -/
def altLoop (c : PCfg) (sub : PV → Str → Gen) : Nat → PV → List Str → Py (List PV × List Str)
  | 0, _, _ => .error .recursionError
  | n + 1, v, ts =>
    match (expr c sub n v ts).1.err with
    | some e => .error e
    | none =>
      match (expr c sub n v ts).2 with
      | [] => .error .indexError
      | t :: r =>
        if t = lit! "|" then do
          let (l, r') ← altLoop c sub n v r
          .ok ((expr c sub n v ts).1.vals ++ l, r')
        else if t = lit! ")" then .ok ((expr c sub n v ts).1.vals, r)
        else .error .xigtPathError
end

/-- enough for `expr` -/
def fuelFor (ts : List Str) : Nat := 3 * ts.length + 2

/-- xigtpath.py:56-70 `iterfind`; `n` bounds the nesting of predicates -/
def iterfindN (c : PCfg) : Nat → PV → Str → Gen
  | 0, _, _ => .fail .recursionError
  | n + 1, v, path =>
    if path.getLast? = some '/' then .fail .xigtPathError
    else match tokenize path with
      | [] => ⟨[], none⟩
      | t :: ts => (expr c (iterfindN c n) (fuelFor (t :: ts)) v (t :: ts)).1

/-- xigtpath.py:56-70 `iterfind`: a path inside a path is shorter -/
def iterfind (c : PCfg) (v : PV) (path : Str) : Gen := iterfindN c (path.length + 1) v path

/-- xigtpath.py:53-54 `findall` -/
def findall (c : PCfg) (v : PV) (path : Str) : Py (List PV) := (iterfind c v path).toList

/-- xigtpath.py:50-51 `find` -/
def find (c : PCfg) (v : PV) (path : Str) : Py PV :=
  match (iterfind c v path).vals with
  | x :: _ => .ok x
  | [] => match (iterfind c v path).err with
    | some e => .error e
    | none => .ok .none
end

end Xigt.XP
