import Verif.Path.Model
/-
Paths as a grammar, with the strings they are written as (the grammar at the head of
/repo/xigt/xigtpath.py:9-27, as far as it is supported).
-/

namespace Xigt.XP
variable [Uni]

/-- the words the tokenizer knows (xigtpath.py:43) -/
def keywords : List Str := [lit! "text", lit! "value", lit! "referent", lit! "referrer"]

/-- names that can be written in a path as they are -/
structure PlainName (n : Str) : Prop where
  chars : ∀ c ∈ n, nameCh c = true
  head : ∃ c cs, n = c :: cs ∧ c ≠ '"' ∧ c ≠ '@' ∧ c ≠ '*' ∧ Uni.isSpace c = false
  last : ∃ c cs, n = cs ++ [c] ∧ Uni.isSpace c = false
  kw : ∀ k ∈ keywords, ¬ k <+: n

/-- values that can be written between quotes as they are -/
def Quotable (v : Str) : Prop := '"' ∉ v ∧ '\\' ∉ v

def quote (v : Str) : Str := '"' :: (v ++ ['"'])

mutual
inductive PPath where
  | rel (s : PSteps)        -- `a/b/...`
  | abs (s : PSteps)        -- `/a/b/...` or `//a/b/...`
  | group (a : PAlts)       -- `(p|q|...)`
inductive PSteps where
  | last (n : PNode) (ps : PPreds)
  | more (n : PNode) (ps : PPreds) (r : PSteps)
inductive PNode where
  | child (n : Str)
  | desc (n : Str)          -- `//n`, the slashes are also those that separate the steps
  | attr (n : Str)
  | parent
  | self
  | fn (f : Str) (arg : Option Str)
  | alts (a : PAlts)
inductive PAlts where
  | one (p : PPath)
  | more (p : PPath) (r : PAlts)
inductive PPreds where
  | nil
  | eq (p : PPath) (v : Str) (r : PPreds)
  | ne (p : PPath) (v : Str) (r : PPreds)
  | ex (p : PPath) (r : PPreds)     -- `[p]`
end

def PNode.isDesc : PNode → Bool
  | .desc _ => true
  | _ => false
def PNode.isAlts : PNode → Bool
  | .alts _ => true
  | _ => false
def PSteps.first : PSteps → PNode
  | .last n _ => n
  | .more n _ _ => n

/-- the separator before steps -/
def sep (s : PSteps) : List Str := if s.first.isDesc = true then [] else [lit! "/"]

mutual
/-- the tokens of a path -/
def PPath.toks : PPath → List Str
  | .rel s => s.toks
  | .abs s => sep s ++ s.toks
  | .group a => lit! "(" :: (a.toks ++ [lit! ")"])
def PSteps.toks : PSteps → List Str
  | .last n ps => n.toks ++ ps.toks
  | .more n ps r => n.toks ++ (ps.toks ++ (sep r ++ r.toks))
def PNode.toks : PNode → List Str
  | .child n => [n]
  | .desc n => [lit! "//", n]
  | .attr n => [lit! "@", n]
  | .parent => [lit! ".."]
  | .self => [lit! "."]
  | .fn f none => [f, lit! "(", lit! ")"]
  | .fn f (some a) => [f, lit! "(", quote a, lit! ")"]
  | .alts a => lit! "(" :: (a.toks ++ [lit! ")"])
def PAlts.toks : PAlts → List Str
  | .one p => p.toks
  | .more p r => p.toks ++ lit! "|" :: r.toks
def PPreds.toks : PPreds → List Str
  | .nil => []
  | .eq p v r => lit! "[" :: (p.toks ++ lit! "=" :: quote v :: lit! "]" :: r.toks)
  | .ne p v r => lit! "[" :: (p.toks ++ lit! "!=" :: quote v :: lit! "]" :: r.toks)
  | .ex p r => lit! "[" :: (p.toks ++ lit! "]" :: r.toks)
end

/-- the path as a string -/
def PPath.render (p : PPath) : Str := p.toks.flatten

/-- no predicate in the path -/
def PPreds.isNil : PPreds → Bool
  | .nil => true
  | _ => false

mutual
def PPath.NoPred : PPath → Prop
  | .rel s => s.NoPred
  | .abs s => s.NoPred
  | .group a => a.NoPred
def PSteps.NoPred : PSteps → Prop
  | .last n ps => n.NoPred ∧ ps.isNil = true
  | .more n ps r => n.NoPred ∧ ps.isNil = true ∧ r.NoPred
def PNode.NoPred : PNode → Prop
  | .alts a => a.NoPred
  | _ => True
def PAlts.NoPred : PAlts → Prop
  | .one p => p.NoPred
  | .more p r => p.NoPred ∧ r.NoPred
end

/-- no alternatives in the steps -/
def PSteps.NoAlts : PSteps → Prop
  | .last n _ => n.isAlts = false
  | .more n _ r => n.isAlts = false ∧ r.NoAlts

/-- no alternatives after the first step -/
def PSteps.Tight : PSteps → Prop
  | .last _ _ => True
  | .more _ _ r => r.NoAlts

def PPath.Tight : PPath → Prop
  | .rel s => s.Tight
  | .abs s => s.Tight
  | .group _ => True

mutual
/-- paths that can be written: names and values are plain, relative paths begin neither with `//` nor
with `(`, paths in predicates have no predicates, and paths in alternatives have no alternatives after
their first step -/
def PPath.Ok : PPath → Prop
  | .rel s => s.Ok ∧ s.first.isDesc = false ∧ s.first.isAlts = false
  | .abs s => s.Ok
  | .group a => a.Ok
def PSteps.Ok : PSteps → Prop
  | .last n ps => n.Ok ∧ ps.Ok
  | .more n ps r => n.Ok ∧ ps.Ok ∧ r.Ok
def PNode.Ok : PNode → Prop
  | .child n => PlainName n ∨ n = lit! "*"
  | .desc n => PlainName n ∨ n = lit! "*"
  | .attr n => PlainName n ∨ n = lit! "*"
  | .fn f none => f ∈ keywords
  | .fn f (some a) => f ∈ keywords ∧ Quotable a
  | .alts a => a.Ok
  | _ => True
def PAlts.Ok : PAlts → Prop
  | .one p => p.Ok ∧ p.Tight
  | .more p r => p.Ok ∧ p.Tight ∧ r.Ok
def PPreds.Ok : PPreds → Prop
  | .nil => True
  | .eq p v r => p.Ok ∧ p.NoPred ∧ Quotable v ∧ r.Ok
  | .ne p v r => p.Ok ∧ p.NoPred ∧ Quotable v ∧ r.Ok
  | .ex p r => p.Ok ∧ p.NoPred ∧ r.Ok
end

end Xigt.XP

namespace Xigt.XP

/-- `l` lists the results of `f` for one object after the other -/
inductive ForEach (f : PV → Py (List PV)) : List PV → List PV → Prop
  | nil : ForEach f [] []
  | cons {y ys a b} : f y = .ok a → ForEach f ys b → ForEach f (y :: ys) (a ++ b)

/-- `l` consists of the objects with `keep`, in order; the others have `drop` -/
inductive Kept (keep drop : PV → Prop) : List PV → List PV → Prop
  | nil : Kept keep drop [] []
  | keep {y ys l} : keep y → Kept keep drop ys l → Kept keep drop (y :: ys) (y :: l)
  | drop {y ys l} : drop y → Kept keep drop ys l → Kept keep drop (y :: ys) l

/-- not of the form `(...)` -/
def PPath.isGroup : PPath → Bool
  | .group _ => true
  | _ => false
/-- beginning with `/` -/
def PPath.isAbs : PPath → Bool
  | .abs _ => true
  | _ => false

mutual
/-- an object and everything in it in document order (metadata before contents), each with the
objects around it -/
def allIn (up : List Obj) : Obj → List (Obj × List Obj)
  | .mk d md kids => (.mk d md kids, up) :: (allOf (.mk d md kids :: up) md ++ allOf (.mk d md kids :: up) kids)
def allOf (up : List Obj) : List Obj → List (Obj × List Obj)
  | [] => []
  | x :: xs => allIn up x ++ allOf up xs
end

/-- the name of an object in documents -/
def tagOf (x : Obj) : Option Str :=
  match x.cls with
  | .corpus => some (lit! "xigt-corpus")
  | .igt => some (lit! "igt")
  | .tier => some (lit! "tier")
  | .item => some (lit! "item")
  | .metadata => some (lit! "metadata")
  | .metaC => some (lit! "meta")
  | .metaChild => x.data.name

def asNode (p : Obj × List Obj) : PV := .node p.1 p.2

end Xigt.XP
