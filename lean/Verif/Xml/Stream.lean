import Verif.Xml.Model
import Verif.Corpus.Model
/-
Model of reading XML as a stream of events (/repo/xigt/codecs/xigtxml.py:53-55, 175-227).

`iterparse` reads its input in chunks; when an event is delivered, any number of later events may
have been parsed already, and their effect on the tree is visible.  The decoders run on such trees, and
clear the elements they have decoded.  Elements are known by the number of their start event.
-/

namespace Xigt

/-- an element with the number of its start event -/
inductive NElem where
  | mk (start : Nat) (tag : Str) (attrs nsmap : Dict Str Str) (text : Option Str) (kids : List NElem)

namespace NElem
/-- the number of its start event -/
def start : NElem → Nat
  | mk s _ _ _ _ _ => s
/-- `e.tag` -/
def tag : NElem → Str
  | mk _ t _ _ _ _ => t
end NElem

mutual
/-- how many events an element has -/
def PElem.events : PElem → Nat
  | .mk _ _ _ _ kids => PElem.eventsL kids + 2
/-- those of the children -/
def PElem.eventsL : List PElem → Nat
  | [] => 0
  | k :: ks => PElem.events k + PElem.eventsL ks
end

mutual
/-- number the elements -/
def number (s : Nat) : PElem → NElem
  | .mk tag attrs nsmap text kids => .mk s tag attrs (nsmap.getD []) text (numberL (s + 1) kids)
/-- the children -/
def numberL (s : Nat) : List PElem → List NElem
  | [] => []
  | k :: ks => number s k :: numberL (s + k.events) ks
end

/-- events of `ns_iterparse` (xigtxml.py:175-196) -/
inductive XEv where
  | start (e : NElem)
  | stop (e : NElem)

mutual
/-- the events of an element -/
def evs : NElem → List XEv
  | .mk s tag attrs nsmap text kids => .start (.mk s tag attrs nsmap text kids) :: (evsL kids ++ [.stop (.mk s tag attrs nsmap text kids)])
/-- those of the children -/
def evsL : List NElem → List XEv
  | [] => []
  | k :: ks => evs k ++ evsL ks
end

/-- what has happened: `n` events were delivered and `m` parsed; `clr i` is the number of events that
had been parsed when the i-th element was cleared (0 if it was not) -/
structure XSt where
  n : Nat
  m : Nat
  clr : Nat → Nat

mutual
/-- an element as it looks then: what was parsed after it was cleared, and its attributes if it was not -/
def view (s : XSt) : NElem → PElem
  | .mk i tag attrs nsmap text kids =>
    .mk tag (if s.clr i = 0 then attrs else []) (if s.clr i = 0 ∧ i < s.n then some nsmap else none)
      (if s.clr i ≤ i + 1 ∧ i + 1 < s.m then text else none) (viewL s (s.clr i) kids)
/-- the children parsed after their parent was cleared -/
def viewL (s : XSt) (c : Nat) : List NElem → List PElem
  | [] => []
  | k :: ks => (if c ≤ k.start ∧ k.start < s.m then [view s k] else []) ++ viewL s c ks
end

/-- the children there are then -/
def vkids (s : XSt) : NElem → List NElem
  | .mk i _ _ _ _ kids => kids.filter fun k => s.clr i ≤ k.start ∧ k.start < s.m

mutual
/-- the elements decoded with a MetaChild (xigtxml.py:338-350) -/
def visMc (s : XSt) : NElem → List Nat
  | .mk i _ _ _ _ kids => i :: visMcL s (s.clr i) kids
/-- xigtxml.py:345: the children -/
def visMcL (s : XSt) (c : Nat) : List NElem → List Nat
  | [] => []
  | k :: ks => (if c ≤ k.start ∧ k.start < s.m then visMc s k else []) ++ visMcL s c ks
end

/-- `elem.findall(tag)` (e.g. xigtxml.py:310) -/
def tagged (tag : Str) (l : List NElem) : List NElem := l.filter fun k => k.tag = tag

/-- those decoded with a metadata element (xigtxml.py:301-335) -/
def visMd (s : XSt) (e : NElem) : List Nat :=
  e.start :: (tagged (lit! "meta") (vkids s e)).flatMap (visMc s)

/-- with a tier (xigtxml.py:270-298) -/
def visTier (s : XSt) (e : NElem) : List Nat :=
  e.start :: ((tagged (lit! "metadata") (vkids s e)).flatMap (visMd s) ++ (tagged (lit! "item") (vkids s e)).map NElem.start)

/-- with an igt (xigtxml.py:254-267) -/
def visIgt (s : XSt) (e : NElem) : List Nat :=
  e.start :: ((tagged (lit! "metadata") (vkids s e)).flatMap (visMd s) ++ (tagged (lit! "tier") (vkids s e)).flatMap (visTier s))

/-- with the metadata of a corpus (xigtxml.py:245) -/
def visCorpus (s : XSt) (e : NElem) : List Nat := (tagged (lit! "metadata") (vkids s e)).flatMap (visMd s)

/-- `elem.clear()` -/
def clearAt (s : XSt) (l : List Nat) : Nat → Nat := fun i => if i ∈ l then s.m else s.clr i

/-- one more event is delivered; `look n` is how many have been parsed when the n-th is delivered -/
def advance (look : Nat → Nat) (n : Nat) (clr : Nat → Nat) : XSt := ⟨n + 1, max (n + 1) (look (n + 1)), clr⟩

section
variable [Uni]

/-- xigtxml.py:201-209, 218-225: the IGTs the generator yields; the last element is an exception if there
is one.  `next(events)` at the end of input raises RuntimeError in a generator. -/
def genIgts (look : Nat → Nat) (root : Nat) : Nat → (Nat → Nat) → List XEv → List (Py Obj)
  | _, _, [] => [.error .runtimeError]
  | n, clr, .start _ :: es => genIgts look root (n + 1) clr es
  | n, clr, .stop e :: es =>
    if e.tag = lit! "xigt-corpus" then []
    else if e.tag = lit! "igt" then
      match readIgt (view (advance look n clr) e) with
      | .error x => [.error x]
      | .ok x => .ok x :: genIgts look root (n + 1) (clearAt (advance look n clr) (root :: visIgt (advance look n clr) e)) es
    else genIgts look root (n + 1) clr es

/-- a corpus that was opened: the corpus without IGTs and what yields the IGTs -/
structure Opened where
  corpus : Obj
  igts : List (Py Obj)

/-- xigtxml.py:212-227 `default_decode` and 237-251 `default_decode_xigtcorpus`, without going through the
IGTs: `n` events were delivered, `es` are the next ones -/
def openLoop (look : Nat → Nat) (root : NElem) : Nat → List XEv → Py Opened
  | _, [] => .error .stopIteration
  | n, .start e :: es =>
    if e.tag = lit! "igt" then do
      let v := view (advance look n fun _ => 0) root
      let d ← xmlData .corpus [lit! "id"] (some (lit! "xigt-corpus")) v
      let ms ← mapPy readMd (findall v (lit! "metadata"))
      let x ← construct { d with type := none } ms []
      .ok ⟨x, genIgts look root.start (n + 1) (clearAt (advance look n fun _ => 0) (visCorpus (advance look n fun _ => 0) root)) es⟩
    else openLoop look root (n + 1) es
  | n, .stop e :: es =>
    if e.tag = lit! "xigt-corpus" then do
      let v := view (advance look n fun _ => 0) root
      let d ← xmlData .corpus [lit! "id"] (some (lit! "xigt-corpus")) v
      let ms ← mapPy readMd (findall v (lit! "metadata"))
      let ks ← mapPy readIgt (findall v (lit! "igt"))
      let x ← construct { d with type := none } ms []
      .ok ⟨x, ks.map .ok⟩
    else openLoop look root (n + 1) es

/-- xigtxml.py:53-55 `load` of a document with root element `e` -/
def openXml (look : Nat → Nat) (e : PElem) : Py Opened := openLoop look (number 0 e) 0 (evs (number 0 e))

/-- going through the IGTs (model.py:77-78): the first exception, or all of them -/
def drain : List (Py Obj) → Py (List Obj)
  | [] => .ok []
  | x :: xs => do
    let x ← x
    let xs ← drain xs
    return x :: xs

/-- `load` in full mode: model.py:69-78 adds the IGTs one after the other -/
def loadXml (look : Nat → Nat) (e : PElem) : Py Obj := do
  let o ← openXml look e
  let ks ← drain o.igts
  construct o.corpus.data o.corpus.md ks

/-- xigtxml.py:53-60, 75-80: `loads(dumps(xc, indent=ind))`; `look` is how the input is cut into chunks -/
def writeRead [XmlLex] (look : Nat → Nat) (ind : Option Int) (x : Obj) : Py Obj := do
  let e ← buildCorpus x
  let p ← parseElem [] (indent ind e)
  loadXml look p
end

end Xigt
