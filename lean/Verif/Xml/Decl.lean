import Verif.Xml.Stream
/-
The XML declaration, as expat reads it (doParseXmlDecl and parsePseudoAttribute of xmltok.c): the reader
that xigtxml.py:160 calls.
-/

namespace Xigt

/-- white space of XML (S) -/
def xmlSpace (c : Char) : Bool := c = ' ' || c = '\t' || c = '\n' || c = '\r'

/-- a byte order mark at the beginning is ignored -/
def dropBom : Str → Str
  | [] => []
  | c :: s => if c.toNat = 0xFEFF then s else c :: s

/-- characters in the values of a declaration -/
def declChar (c : Char) : Bool :=
  ('a' ≤ c ∧ c ≤ 'z') || ('A' ≤ c ∧ c ≤ 'Z') || ('0' ≤ c ∧ c ≤ '9') || c = '.' || c = '-' || c = '_'

/-- what is before and after the first `?>` -/
def cutPi : Str → Option (Str × Str)
  | '?' :: '>' :: s => some ([], s)
  | c :: s => (cutPi s).map fun p => (c :: p.1, p.2)
  | [] => none

/-- `name = "value"` with white space before it; also what is left -/
def pseudoAttr (s : Str) : Option (Str × Str × Str) :=
  match s with
  | c :: t =>
    if xmlSpace c then
      let t := t.dropWhile xmlSpace
      let k := t.takeWhile fun c => 'a' ≤ c ∧ c ≤ 'z'
      match (t.drop k.length).dropWhile xmlSpace with
      | '=' :: u =>
        match u.dropWhile xmlSpace with
        | q :: v =>
          if q = '"' || q = '\'' then
            let w := v.takeWhile declChar
            match v.drop w.length with
            | q' :: rest => if q' = q then some (k, w, rest) else none
            | [] => none
          else none
        | [] => none
      | _ => none
    else none
  | [] => none

/-- `yes` or `no` and nothing else -/
def standaloneOK (s : Str) : Bool :=
  match pseudoAttr s with
  | some (k, v, rest) => k = lit! "standalone" && (v = lit! "yes" || v = lit! "no") && rest.all xmlSpace
  | none => false

/-- names of encodings begin with a letter -/
def encodingOK : Str → Bool
  | [] => false
  | c :: _ => ('a' ≤ c ∧ c ≤ 'z') || ('A' ≤ c ∧ c ≤ 'Z')

/-- what stands between `<?xml` and `?>`: a version, then perhaps an encoding, then perhaps `standalone` -/
def xmlDeclOK (s : Str) : Bool :=
  match pseudoAttr s with
  | some (k, _, s) =>
    k = lit! "version" &&
      (s.all xmlSpace || (match pseudoAttr s with
        | some (k, v, s') => if k = lit! "encoding" then encodingOK v && (s'.all xmlSpace || standaloneOK s') else standaloneOK s
        | none => false))
  | none => false

/-- a document without its XML declaration -/
def dropDecl (s : Str) : Py Str :=
  if (lit! "<?xml").isPrefixOf s && (s.drop 5).head?.any xmlSpace then
    match cutPi (s.drop 5) with
    | some (d, rest) => if xmlDeclOK d then .ok rest else .error .parseError
    | none => .error .parseError
  else .ok s

end Xigt
