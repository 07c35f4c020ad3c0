import Verif.Json.Model
/-
The text layer of the JSON codec: how JSON values are written (`json.dumps` and `json.dump` with the
indentation of xigtjson.py:24-41; everything outside ASCII is escaped) and a reader of JSON text that
works character by character (`json.load`, `json.loads`, xigtjson.py:11-21).

The reader knows null, strings, arrays and objects (the codec writes nothing else) and rejects the other
values; it also rejects a half of a surrogate pair by itself, which python accepts (strings here have
no surrogates).
-/

namespace Xigt

/-! ### Writing -/

/-- a digit of `{0:04x}` -/
def hexDigit (n : Nat) : Char := "0123456789abcdef".toList.getD n '0'

/-- `'{0:04x}'.format(n)` -/
def hex4 (n : Nat) : Str := [hexDigit (n / 4096 % 16), hexDigit (n / 256 % 16), hexDigit (n / 16 % 16), hexDigit (n % 16)]

/-- `py_encode_basestring_ascii` of the module json: one character -/
def escJ (c : Char) : Str :=
  if c = '"' then lit! "\\\"" else if c = '\\' then lit! "\\\\" else if c = '\n' then lit! "\\n" else if c = '\r' then lit! "\\r"
  else if c = '\t' then lit! "\\t" else if c.toNat = 12 then lit! "\\f" else if c.toNat = 8 then lit! "\\b"
  else if 32 ≤ c.toNat ∧ c.toNat ≤ 126 then [c]
  else if c.toNat < 65536 then '\\' :: 'u' :: hex4 c.toNat
  else '\\' :: 'u' :: (hex4 (55296 + (c.toNat - 65536) / 1024) ++ '\\' :: 'u' :: hex4 (56320 + (c.toNat - 65536) % 1024))

/-- `py_encode_basestring_ascii` of the module json -/
def quoteJ (s : Str) : Str := '"' :: (s.flatMap escJ ++ ['"'])

/-- `'\n' + indent * level`, if there is an indentation -/
def newlineJ (ind : Option Int) (level : Nat) : Str :=
  match ind with
  | none => []
  | some i => '\n' :: List.replicate (i.toNat * level) ' '

/-- between members -/
def sepJ (ind : Option Int) (level : Nat) : Str :=
  match ind with
  | none => lit! ", "
  | some _ => ',' :: newlineJ ind level

mutual
/-- `_iterencode` of the module json -/
def dumpJ (ind : Option Int) (level : Nat) : J → Str
  | .null => lit! "null"
  | .str s => quoteJ s
  | .arr [] => lit! "[]"
  | .arr (x :: xs) => '[' :: (newlineJ ind (level + 1) ++ (dumpJ ind (level + 1) x ++ (dumpArr ind (level + 1) xs ++ (newlineJ ind level ++ [']']))))
  | .obj [] => lit! "{}"
  | .obj ((k, x) :: xs) =>
    '{' :: (newlineJ ind (level + 1) ++ (quoteJ k ++ (':' :: ' ' :: (dumpJ ind (level + 1) x ++ (dumpObj ind (level + 1) xs ++ (newlineJ ind level ++ ['}']))))))
/-- `_iterencode_list` after the first member -/
def dumpArr (ind : Option Int) (level : Nat) : List J → Str
  | [] => []
  | x :: xs => sepJ ind level ++ (dumpJ ind level x ++ dumpArr ind level xs)
/-- `_iterencode_dict` after the first member -/
def dumpObj (ind : Option Int) (level : Nat) : List (Str × J) → Str
  | [] => []
  | (k, x) :: xs => sepJ ind level ++ (quoteJ k ++ (':' :: ' ' :: (dumpJ ind level x ++ dumpObj ind level xs)))
end

/-- `json.dumps(j, indent=ind)` -/
def jsonDumps (ind : Option Int) (j : J) : Str := dumpJ ind 0 j

/-! ### Reading -/

/-- `WHITESPACE` of json.decoder -/
def jSpace (c : Char) : Bool := c = ' ' || c = '\t' || c = '\n' || c = '\r'

/-- the value of a digit in `\uXXXX` -/
def hexVal (c : Char) : Option Nat :=
  if '0' ≤ c ∧ c ≤ '9' then some (c.toNat - 48)
  else if 'a' ≤ c ∧ c ≤ 'f' then some (c.toNat - 87) else if 'A' ≤ c ∧ c ≤ 'F' then some (c.toNat - 55) else none

/-- where the reader is; `k`: the string is a key -/
inductive JMode where
  /-- before a value -/
  | val
  /-- after `[` -/
  | first
  /-- after `{` -/
  | key0
  /-- after `,` in an object -/
  | key
  /-- after a key -/
  | colon
  /-- after a value -/
  | after
  /-- in `null`: what is to come -/
  | null (rest : Str)
  /-- in a string -/
  | str (k : Bool) (acc : Str)
  /-- after a backslash -/
  | esc (k : Bool) (acc : Str)
  /-- in `\uXXXX`: `n` more digits, value so far -/
  | uni (k : Bool) (acc : Str) (n v : Nat)
  /-- after the first half of a pair -/
  | low (k : Bool) (acc : Str) (hi : Nat)
  /-- after the first half of a pair and a backslash -/
  | lowEsc (k : Bool) (acc : Str) (hi : Nat)
  /-- in the second half of a pair -/
  | lowUni (k : Bool) (acc : Str) (hi n v : Nat)

/-- an open array or object (with the key whose value is being read) -/
inductive JFrame where
  | arr (acc : List J)
  | obj (acc : List (Str × J)) (key : Str)

/-- a reader: what it is in the middle of, the open arrays and objects, and the value if it is complete -/
structure JRd where
  mode : JMode := .val
  stack : List JFrame := []
  root : Option J := none

/-- a complete value -/
def JRd.attach (r : JRd) (j : J) : JRd :=
  match r.stack with
  | [] => { r with mode := .after, root := some j }
  | .arr acc :: fs => { r with mode := .after, stack := .arr (acc ++ [j]) :: fs }
  | .obj acc k :: fs => { r with mode := .after, stack := .obj (Dict.set acc k j) k :: fs }

/-- a complete string -/
def JRd.string (r : JRd) (k : Bool) (s : Str) : Py JRd :=
  if k then
    match r.stack with
    | .obj acc _ :: fs => .ok { r with mode := .colon, stack := .obj acc s :: fs }
    | _ => .error .valueError
  else .ok (r.attach (.str s))

/-- the beginning of a value -/
def JRd.start (r : JRd) (c : Char) : Py JRd :=
  if c = '"' then .ok { r with mode := .str false [] }
  else if c = '[' then .ok { r with mode := .first, stack := .arr [] :: r.stack }
  else if c = '{' then .ok { r with mode := .key0, stack := .obj [] [] :: r.stack }
  else if c = 'n' then .ok { r with mode := .null (lit! "ull") }
  else .error .valueError

/-- the end of an array or object -/
def JRd.close (r : JRd) (c : Char) : Py JRd :=
  match r.stack with
  | .arr acc :: fs => if c = ']' then .ok ({ r with stack := fs }.attach (.arr acc)) else .error .valueError
  | .obj acc _ :: fs => if c = '}' then .ok ({ r with stack := fs }.attach (.obj acc)) else .error .valueError
  | [] => .error .valueError

/-- the character of a code point, in a string -/
def JRd.char (r : JRd) (k : Bool) (acc : Str) (n : Nat) : Py JRd :=
  if h : n.isValidChar then .ok { r with mode := .str k (acc ++ [Char.ofNatAux n h]) } else .error .valueError

/-- after `\uXXXX` -/
def JRd.unit (r : JRd) (k : Bool) (acc : Str) (v : Nat) : Py JRd :=
  if 55296 ≤ v ∧ v < 56320 then .ok { r with mode := .low k acc v } else r.char k acc v

/-- after `\uXXXX\uXXXX` -/
def JRd.pair (r : JRd) (k : Bool) (acc : Str) (hi v : Nat) : Py JRd :=
  if 56320 ≤ v ∧ v < 57344 then r.char k acc (65536 + (hi - 55296) * 1024 + (v - 56320)) else .error .valueError

/-- one character -/
def JRd.step (r : JRd) (c : Char) : Py JRd :=
  match r.mode with
  | .val => if jSpace c then .ok r else r.start c
  | .first => if jSpace c then .ok r else if c = ']' then r.close c else r.start c
  | .key0 => if jSpace c then .ok r else if c = '}' then r.close c else if c = '"' then .ok { r with mode := .str true [] } else .error .valueError
  | .key => if jSpace c then .ok r else if c = '"' then .ok { r with mode := .str true [] } else .error .valueError
  | .colon => if jSpace c then .ok r else if c = ':' then .ok { r with mode := .val } else .error .valueError
  | .after =>
    if jSpace c then .ok r
    else if c = ',' then
      match r.stack with
      | .arr _ :: _ => .ok { r with mode := .val }
      | .obj _ _ :: _ => .ok { r with mode := .key }
      | [] => .error .valueError
    else r.close c
  | .null rest =>
    match rest with
    | [] => .error .valueError
    | [d] => if c = d then .ok (r.attach .null) else .error .valueError
    | d :: ds => if c = d then .ok { r with mode := .null ds } else .error .valueError
  | .str k acc =>
    if c = '"' then r.string k acc
    else if c = '\\' then .ok { r with mode := .esc k acc }
    else if c.toNat < 32 then .error .valueError
    else .ok { r with mode := .str k (acc ++ [c]) }
  | .esc k acc =>
    if c = 'u' then .ok { r with mode := .uni k acc 4 0 }
    else if c = '"' ∨ c = '\\' ∨ c = '/' then .ok { r with mode := .str k (acc ++ [c]) }
    else if c = 'n' then .ok { r with mode := .str k (acc ++ ['\n']) }
    else if c = 'r' then .ok { r with mode := .str k (acc ++ ['\r']) }
    else if c = 't' then .ok { r with mode := .str k (acc ++ ['\t']) }
    else if c = 'f' then r.char k acc 12
    else if c = 'b' then r.char k acc 8
    else .error .valueError
  | .uni k acc n v =>
    match hexVal c with
    | none => .error .valueError
    | some d => if n ≤ 1 then r.unit k acc (v * 16 + d) else .ok { r with mode := .uni k acc (n - 1) (v * 16 + d) }
  | .low k acc hi => if c = '\\' then .ok { r with mode := .lowEsc k acc hi } else .error .valueError
  | .lowEsc k acc hi => if c = 'u' then .ok { r with mode := .lowUni k acc hi 4 0 } else .error .valueError
  | .lowUni k acc hi n v =>
    match hexVal c with
    | none => .error .valueError
    | some d => if n ≤ 1 then r.pair k acc hi (v * 16 + d) else .ok { r with mode := .lowUni k acc hi (n - 1) (v * 16 + d) }

/-- all characters -/
def JRd.run : JRd → Str → Py JRd
  | r, [] => .ok r
  | r, c :: cs => do
    let r ← r.step c
    r.run cs

/-- `json.loads(s)` -/
def jsonLoads (s : Str) : Py J := do
  let r ← JRd.run {} s
  match r.mode, r.stack, r.root with
  | .after, [], some j => .ok j
  | _, _, _ => .error .valueError

section
variable [Uni]
/-- xigtjson.py:36-41 `dumps(xc, indent=ind)` -/
def dumpsJson (ind : Option Int) (x : Obj) : Py Str := do
  let j ← encodeCorpus x
  return jsonDumps ind j

/-- xigtjson.py:20-21 `loads(s)` -/
def loadsJson (s : Str) : Py Obj := do
  let j ← jsonLoads s
  decodeCorpus j
end

end Xigt
