/-
Python primitives used by the models (strings, exceptions, ints, lists, dicts).

Nothing here comes from /repo; it is the reading of the Python language itself that all models
share, and belongs to the trusted base (see DESIGN.md).
-/

namespace Xigt

/-- Python `str` as a list of code points. (Python also allows lone surrogates; not modelled.) -/
abbrev Str := List Char

/-- `lit! "abc"` is the `Str` `['a','b','c']`, so that literals reduce in the kernel. -/
macro "lit! " s:str : term => do
  let cs : List Char := s.getString.toList
  let xs : List (Lean.TSyntax `term) := cs.map (fun c => ⟨Lean.Syntax.mkCharLit c⟩)
  let arr := xs.toArray
  `(([$arr,*] : List Char))

/-- Exception classes that the modelled code raises or lets through; messages are dropped. -/
inductive PyErr where
  | keyError | indexError | typeError | valueError | attributeError | recursionError
  | stopIteration | assertionError | nameError | unboundLocal | parseError | runtimeError
  | xigtError | xigtStructureError | xigtLookupError | xigtPathError | xigtImportError
  deriving DecidableEq, Repr

deriving instance DecidableEq for Except

/-- A Python computation: an exception or a result. -/
abbrev Py (α : Type) := Except PyErr α

/-- The Unicode facts about `str` methods and `re` classes that theorems rely on.
`isWord` = `\w`, `isSpace` = `\s` = `str.isspace` (also what `strip()` strips),
`digit c = some n` iff `c` matches `\d`, with its decimal value as used by `int()`. -/
class Uni where
  isWord : Char → Bool
  isSpace : Char → Bool
  digit : Char → Option Nat
  digit_word : ∀ c n, digit c = some n → isWord c = true
  digit_lt : ∀ c n, digit c = some n → n < 10
  space_not_word : ∀ c, isSpace c = true → isWord c = false
  ascii_word : ∀ c : Char, c.toNat < 128 → isWord c =
    ((48 ≤ c.toNat && c.toNat ≤ 57) || (65 ≤ c.toNat && c.toNat ≤ 90) || c.toNat == 95
      || (97 ≤ c.toNat && c.toNat ≤ 122))
  ascii_space : ∀ c : Char, c.toNat < 128 →
    isSpace c = ((9 ≤ c.toNat && c.toNat ≤ 13) || (28 ≤ c.toNat && c.toNat ≤ 32))
  ascii_digit : ∀ c : Char, c.toNat < 128 →
    digit c = if 48 ≤ c.toNat ∧ c.toNat ≤ 57 then some (c.toNat - 48) else none

namespace Uni
variable [Uni]
/-- `\d` -/
def isDigit (c : Char) : Bool := (digit c).isSome
end Uni

/-- The smallest instance: no character outside ASCII is a word character, space or digit.
Used for concrete examples only. -/
@[reducible] def asciiUni : Uni where
  isWord c := (48 ≤ c.toNat && c.toNat ≤ 57) || (65 ≤ c.toNat && c.toNat ≤ 90) || c.toNat == 95
      || (97 ≤ c.toNat && c.toNat ≤ 122)
  isSpace c := (9 ≤ c.toNat && c.toNat ≤ 13) || (28 ≤ c.toNat && c.toNat ≤ 32)
  digit c := if 48 ≤ c.toNat ∧ c.toNat ≤ 57 then some (c.toNat - 48) else none
  digit_word := by
    intro c n h; split at h <;> simp_all
  digit_lt := by
    intro c n h; split at h <;> simp_all; omega
  space_not_word := by
    intro c h
    simp only [Bool.or_eq_true, Bool.and_eq_true, decide_eq_true_eq] at h
    simp only [Bool.or_eq_false_iff, Bool.and_eq_false_iff, decide_eq_false_iff_not,
      beq_eq_false_iff_ne, ne_eq]
    omega
  ascii_word := by intro c h; rfl
  ascii_space := by intro c _; rfl
  ascii_digit := by intro c _; rfl

/-! ### Strings -/

section
variable [Uni]

/-- `s.lstrip()` -/
def lstrip (s : Str) : Str := s.dropWhile Uni.isSpace
/-- `s.strip()` -/
def strip (s : Str) : Str := ((lstrip s).reverse.dropWhile Uni.isSpace).reverse
end

/-- `s.strip(chars)` -/
def stripChars (chars : Str) (s : Str) : Str :=
  (((s.dropWhile (chars.contains ·)).reverse).dropWhile (chars.contains ·)).reverse

/-- `sep.join(xs)` -/
def join (sep : Str) : List Str → Str
  | [] => []
  | [x] => x
  | x :: y :: ys => x ++ sep ++ join sep (y :: ys)

/-- `s.split(c, 1)` for a one-character separator that occurs, `none` when it does not occur. -/
def splitOnce (c : Char) : Str → Option (Str × Str)
  | [] => none
  | x :: xs => if x = c then some ([], xs)
    else match splitOnce c xs with
      | some (a, b) => some (x :: a, b)
      | none => none

/-! ### Integers -/

section
variable [Uni]

/-- digits with single underscores between them, as accepted by `int()`;
`acc` is the value so far, `sep` tells whether an underscore was just read. -/
def parseDigits : Str → Nat → Bool → Option Nat
  | [], acc, sep => if sep then none else some acc
  | c :: cs, acc, sep =>
    if c = '_' then (if sep then none else parseDigits cs acc true)
    else match Uni.digit c with
      | some d => parseDigits cs (acc * 10 + d) false
      | none => none

/-- unsigned part of `int(s)` -/
def parseNat (s : Str) : Option Nat :=
  match s with
  | [] => none
  | c :: cs => match Uni.digit c with
    | some d => parseDigits cs d false
    | none => none

/-- `int(s)` for a `str` (base 10): white space stripped, optional sign, digits. -/
def pyInt (s : Str) : Py Int :=
  match strip s with
  | [] => .error .valueError
  | c :: cs =>
    if c = '-' then
      match parseNat cs with
      | some n => .ok (-(n : Int))
      | none => .error .valueError
    else if c = '+' then
      match parseNat cs with
      | some n => .ok (n : Int)
      | none => .error .valueError
    else match parseNat (c :: cs) with
      | some n => .ok (n : Int)
      | none => .error .valueError
end

/-- digit character of `n < 10` -/
def digitChar (n : Nat) : Char :=
  match n with
  | 0 => '0' | 1 => '1' | 2 => '2' | 3 => '3' | 4 => '4'
  | 5 => '5' | 6 => '6' | 7 => '7' | 8 => '8' | _ => '9'

/-- `str(n)` for a natural number (fuel = number of digits at most `n+1`). -/
def natStrAux : Nat → Nat → Str
  | 0, _ => []
  | f + 1, n => if n < 10 then [digitChar n] else natStrAux f (n / 10) ++ [digitChar (n % 10)]

/-- `str(n)` for a natural number -/
def natStr (n : Nat) : Str := natStrAux (n + 1) n

/-- `str(i)` for an integer -/
def intStr : Int → Str
  | .ofNat n => natStr n
  | .negSucc n => '-' :: natStr (n + 1)

/-! ### Lists -/

/-- position addressed by a Python index in a list of length `n` -/
def pyIdx (n : Nat) (i : Int) : Option Nat :=
  if 0 ≤ i then (if i < n then some i.toNat else none)
  else if 0 ≤ i + n then some (i + n).toNat else none

/-- `list.__getitem__(xs, i)` -/
def pyGet {α} (xs : List α) (i : Int) : Py α :=
  match pyIdx xs.length i with
  | some k => match xs[k]? with
    | some x => .ok x
    | none => .error .indexError
  | none => .error .indexError

/-- a slice bound clipped to `0..n` (Python's `PySlice_AdjustIndices`, step 1) -/
def clip (n : Nat) (i : Int) : Nat :=
  if i < 0 then (i + n).toNat else min i.toNat n

/-- `xs[a:b]` with optional bounds (step 1) -/
def pySlice {α} (xs : List α) (a b : Option Int) : List α :=
  let n := xs.length
  let lo := match a with | none => 0 | some i => clip n i
  let hi := match b with | none => n | some i => clip n i
  (xs.drop lo).take (hi - lo)

/-- `list.insert(i, x)`: the bound is clipped -/
def pyInsert {α} (xs : List α) (i : Int) (x : α) : List α :=
  let k := clip xs.length i
  xs.take k ++ x :: xs.drop k

/-! ### Dicts: association lists in insertion order -/

/-- Python `dict` with keys of decidable equality, in insertion order. -/
abbrev Dict (κ ν : Type) := List (κ × ν)

namespace Dict
variable {κ ν : Type} [DecidableEq κ]

/-- `d.get(k)` -/
def get? : Dict κ ν → κ → Option ν
  | [], _ => none
  | (k', v) :: d, k => if k' = k then some v else get? d k

/-- `k in d` -/
def has (d : Dict κ ν) (k : κ) : Bool := (get? d k).isSome

/-- `d[k] = v` -/
def set : Dict κ ν → κ → ν → Dict κ ν
  | [], k, v => [(k, v)]
  | (k', v') :: d, k, v => if k' = k then (k', v) :: d else (k', v') :: set d k v

/-- `del d[k]` (first and only entry with the key) -/
def del : Dict κ ν → κ → Dict κ ν
  | [], _ => []
  | (k', v') :: d, k => if k' = k then d else (k', v') :: del d k

/-- `d[k]` -/
def getItem (d : Dict κ ν) (k : κ) : Py ν :=
  match get? d k with
  | some v => .ok v
  | none => .error .keyError

/-- `d.update(e)` -/
def update (d e : Dict κ ν) : Dict κ ν := e.foldl (fun acc p => set acc p.1 p.2) d

/-- keys in insertion order -/
def keys (d : Dict κ ν) : List κ := d.map Prod.fst

/-- dict equality: same keys, same values (order irrelevant) -/
def beq [DecidableEq ν] (d e : Dict κ ν) : Bool :=
  d.all (fun p => decide (get? e p.1 = some p.2)) && e.all (fun p => decide (get? d p.1 = some p.2))

/-- a genuine dict has no key twice -/
def WF (d : Dict κ ν) : Prop := (keys d).Nodup

end Dict
end Xigt
