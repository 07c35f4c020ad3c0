import Verif.Xml.Document
import Verif.Import.RespaceProps
import Verif.Import.NumLemmas
/-
Writing and reading bytes in any encoding (xigtxml.py:53-80 `load`, `loads`, `dump`, `dumps` with
`encoding=`), as ElementTree.write, tostring and expat do: C117 and C118.

Encodings are those in which ASCII characters are their own bytes.  Characters that an encoding lacks are
written as references (`errors='xmlcharrefreplace'`), wherever they stand.  The parser takes the encoding from the
XML declaration and UTF-8 without one; which names it knows is left open.  Byte order marks and UTF-16 are not
modelled.
-/

set_option linter.unusedSectionVars false

namespace Xigt.Byt
open Xigt.Tbx (Bytes chr utf8 latin1 two three four cont)

/-! ### Model -/

/-- a character encoding: the bytes of a character if it has any, and what bytes stand for -/
structure Coding where
  enc : Char → Option Bytes
  dec : Bytes → Py Str

/-- ASCII is ASCII, and what was encoded can be decoded -/
structure Coding.Law (k : Coding) : Prop where
  ascii : ∀ c : Char, c.toNat < 128 → k.enc c = some [UInt8.ofNat c.toNat]
  dec_enc : ∀ s : Str, (∀ c ∈ s, k.enc c ≠ none) → k.dec (s.flatMap fun c => (k.enc c).getD []) = .ok s

/-- `xmlcharrefreplace` of a character -/
def charRef (c : Char) : Str := '&' :: ('#' :: natStr c.toNat ++ [';'])

/-- `s.encode(enc, 'xmlcharrefreplace')`, still as characters -/
def replaced (k : Coding) (s : Str) : Str := s.flatMap fun c => if (k.enc c).isSome then [c] else charRef c

/-- `s.encode(enc, 'xmlcharrefreplace')` -/
def encode (k : Coding) (s : Str) : Bytes := (replaced k s).flatMap fun c => (k.enc c).getD []

/-- the XML declaration that `ElementTree.write` puts first: none for utf-8 and us-ascii -/
def declaration (name : Str) : Str :=
  if name.map Char.toLower = lit! "utf-8" ∨ name.map Char.toLower = lit! "us-ascii" then []
  else lit! "<?xml version='1.0' encoding='" ++ name ++ lit! "'?>\n"

/-- the encoding that the XML declaration names -/
def declared (b : Bytes) : Option Str :=
  let s := b.map chr
  if (lit! "<?xml").isPrefixOf s && (s.drop 5).head?.any xmlSpace then
    match cutPi (s.drop 5) with
    | some (d, _) =>
      match pseudoAttr d with
      | some (_, _, d) =>
        match pseudoAttr d with
        | some (k, v, _) => if k = lit! "encoding" then some v else none
        | none => none
      | none => none
    | none => none
  else none

/-- the text of a document in bytes; `known` are the encodings the parser knows by name -/
def decode (known : Str → Option (Bytes → Py Str)) (b : Bytes) : Py Str :=
  match declared b with
  | none => (utf8 b).mapError fun _ => .parseError
  | some n => match known n with
    | none => .error .parseError
    | some dec => (dec b).mapError fun _ => .parseError

section
variable [Uni] [XmlLex]
/-- xigtxml.py:63-80: `dump(f, xc, encoding=name, indent=ind)`, what is written; the same that
`dumps(xc, encoding=name, indent=ind)` returns (`name` is not 'unicode', with which characters are written) -/
def dumpBytes (name : Str) (k : Coding) (ind : Option Int) (x : Obj) : Py Bytes := do
  let s ← dumpsXml ind x
  return encode k (declaration name ++ s)

/-- xigtxml.py:53-55: `load(f)` of a file with these bytes -/
def loadBytes (known : Str → Option (Bytes → Py Str)) (look : Nat → Nat) (b : Bytes) : Py Obj := do
  let s ← decode known b
  loadsXml look s

/-- xigtxml.py:58-60: `loads(b)` of bytes, decoded as UTF-8 whatever they are -/
def loadsBytes (look : Nat → Nat) (b : Bytes) : Py Obj := do
  let s ← utf8 b
  loadsXml look s
end

/-- US-ASCII -/
def ascii : Coding where
  enc c := if c.toNat < 128 then some [UInt8.ofNat c.toNat] else none
  dec b := if b.all (· < 128) then .ok (b.map chr) else .error .valueError

/-- ISO 8859-1 -/
def isoLatin1 : Coding where
  enc c := if c.toNat < 256 then some [UInt8.ofNat c.toNat] else none
  dec := latin1

/-- the bytes of a character in UTF-8 -/
def utf8Char (c : Char) : Bytes :=
  let n := c.toNat
  if n < 0x80 then [UInt8.ofNat n]
  else if n < 0x800 then [UInt8.ofNat (0xC0 + n / 64), UInt8.ofNat (0x80 + n % 64)]
  else if n < 0x10000 then [UInt8.ofNat (0xE0 + n / 4096), UInt8.ofNat (0x80 + n / 64 % 64), UInt8.ofNat (0x80 + n % 64)]
  else [UInt8.ofNat (0xF0 + n / 262144), UInt8.ofNat (0x80 + n / 4096 % 64), UInt8.ofNat (0x80 + n / 64 % 64), UInt8.ofNat (0x80 + n % 64)]

/-- UTF-8 -/
def utf8Coding : Coding where
  enc c := some (utf8Char c)
  dec := utf8

/-! ### The encodings -/

theorem chr_ofNat {c : Char} (h : c.toNat < 256) : chr (UInt8.ofNat c.toNat) = c := by
  rw [chr, UInt8.toNat_ofNat_of_lt' (by simpa using h)]
  exact Char.ofNat_toNat c

theorem ascii_law : ascii.Law where
  ascii c h := by simp [ascii, h]
  dec_enc s h := by
    have hs : ∀ c ∈ s, c.toNat < 128 := by
      intro c hc
      have := h c hc
      simp only [ascii] at this
      split at this
      · assumption
      · exact absurd rfl this
    have e : (s.flatMap fun c => (ascii.enc c).getD []) = s.map fun c => UInt8.ofNat c.toNat := by
      clear h
      induction s with
      | nil => rfl
      | cons c s ih =>
        rw [List.flatMap_cons, ih (fun c h => hs c (by simp [h]))]
        simp [ascii, hs c (by simp)]
    rw [e]
    simp only [ascii]
    rw [if_pos, List.map_map]
    · congr 1
      calc _ = s.map id := List.map_congr_left fun c hc => chr_ofNat (Nat.lt_trans (hs c hc) (by omega))
        _ = s := List.map_id s
    · rw [List.all_eq_true]
      intro b hb
      obtain ⟨c, hc, rfl⟩ := List.mem_map.1 hb
      have := hs c hc
      rw [decide_eq_true_eq, UInt8.lt_iff_toNat_lt, UInt8.toNat_ofNat_of_lt' (by show c.toNat < 256; omega)]
      exact this

theorem isoLatin1_law : isoLatin1.Law where
  ascii c h := by simp only [isoLatin1]; rw [if_pos (by omega)]
  dec_enc s h := by
    have hs : ∀ c ∈ s, c.toNat < 256 := by
      intro c hc
      have := h c hc
      simp only [isoLatin1] at this
      split at this
      · assumption
      · exact absurd rfl this
    have e : (s.flatMap fun c => (isoLatin1.enc c).getD []) = s.map fun c => UInt8.ofNat c.toNat := by
      clear h
      induction s with
      | nil => rfl
      | cons c s ih =>
        rw [List.flatMap_cons, ih (fun c h => hs c (by simp [h]))]
        simp [isoLatin1, hs c (by simp)]
    rw [e]
    simp only [isoLatin1, latin1, List.map_map]
    congr 1
    calc _ = s.map id := List.map_congr_left fun c hc => chr_ofNat (hs c hc)
      _ = s := List.map_id s

theorem u8 {n : Nat} (h : n < 256) : (UInt8.ofNat n).toNat = n := UInt8.toNat_ofNat_of_lt' (by simpa using h)

theorem utf8_char (c : Char) (b : Bytes) : utf8 (utf8Char c ++ b) = (utf8 b).map (c :: ·) := by
  have hv : c.toNat < 0xD800 ∨ (0xDFFF < c.toNat ∧ c.toNat < 0x110000) := c.valid
  have hc : Char.ofNat c.toNat = c := Char.ofNat_toNat c
  unfold utf8Char
  dsimp only
  generalize c.toNat = n at hv hc
  split
  · rename_i h
    rw [List.cons_append, List.nil_append, utf8.eq_def]
    simp only [UInt8.lt_iff_toNat_lt, u8 (show n < 256 by omega), chr, hc]
    rw [if_pos (by simpa using h)]
  split
  · rename_i h1 h2
    rw [List.cons_append, List.cons_append, List.nil_append, utf8.eq_def]
    have g1 := u8 (show 0xC0 + n / 64 < 256 by omega)
    have g2 := u8 (show 0x80 + n % 64 < 256 by omega)
    generalize UInt8.ofNat (0xC0 + n / 64) = a at g1
    generalize UInt8.ofNat (0x80 + n % 64) = a2 at g2
    have k1 : ¬ a < 0x80 := by rw [UInt8.lt_iff_toNat_lt, g1]; simp; omega
    have k2 : two a a2 = true := by
      simp only [two, cont, Bool.and_eq_true, decide_eq_true_eq, UInt8.le_iff_toNat_le, g1, g2]
      simp; omega
    simp only [if_neg k1, if_pos k2, g1, g2]
    rw [show (0xC0 + n / 64 - 0xC0) * 64 + (0x80 + n % 64 - 0x80) = n by omega, hc]
  split
  · rename_i h1 h2 h3
    rw [List.cons_append, List.cons_append, List.cons_append, List.nil_append, utf8.eq_def]
    have g1 := u8 (show 0xE0 + n / 4096 < 256 by omega)
    have g2 := u8 (show 0x80 + n / 64 % 64 < 256 by omega)
    have g3 := u8 (show 0x80 + n % 64 < 256 by omega)
    generalize UInt8.ofNat (0xE0 + n / 4096) = a at g1
    generalize UInt8.ofNat (0x80 + n / 64 % 64) = a2 at g2
    generalize UInt8.ofNat (0x80 + n % 64) = a3 at g3
    have k1 : ¬ a < 0x80 := by rw [UInt8.lt_iff_toNat_lt, g1]; simp; omega
    have k2 : ¬ two a a2 = true := by
      simp only [two, cont, Bool.and_eq_true, decide_eq_true_eq, UInt8.le_iff_toNat_le, g1, g2]
      simp; omega
    have k3 : three a a2 a3 = true := by
      simp only [three, cont, Bool.and_eq_true, Bool.or_eq_true, beq_iff_eq, ← UInt8.toNat_inj, decide_eq_true_eq, UInt8.le_iff_toNat_le, g1, g2, g3]
      simp; omega
    simp only [if_neg k1, if_neg k2, if_pos k3, g1, g2, g3]
    rw [show ((0xE0 + n / 4096 - 0xE0) * 64 + (0x80 + n / 64 % 64 - 0x80)) * 64 + (0x80 + n % 64 - 0x80) = n by omega, hc]
  · rename_i h1 h2 h3
    rw [List.cons_append, List.cons_append, List.cons_append, List.cons_append, List.nil_append, utf8.eq_def]
    have g1 := u8 (show 0xF0 + n / 262144 < 256 by omega)
    have g2 := u8 (show 0x80 + n / 4096 % 64 < 256 by omega)
    have g3 := u8 (show 0x80 + n / 64 % 64 < 256 by omega)
    have g4 := u8 (show 0x80 + n % 64 < 256 by omega)
    generalize UInt8.ofNat (0xF0 + n / 262144) = a at g1
    generalize UInt8.ofNat (0x80 + n / 4096 % 64) = a2 at g2
    generalize UInt8.ofNat (0x80 + n / 64 % 64) = a3 at g3
    generalize UInt8.ofNat (0x80 + n % 64) = a4 at g4
    have k1 : ¬ a < 0x80 := by rw [UInt8.lt_iff_toNat_lt, g1]; simp; omega
    have k2 : ¬ two a a2 = true := by
      simp only [two, cont, Bool.and_eq_true, decide_eq_true_eq, UInt8.le_iff_toNat_le, g1, g2]
      simp; omega
    have k3 : ¬ three a a2 a3 = true := by
      simp only [three, cont, Bool.and_eq_true, Bool.or_eq_true, beq_iff_eq, ← UInt8.toNat_inj, decide_eq_true_eq, UInt8.le_iff_toNat_le, g1, g2, g3]
      simp; omega
    have k4 : four a a2 a3 a4 = true := by
      simp only [four, cont, Bool.and_eq_true, Bool.or_eq_true, beq_iff_eq, ← UInt8.toNat_inj, decide_eq_true_eq, UInt8.le_iff_toNat_le, g1, g2, g3, g4]
      simp; omega
    simp only [if_neg k1, if_neg k2, if_neg k3, if_pos k4, g1, g2, g3, g4]
    rw [show (((0xF0 + n / 262144 - 0xF0) * 64 + (0x80 + n / 4096 % 64 - 0x80)) * 64 + (0x80 + n / 64 % 64 - 0x80)) * 64 +
      (0x80 + n % 64 - 0x80) = n by omega, hc]

theorem utf8_law : utf8Coding.Law where
  ascii c h := by simp [utf8Coding, utf8Char, h]
  dec_enc s h := by
    clear h
    simp only [utf8Coding, Option.getD_some]
    induction s with
    | nil => rfl
    | cons c s ih => rw [List.flatMap_cons, utf8_char, ih]; rfl

/-! ### References -/

theorem numVal_snoc (b acc : Nat) (s : Str) (c : Char) :
    numVal b acc (s ++ [c]) = (numVal b acc s).bind fun a => (digitVal b c).map fun d => a * b + d := by
  induction s generalizing acc with
  | nil =>
    simp only [List.nil_append, numVal, Option.bind_some]
    cases digitVal b c <;> rfl
  | cons d s ih =>
    simp only [List.cons_append, numVal]
    cases digitVal b d with
    | none => rfl
    | some v => exact ih _

theorem digitVal_digitChar {n : Nat} (h : n < 10) : digitVal 10 (digitChar n) = some n := by
  match n, h with
  | 0, _ => decide
  | 1, _ => decide
  | 2, _ => decide
  | 3, _ => decide
  | 4, _ => decide
  | 5, _ => decide
  | 6, _ => decide
  | 7, _ => decide
  | 8, _ => decide
  | 9, _ => decide

theorem numVal_natStrAux : ∀ (f n : Nat), n < f → numVal 10 0 (natStrAux f n) = some n := by
  intro f
  induction f with
  | zero => intro n h; omega
  | succ f ih =>
    intro n h
    rw [natStrAux]
    split
    · rename_i hn
      simp only [numVal, digitVal_digitChar hn, Option.bind_some, Nat.zero_mul, Nat.zero_add]
    · rw [numVal_snoc, ih _ (by omega), digitVal_digitChar (by omega)]
      simp only [Option.bind_some, Option.map_some]
      congr 1
      omega

theorem numVal_natStr (n : Nat) : numVal 10 0 (natStr n) = some n := numVal_natStrAux _ _ (by omega)

theorem natStr_semi (n : Nat) : ';' ∉ natStr n := by
  intro h
  exact absurd (@natStr_digits asciiUni n _ h) (by decide)

theorem charOf_toNat {c : Char} (h : isXmlChar c = true) : charOf c.toNat = some c := by
  have hv : c.toNat.isValidChar := c.valid
  have e : Char.ofNatAux c.toNat hv = c := Char.ext rfl
  simp only [charOf, hv, dif_pos, e, h, if_true]

theorem refChar_natStr {c : Char} (h : isXmlChar c = true) : refChar ('#' :: natStr c.toNat) = some c := by
  cases hn : natStr c.toNat with
  | nil => exact absurd hn (@natStr_ne_nil asciiUni _)
  | cons d s =>
    have hx : d ≠ 'x' := by
      rintro rfl
      exact absurd (@natStr_digits asciiUni c.toNat 'x' (by rw [hn]; simp)) (by decide)
    unfold refChar
    simp only [List.cons.injEq, reduceCtorEq, false_and, if_false, (by decide : ('#' : Char) ≠ 'a'), (by decide : ('#' : Char) ≠ 'l'), (by decide : ('#' : Char) ≠ 'g'), (by decide : ('#' : Char) ≠ 'q')]
    split
    · rename_i e; injection e with _ e; injection e with e _; exact absurd e hx
    · rename_i e; injection e with _ e; injection e with e1 e2; subst e1 e2
      rw [← hn, numVal_natStr]
      exact charOf_toNat h
    · rename_i e; exact absurd rfl (e d s)

/-! ### Reading what was replaced -/

/-- the encoding has all characters of the names of an element -/
inductive Encodes (k : Coding) : Elem → Prop
  | mk {tag attrs text tail kids} : (∀ c ∈ tag, (k.enc c).isSome = true) → (∀ p ∈ attrs, ∀ c ∈ p.1, (k.enc c).isSome = true) →
      (∀ x ∈ kids, Encodes k x) → Encodes k (.mk tag attrs text tail kids)

theorem replaced_append (k : Coding) (s t : Str) : replaced k (s ++ t) = replaced k s ++ replaced k t := by simp [replaced]

theorem replaced_id {k : Coding} {s : Str} (h : ∀ c ∈ s, (k.enc c).isSome = true) : replaced k s = s := by
  induction s with
  | nil => rfl
  | cons c s ih =>
    rw [show c :: s = [c] ++ s from rfl, replaced_append, ih (fun c hc => h c (by simp [hc]))]
    simp [replaced, h c (by simp)]

section
variable {k : Coding} (hl : k.Law)
include hl

theorem enc_ascii {c : Char} (h : c.toNat < 128) : (k.enc c).isSome = true := by rw [hl.ascii c h]; rfl

theorem replaced_ascii {s : Str} (h : ∀ c ∈ s, c.toNat < 128) : replaced k s = s :=
  replaced_id fun c hc => enc_ascii hl (h c hc)

theorem replaced_cons {c : Char} (h : c.toNat < 128) (s : Str) : replaced k (c :: s) = c :: replaced k s := by
  rw [show c :: s = [c] ++ s from rfl, replaced_append, replaced_ascii hl (by simpa using h)]; rfl

omit hl in
theorem natStr_small (n : Nat) : ∀ c ∈ natStr n, c.toNat < 128 := by
  intro c hc
  have h := @natStr_digits asciiUni n c hc
  simp only [Uni.digit] at h
  split at h
  · omega
  · cases h

/-- character data -/
theorem run_text' (f : Frame) (fs : List Frame) (root : Option Elem) (s : Str) (hs : ∀ c ∈ s, isXmlChar c = true) :
    Rd.run ⟨.content, f :: fs, root⟩ (replaced k (escText s)) = .ok ⟨.content, f.adds s :: fs, root⟩ := by
  induction s generalizing f with
  | nil => simp [Rd.run, escText, replaced, Frame.adds]
  | cons c s ih =>
    have hc := hs c (by simp)
    have h1 : Rd.run ⟨.content, f :: fs, root⟩ (replaced k (escText [c])) = .ok ⟨.content, f.adds [c] :: fs, root⟩ := by
      cases he : (k.enc c).isSome with
      | true =>
        rw [replaced_id, run_text rfl _ _ _ _ (by simpa using hc)]
        intro d hd
        simp only [escText, List.flatMap_cons, List.flatMap_nil, List.append_nil] at hd
        split at hd
        · refine enc_ascii hl ?_; revert d; decide
        split at hd
        · refine enc_ascii hl ?_; revert d; decide
        split at hd
        · refine enc_ascii hl ?_; revert d; decide
        · rw [List.mem_singleton] at hd; subst hd; exact he
      | false =>
        have ha : ¬ c.toNat < 128 := fun h => by rw [enc_ascii hl h] at he; cases he
        have e : replaced k (escText [c]) = charRef c := by
          rw [escText_ne]
          · simp [escText, replaced, he]
          all_goals rintro rfl; exact absurd ha (by decide)
        rw [e, charRef, run_ref (r := ⟨.content, f :: fs, root⟩) rfl (by simp) _ c (by simp [natStr_semi]) (refChar_natStr hc)]
        simp only [Rd.data, hc, if_true]
        rfl
    rw [show c :: s = [c] ++ s from rfl, escText_append, replaced_append, run_ok h1, ih _ (fun c h => hs c (by simp [h]))]
    rfl

omit hl in
theorem escAttr_append (a b : Str) : escAttr (a ++ b) = escAttr a ++ escAttr b := by simp [escAttr]

/-- values of attributes -/
theorem run_value' {r : Rd} (n : Str) (as : Dict Str Str) (key v s : Str) (hs : ∀ c ∈ s, isXmlChar c = true) :
    Rd.run { r with mode := .value n as key '"' v } (replaced k (escAttr s)) = .ok { r with mode := .value n as key '"' (v ++ s) } := by
  induction s generalizing v with
  | nil => simp [Rd.run, escAttr, replaced]
  | cons c s ih =>
    have hc := hs c (by simp)
    have h1 : Rd.run { r with mode := .value n as key '"' v } (replaced k (escAttr [c])) = .ok { r with mode := .value n as key '"' (v ++ [c]) } := by
      cases he : (k.enc c).isSome with
      | true =>
        rw [replaced_id, run_value _ _ _ _ _ (by simpa using hc)]
        intro d hd
        simp only [escAttr, List.flatMap_cons, List.flatMap_nil, List.append_nil] at hd
        repeat' split at hd
        all_goals first
          | (rw [List.mem_singleton] at hd; subst hd; exact he)
          | (refine enc_ascii hl ?_; revert d; decide)
      | false =>
        have ha : ¬ c.toNat < 128 := fun h => by rw [enc_ascii hl h] at he; cases he
        have e : replaced k (escAttr [c]) = charRef c := by
          have : escAttr [c] = [c] := by
            simp only [escAttr, List.flatMap_cons, List.flatMap_nil, List.append_nil]
            repeat rw [if_neg (by rintro rfl; exact absurd ha (by decide))]
          rw [this]; simp [replaced, he]
        rw [e, charRef, run_vref _ _ _ _ _ c (by simp [natStr_semi]) (refChar_natStr hc)]
    rw [show c :: s = [c] ++ s from rfl, escAttr_append, replaced_append, run_ok h1, ih _ (fun c h => hs c (by simp [h]))]
    simp

theorem run_attrs' {r : Rd} (n : Str) (as l : Dict Str Str) (w : Bool) (hk : ∀ p ∈ l, p.1 ≠ [] ∧ ∀ c ∈ p.1, nameEnd c = false)
    (hv : ∀ p ∈ l, ∀ c ∈ p.2, isXmlChar c = true) (he : ∀ p ∈ l, ∀ c ∈ p.1, (k.enc c).isSome = true) :
    Rd.run { r with mode := .tag n as w } (replaced k (serAttrs l)) = .ok { r with mode := .tag n (as ++ l) (w && l.isEmpty) } := by
  induction l generalizing as w with
  | nil => simp [Rd.run, serAttrs, replaced]
  | cons p l ih =>
    obtain ⟨key, v⟩ := p
    obtain ⟨hk1, hk2⟩ := hk (key, v) (by simp)
    have hv1 := hv (key, v) (by simp)
    have he1 := he (key, v) (by simp)
    simp only at hk1 hk2 hv1 he1
    have ih := ih (as ++ [(key, v)]) false (fun p h => hk p (by simp [h])) (fun p h => hv p (by simp [h])) (fun p h => he p (by simp [h]))
    cases key with
    | nil => exact absurd rfl hk1
    | cons c key =>
      have hc := hk2 c (by simp)
      obtain ⟨_, e2, e3, e4⟩ := nameEnd_eq hc
      rw [show serAttrs ((c :: key, v) :: l) = [' '] ++ ((c :: key) ++ (['=', '"'] ++ (escAttr v ++ (['"'] ++ serAttrs l)))) by simp [serAttrs]]
      simp only [replaced_append]
      rw [replaced_ascii hl (s := [' ']) (by decide), replaced_id he1, replaced_ascii hl (s := ['=', '"']) (by decide),
        replaced_ascii hl (s := ['"']) (by decide)]
      simp only [List.cons_append, List.nil_append]
      rw [run_cons (r' := { r with mode := .tag n as true }) (by simp [Rd.step, Rd.inTag, xmlSpace])]
      rw [run_cons (r' := { r with mode := .attr n as [c] }) (by simp [Rd.step, Rd.inTag, e2, e3, e4, hc])]
      rw [run_ok (run_attr n as [c] key (fun c h => hk2 c (by simp [h])))]
      rw [run_cons (r' := { r with mode := .quote n as ([c] ++ key) }) (by simp [Rd.step])]
      rw [run_cons (r' := { r with mode := .value n as ([c] ++ key) '"' [] }) (by simp [Rd.step])]
      rw [run_ok (run_value' hl n as ([c] ++ key) [] v hv1)]
      rw [run_cons (r' := { r with mode := .tag n (as ++ [([c] ++ key, [] ++ v)]) false }) (by simp [Rd.step])]
      refine ih.trans ?_
      simp

/-- start tags, before the character `c` that ends them -/
theorem run_start' {st : List Frame} {root : Option Elem} (tag : Str) (attrs : Dict Str Str) (htag : tag ≠ [])
    (ht : ∀ c ∈ tag, nameEnd c = false) (hk : ∀ p ∈ attrs, p.1 ≠ [] ∧ ∀ c ∈ p.1, nameEnd c = false)
    (hv : ∀ p ∈ attrs, ∀ c ∈ p.2, isXmlChar c = true) (he : ∀ p ∈ attrs, ∀ c ∈ p.1, (k.enc c).isSome = true)
    (h0 : st ≠ [] ∨ root = none) (c : Char) (hc : nameEnd c = true) (t : Str) :
    Rd.run ⟨.content, st, root⟩ ('<' :: (tag ++ (replaced k (serAttrs attrs) ++ c :: t))) = Rd.run ⟨.tag tag attrs false, st, root⟩ (c :: t) := by
  have h1 := run_start (st := st) (root := root) tag [] htag ht (by simp) (by simp) h0
  have hrest : ∃ c' t', replaced k (serAttrs attrs) ++ c :: t = c' :: t' ∧ nameEnd c' = true := by
    cases attrs with
    | nil => exact ⟨c, t, rfl, hc⟩
    | cons p l =>
      obtain ⟨u, hu⟩ := serAttrs_cons p l
      rw [hu, replaced_cons hl (by decide)]
      exact ⟨' ', _, rfl, by decide⟩
  obtain ⟨c', t', hr, hc'⟩ := hrest
  have h2 := h1 c' hc' t'
  rw [show serAttrs [] = [] from rfl, List.nil_append, ← hr] at h2
  rw [h2, run_ok (run_attrs' hl (r := ⟨.lt, st, root⟩) tag [] attrs false hk hv he)]
  rfl

theorem run_sers' (kids : List Elem) (hok : ∀ x ∈ kids, ElemOK x)
    (hk : ∀ x ∈ kids, ∀ (st : List Frame) (root : Option Elem), (st ≠ [] ∨ root = none) →
      Rd.run ⟨.content, st, root⟩ (replaced k (core x)) = .ok (Rd.attach ⟨.content, st, root⟩ (noTail (rawE x))))
    (f : Frame) (fs : List Frame) (root : Option Elem) :
    Rd.run ⟨.content, f :: fs, root⟩ (replaced k (sers kids)) = .ok ⟨.content, { f with kids := (kids.map rawE).reverse ++ f.kids } :: fs, root⟩ := by
  induction kids generalizing f with
  | nil => simp [sers, Rd.run, replaced]
  | cons x xs ih =>
    have h1 := hk x (by simp) (f :: fs) root (.inl (by simp))
    have ho := hok x (by simp)
    rw [sers, ser_eq, List.append_assoc, replaced_append, replaced_append, run_ok h1]
    simp only [Rd.attach]
    have htail : ∀ c ∈ x.tail.getD [], isXmlChar c = true := by
      cases ho with | mk _ _ _ _ _ _ h _ => exact h
    rw [run_ok (run_text' hl _ fs root _ htail)]
    rw [Frame.adds_cons _ _ (noTail (rawE x)) f.kids rfl]
    have : addTails (x.tail.getD []) (noTail (rawE x)) = rawE x := by
      cases x
      simp only [rawE, noTail, addTails, Elem.tail, Option.getD_none, List.nil_append, someText]
      congr
    rw [this, ih (fun k h => hok k (by simp [h])) (fun k h => hk k (by simp [h]))]
    simp

theorem run_core' : ∀ (e : Elem), ElemOK e → Encodes k e → ∀ (st : List Frame) (root : Option Elem), (st ≠ [] ∨ root = none) →
    Rd.run ⟨.content, st, root⟩ (replaced k (core e)) = .ok (Rd.attach ⟨.content, st, root⟩ (noTail (rawE e))) := by
  refine Elem.ind fun tag attrs text tail kids ih hok hen st root h0 => ?_
  cases hok with
  | mk h1 h2 h3 h4 h5 h6 h7 h8 =>
  cases hen with
  | mk n1 n2 n3 =>
    simp only [core]
    split
    · rename_i hemp
      rw [Bool.and_eq_true, List.isEmpty_iff, List.isEmpty_iff] at hemp
      obtain ⟨ht, rfl⟩ := hemp
      rw [replaced_cons hl (by decide), replaced_append, replaced_append, replaced_id n1, replaced_ascii hl (s := lit! " />") (by decide)]
      rw [show lit! " />" = ' ' :: ['/', '>'] from rfl, run_start' hl tag attrs h1 h2 h3 h5 n2 h0 ' ' (by decide)]
      rw [run_cons (r' := ⟨.tag tag attrs true, st, root⟩) (by simp [Rd.step, Rd.inTag, xmlSpace])]
      rw [run_cons (r' := ⟨.empty tag attrs, st, root⟩) (by simp [Rd.step, Rd.inTag, xmlSpace])]
      rw [run_cons (r' := Rd.attach ⟨.empty tag attrs, st, root⟩ (.mk tag attrs none none [])) (by simp [Rd.step, h4])]
      cases st <;> simp [Rd.run, Rd.attach, rawE, rawEs, noTail, ht, someText]
    · rw [replaced_cons hl (by decide), replaced_append, replaced_append, replaced_id n1, replaced_cons hl (c := '>') (by decide),
        replaced_append, replaced_append, replaced_cons hl (c := '<') (by decide), replaced_cons hl (c := '/') (by decide), replaced_append,
        replaced_id n1, replaced_ascii hl (s := ['>']) (by decide)]
      rw [run_start' hl tag attrs h1 h2 h3 h5 n2 h0 '>' (by decide)]
      rw [run_cons (r' := ⟨.content, ⟨tag, attrs, [], []⟩ :: st, root⟩) (by simp [Rd.step, Rd.inTag, xmlSpace, h4])]
      rw [run_ok (run_text' hl _ st root _ h6), Frame.adds_nil_kids _ _ rfl]
      rw [run_ok (run_sers' hl kids h8 (fun k hk st root h => ih k hk (h8 k hk) (n3 k hk) st root h) _ st root)]
      rw [run_cons (r' := ⟨.lt, _, root⟩) (by simp only [Rd.step, if_true]; rfl)]
      rw [run_cons (r' := ⟨.close [], _, root⟩) (by simp only [Rd.step, if_true]; rfl)]
      rw [run_ok (run_close (r := ⟨.lt, _, root⟩) [] tag h2)]
      simp only [List.nil_append, List.append_nil, Rd.run, Rd.step, if_true, Rd.end, List.reverse_reverse, bind, Except.bind]
      cases st <;> simp [Rd.attach, rawE, rawEs_eq, noTail]

theorem replaced_head (c : Char) (s : Str) : ∃ d t, replaced k (c :: s) = d :: t ∧ (d = c ∨ d = '&') ∧ (replaced k [c]).head? = some d := by
  rw [show c :: s = [c] ++ s from rfl, replaced_append]
  cases he : (k.enc c).isSome with
  | true => exact ⟨c, replaced k s, by simp [replaced, he], .inl rfl, by simp [replaced, he]⟩
  | false => exact ⟨'&', _, by simp only [replaced, he, List.flatMap_cons, List.flatMap_nil]; rfl, .inr rfl, by simp [replaced, he, charRef]⟩

theorem replaced_ncr {c : Char} (h : c ≠ '\r') : '\r' ∉ replaced k [c] := by
  simp only [replaced, List.flatMap_cons, List.flatMap_nil, List.append_nil]
  split
  · simpa using fun e => h e.symm
  · simp only [charRef, List.mem_cons, List.mem_append, List.not_mem_nil, or_false]
    rintro (h | (h | h) | h)
    · exact absurd h (by decide)
    · exact absurd h (by decide)
    · exact absurd (@natStr_digits asciiUni _ _ h) (by decide)
    · exact absurd h (by decide)

/-- line ends are normalised before or after -/
theorem eol_replaced (s : Str) : eol (replaced k s) = replaced k (eol s) := by
  induction s using eol.induct with
  | case1 r ih =>
    rw [eol, replaced_cons hl (by decide), replaced_cons hl (by decide), replaced_cons hl (by decide), eol, ih]
  | case2 r h ih =>
    rw [replaced_cons hl (by decide), eol, eol, ih, replaced_cons hl (by decide)]
    · exact h
    · intro t ht
      cases r with
      | nil => cases ht
      | cons c r =>
        obtain ⟨d, u, e1, e2, -⟩ := replaced_head hl c r
        rw [e1] at ht
        injection ht with e3 _
        subst e3
        rcases e2 with e2 | e2
        · subst e2; exact h r rfl
        · exact absurd e2 (by decide)
  | case3 c r h1 h2 ih =>
    rw [eol]
    · rw [show c :: r = [c] ++ r from rfl, replaced_append, eol_noCr _ _ (replaced_ncr hl h2), ih,
        show c :: eol r = [c] ++ eol r from rfl, replaced_append]
    · exact h1
    · exact h2
  | case4 => rfl

theorem encodes_eol : ∀ (e : Elem), Encodes k e → Encodes k (eolE e) := by
  refine Elem.ind fun tag attrs text tail kids ih h => ?_
  cases h with
  | mk n1 n2 n3 =>
    rw [eolE, eolEs_eq]
    refine .mk n1 n2 ?_
    intro x hx
    obtain ⟨y, hy, rfl⟩ := List.mem_map.1 hx
    exact ih y hy (n3 y hy)

end

end Xigt.Byt
