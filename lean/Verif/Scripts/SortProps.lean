import Verif.Scripts.SortModel
import Verif.RegexLemmas
import Verif.Ref.Ops
import Verif.Igt.SortProps
import Verif.Xml.Indent
import Verif.Path.Props
/-
C50: what `xigt sort` orders by.
-/
set_option linter.unusedSectionVars false

namespace Xigt.Srt

section
variable [Uni]

/-! ### Specification -/

/-- `s` is the text `a`, then numerals (with their values) each followed by text without digits -/
inductive Reads : Str → Str → List (Nat × Str) → Prop
  | last {a : Str} : (∀ c ∈ a, Uni.digit c = none) → Reads a a []
  | more {a d s b : Str} {l : List (Nat × Str)} : (∀ c ∈ a, Uni.digit c = none) → d ≠ [] →
      (∀ c ∈ d, (Uni.digit c).isSome = true) → (∀ c cs, s = c :: cs → Uni.digit c = none) →
      Reads s b l → Reads (a ++ d ++ s) a ((decVal d, b) :: l)

/-- first the text, then the number, then what follows; what ends comes first -/
inductive RdLt : Str → List (Nat × Str) → Str → List (Nat × Str) → Prop
  | text {a b l m} : a < b → RdLt a l b m
  | ends {a x m} : RdLt a [] a (x :: m)
  | num {a n b l k c m} : n < k → RdLt a ((n, b) :: l) a ((k, c) :: m)
  | next {a n b l c m} : RdLt b l c m → RdLt a ((n, b) :: l) a ((n, c) :: m)

/-- `s` comes before `t` -/
def NatLt (s t : Str) : Prop := ∃ a l b m, Reads s a l ∧ Reads t b m ∧ RdLt a l b m

/-- equal but for the form of numerals -/
def NatSame (s t : Str) : Prop := ∃ a l, Reads s a l ∧ Reads t a l

/-- several keys: the first that differs decides -/
inductive KeysLt : List Str → List Str → Prop
  | here {s t ss ts} : NatLt s t → KeysLt (s :: ss) (t :: ts)
  | there {s t ss ts} : NatSame s t → KeysLt ss ts → KeysLt (s :: ss) (t :: ts)

/-- the same in all keys -/
inductive KeysSame : List Str → List Str → Prop
  | nil : KeysSame [] []
  | cons {s t ss ts} : NatSame s t → KeysSame ss ts → KeysSame (s :: ss) (t :: ts)

/-- both contain the same number of numerals -/
def SameNums (s t : Str) : Prop := ∃ a l b m, Reads s a l ∧ Reads t b m ∧ l.length = m.length

/-- the same number of numerals in every key but the last -/
inductive Aligned : List Str → List Str → Prop
  | nil : Aligned [] []
  | one {s t} : Aligned [s] [t]
  | cons {s t ss ts} : SameNums s t → Aligned ss ts → Aligned (s :: ss) (t :: ts)

/-- the key strings of an object: what the paths find first; nothing counts as the empty string -/
inductive KeyStrs (c : XP.PCfg) (v : XP.PV) : List Str → List Str → Prop
  | nil : KeyStrs c v [] []
  | found {sk s sks ss} : XP.find c v sk = .ok (.str s) → KeyStrs c v sks ss →
      KeyStrs c v (sk :: sks) (s :: ss)
  | missing {sk sks ss} : XP.find c v sk = .ok .none → KeyStrs c v sks ss →
      KeyStrs c v (sk :: sks) ([] :: ss)

/-! ### Splitting -/

theorem matchAt_num (bol : Bool) (s : Str) (must : Bool) : numRe.matchAt bol s must =
    if s.takeWhile Uni.isDigit = [] then none
    else some (s.takeWhile Uni.isDigit,
      ⟨false, s.dropWhile Uni.isDigit, [(1, s.takeWhile Uni.isDigit)]⟩) := by
  by_cases h : s.takeWhile Uni.isDigit = []
  · rw [if_pos h]
    apply Re.matchAt_none_of_first
    rw [numRe, Re.first_grp, Re.first_plus_cls, if_pos h]; rfl
  · rw [if_neg h]
    apply Re.matchAt_of_first _ h
    rw [numRe, Re.first_grp, Re.first_plus_cls, if_neg h]; rfl

theorem scan_irrel (bol must : Bool) (s skip : Str) :
    Re.scanFrom numRe bol s must skip = Re.scanFrom numRe true s false skip := by
  by_cases h : s.takeWhile Uni.isDigit = []
  · have h1 := matchAt_num bol s must
    have h2 := matchAt_num true s false
    rw [if_pos h] at h1 h2
    cases s with
    | nil => rw [Re.scanFrom_nil h1, Re.scanFrom_nil h2]
    | cons c cs => rw [Re.scanFrom_skip h1, Re.scanFrom_skip h2]
  · have h1 := matchAt_num bol s must
    have h2 := matchAt_num true s false
    rw [if_neg h] at h1 h2
    rw [Re.scanFrom_match h1, Re.scanFrom_match h2]
    have : (s.takeWhile Uni.isDigit).isEmpty = false := by
      rw [List.isEmpty_eq_false_iff]; exact h
    simp only [this, Bool.and_false]

def sc (s skip : Str) := Re.scanFrom numRe true s false skip

theorem sc_skip (c : Char) (cs skip : Str) (h : Uni.digit c = none) :
    sc (c :: cs) skip = sc cs (skip ++ [c]) := by
  have h1 := matchAt_num true (c :: cs) false
  rw [if_pos (by simp [Uni.isDigit, h])] at h1
  rw [sc, Re.scanFrom_skip h1, scan_irrel]; rfl

theorem sc_text (a rest skip : Str) (h : ∀ c ∈ a, Uni.digit c = none) :
    sc (a ++ rest) skip = sc rest (skip ++ a) := by
  induction a generalizing skip with
  | nil => simp
  | cons c cs ih =>
    rw [List.cons_append, sc_skip _ _ _ (h c (by simp)), ih _ (fun d hd => h d (by simp [hd]))]
    simp

theorem sc_nil (skip : Str) : sc [] skip = ([], skip) := by
  have h1 := matchAt_num true [] false
  rw [if_pos (by simp)] at h1
  rw [sc, Re.scanFrom_nil h1]

theorem sc_num (d s skip : Str) (h0 : d ≠ []) (hd : ∀ c ∈ d, (Uni.digit c).isSome = true)
    (hs : ∀ c cs, s = c :: cs → Uni.digit c = none) :
    sc (d ++ s) skip = ((skip, d, ⟨false, s, [(1, d)]⟩) :: (sc s []).1, (sc s []).2) := by
  have htw : (d ++ s).takeWhile Uni.isDigit = d := by
    rw [List.takeWhile_append_of_pos (by simpa [Uni.isDigit] using hd)]
    cases s with
    | nil => simp
    | cons c cs => simp [Uni.isDigit, hs c cs rfl]
  have hdw : (d ++ s).dropWhile Uni.isDigit = s := by
    rw [List.dropWhile_append_of_pos (by simpa [Uni.isDigit] using hd)]
    cases s with
    | nil => simp
    | cons c cs => simp [Uni.isDigit, hs c cs rfl]
  have h1 := matchAt_num true (d ++ s) false
  rw [htw, if_neg h0, hdw] at h1
  rw [sc, Re.scanFrom_match h1]
  simp only
  rw [scan_irrel]; rfl

theorem split_last {a : Str} (h : ∀ c ∈ a, Uni.digit c = none) : reSplit numRe a = [a] := by
  have := sc_text a [] [] h
  rw [sc_nil, List.append_nil] at this
  rw [reSplit, Re.scan_eq, ← sc, this]; rfl

theorem split_more {a d s : Str} (h : ∀ c ∈ a, Uni.digit c = none) (h0 : d ≠ [])
    (hd : ∀ c ∈ d, (Uni.digit c).isSome = true) (hs : ∀ c cs, s = c :: cs → Uni.digit c = none) :
    reSplit numRe (a ++ d ++ s) = a :: d :: reSplit numRe s := by
  rw [reSplit, Re.scan_eq, ← sc, List.append_assoc, sc_text _ _ _ h, sc_num _ _ _ h0 hd hs]
  rw [reSplit, Re.scan_eq, ← sc]
  simp [MSt.group]

theorem strip_mem {s : Str} {c : Char} (h : c ∈ strip s) : c ∈ s := by
  rw [strip] at h
  have h1 : c ∈ (lstrip s) := by
    have := (List.dropWhile_sublist (l := (lstrip s).reverse) Uni.isSpace).subset
    have := this (List.mem_reverse.1 h)
    simpa using this
  exact (List.dropWhile_sublist (l := s) _).subset h1

theorem parseNat_text {s : Str} (h : ∀ c ∈ s, Uni.digit c = none) : parseNat s = none := by
  cases s with
  | nil => rfl
  | cons c cs => rw [parseNat, h c (by simp)]

theorem safeInt_text {a : Str} (h : ∀ c ∈ a, Uni.digit c = none) : safeInt a = .str a := by
  have : pyInt a = .error .valueError := by
    rw [pyInt]
    have hm : ∀ c ∈ strip a, Uni.digit c = none := fun c hc => h c (strip_mem hc)
    cases hs : strip a with
    | nil => rfl
    | cons c cs =>
      rw [hs] at hm
      simp only
      rw [parseNat_text hm, parseNat_text (fun x hx => hm x (by simp [hx]))]
      simp
  rw [safeInt, this]

theorem safeInt_num {d : Str} (h0 : d ≠ []) (hd : ∀ c ∈ d, (Uni.digit c).isSome = true) :
    safeInt d = .int (decVal d) := by
  have := pyInt_num (n := ⟨false, d⟩) ⟨h0, hd⟩
  simp [Num.render, Num.value] at this
  rw [safeInt, this]

/-- a reading as elements of a key -/
def enc (a : Str) (l : List (Nat × Str)) : List KPart :=
  .str a :: l.flatMap fun x => [.int x.1, .str x.2]

theorem enc_cons (a : Str) (n : Nat) (b : Str) (l) :
    enc a ((n, b) :: l) = .str a :: .int n :: enc b l := rfl

theorem parts_reads {s a l} (h : Reads s a l) : parts s = enc a l := by
  induction h with
  | last h => rw [parts, split_last h]; simp [safeInt_text h, enc]
  | more h h0 hd hs _ ih =>
    rw [parts, split_more h h0 hd hs]
    rw [parts] at ih
    rw [enc_cons, List.map_cons, List.map_cons, ih, safeInt_text h, safeInt_num h0 hd]

theorem reads_exists (s : Str) : ∃ a l, Reads s a l := by
  induction hn : s.length using Nat.strongRecOn generalizing s with
  | ind n ih =>
    let nd : Char → Bool := fun c => (Uni.digit c).isNone
    have hs := (List.takeWhile_append_dropWhile (p := nd) (l := s)).symm
    have ha : ∀ c ∈ s.takeWhile nd, Uni.digit c = none := by
      intro c hc
      have := List.all_eq_true.1 List.all_takeWhile c hc
      simpa [nd] using this
    cases hr : s.dropWhile nd with
    | nil =>
      rw [hr, List.append_nil] at hs
      rw [hs]
      exact ⟨_, _, .last ha⟩
    | cons c cs =>
      have hc : (Uni.digit c).isSome = true := by
        have := List.head?_dropWhile_not nd s
        rw [hr] at this
        simp [nd] at this
        simpa [Option.isSome_iff_ne_none] using this
      let isd : Char → Bool := fun c => (Uni.digit c).isSome
      have h2 := (List.takeWhile_append_dropWhile (p := isd) (l := c :: cs)).symm
      have h0 : (c :: cs).takeWhile isd ≠ [] := by simp [isd, hc]
      have hd : ∀ x ∈ (c :: cs).takeWhile isd, (Uni.digit x).isSome = true := by
        intro x hx
        have := List.all_eq_true.1 List.all_takeWhile x hx
        simpa [isd] using this
      have hb : ∀ x xs, (c :: cs).dropWhile isd = x :: xs → Uni.digit x = none := by
        intro x xs hx
        have := List.head?_dropWhile_not isd (c :: cs)
        rw [hx] at this
        simpa [isd] using this
      have hlen : ((c :: cs).dropWhile isd).length < n := by
        have e1 : s.length = (s.takeWhile nd).length + (c :: cs).length := by
          rw [← List.length_append, ← hr, ← hs]
        have e2 : (c :: cs).length =
            ((c :: cs).takeWhile isd).length + ((c :: cs).dropWhile isd).length := by
          rw [← List.length_append, ← h2]
        have := List.length_pos_iff.2 h0
        omega
      obtain ⟨b, l, hl⟩ := ih _ hlen _ rfl
      have := Reads.more ha h0 hd hb hl
      rw [List.append_assoc, ← h2, ← hr, ← hs] at this
      exact ⟨_, _, this⟩

/-! ### The order on keys -/

/-- a total order on elements -/
def kLt : KPart → KPart → Prop
  | .int a, .int b => a < b
  | .str a, .str b => a < b
  | .int _, .str _ => True
  | .str _, .int _ => False

theorem kLt_irrefl (x : KPart) : ¬ kLt x x := by
  cases x with
  | int n => exact Int.lt_irrefl n
  | str s => exact List.lt_irrefl s

theorem kLt_trans {x y z : KPart} (h1 : kLt x y) (h2 : kLt y z) : kLt x z := by
  cases x <;> cases y <;> cases z <;> simp [kLt] at *
  · exact Int.lt_trans h1 h2
  · exact List.lt_trans h1 h2

theorem kLt_tri (x y : KPart) : kLt x y ∨ x = y ∨ kLt y x := by
  cases x with
  | int a => cases y with
    | int b => simp only [kLt, KPart.int.injEq]; omega
    | str t => exact .inl trivial
  | str s => cases y with
    | int b => exact .inr (.inr trivial)
    | str t =>
      simp only [kLt, KPart.str.injEq]
      by_cases h1 : s < t
      · exact .inl h1
      · by_cases h2 : t < s
        · exact .inr (.inr h2)
        · exact .inr (.inl (List.le_antisymm h2 h1))

/-- lists in the order of their first difference form a strict total order -/
structure STO {α : Type} (r : α → α → Prop) : Prop where
  irrefl : ∀ x, ¬ r x x
  trans : ∀ x y z, r x y → r y z → r x z
  tri : ∀ x y, r x y ∨ x = y ∨ r y x

theorem kLt_sto : STO kLt := ⟨kLt_irrefl, fun _ _ _ => kLt_trans, kLt_tri⟩

end

theorem lex_sto {α : Type} {r : α → α → Prop} (h : STO r) : STO (List.Lex r) := by
  refine ⟨?_, ?_, ?_⟩
  · intro x hx
    induction x with
    | nil => cases hx
    | cons a l ih =>
      cases hx with
      | rel h1 => exact h.irrefl a h1
      | cons h1 => exact ih h1
  · intro x
    induction x with
    | nil => intro y z h1 h2; cases z with
      | nil => cases h2
      | cons a l => exact .nil
    | cons a l ih =>
      intro y z h1 h2
      cases h1 with
      | rel hab => cases h2 with
        | rel hbc => exact .rel (h.trans _ _ _ hab hbc)
        | cons _ => exact .rel hab
      | cons h1 => cases h2 with
        | rel hbc => exact .rel hbc
        | cons h2 => exact .cons (ih _ _ h1 h2)
  · intro x
    induction x with
    | nil => intro y; cases y with
      | nil => exact .inr (.inl rfl)
      | cons b m => exact .inl .nil
    | cons a l ih =>
      intro y
      cases y with
      | nil => exact .inr (.inr .nil)
      | cons b m =>
        rcases h.tri a b with h1 | rfl | h1
        · exact .inl (.rel h1)
        · rcases ih m with h2 | rfl | h2
          · exact .inl (.cons h2)
          · exact .inr (.inl rfl)
          · exact .inr (.inr (.cons h2))
        · exact .inr (.inr (.rel h1))

section
variable [Uni]

theorem lex_enc (a : Str) (l : List (Nat × Str)) (b : Str) (m : List (Nat × Str)) :
    List.Lex kLt (enc a l) (enc b m) ↔ RdLt a l b m := by
  induction l generalizing a b m with
  | nil =>
    constructor
    · intro h
      cases h with
      | rel h => exact .text h
      | cons h => cases m with
        | nil => cases h
        | cons x m => exact .ends
    · intro h
      cases h with
      | text h => exact .rel h
      | ends => exact .cons .nil
  | cons x l ih =>
    obtain ⟨n, c⟩ := x
    constructor
    · intro h
      cases h with
      | rel h => exact .text h
      | cons h => cases m with
        | nil => cases h
        | cons y m =>
          obtain ⟨k, d⟩ := y
          generalize hu : (KPart.int n) = u at h
          generalize hv : (KPart.int k) = v at h
          cases h with
          | rel h =>
            subst hu; subst hv
            exact .num (by simpa [kLt] using h)
          | cons h =>
            exact .next ((ih _ _ _).1 h)
    · intro h
      cases h with
      | text h => exact .rel h
      | num h => exact .cons (.rel (by simpa [kLt] using h))
      | next h => exact .cons (.cons ((ih _ _ _).2 h))

theorem enc_inj {a l b m} (h : enc a l = enc b m) : a = b ∧ l = m := by
  induction l generalizing a b m with
  | nil =>
    cases m with
    | nil => simp [enc] at h; exact ⟨h, rfl⟩
    | cons => simp [enc] at h
  | cons x l ih =>
    cases m with
    | nil => simp [enc] at h
    | cons y m =>
      obtain ⟨n, c⟩ := x; obtain ⟨k, d⟩ := y
      rw [enc_cons, enc_cons] at h
      injection h with h1 h2
      injection h2 with h2 h3
      injection h1 with h1
      injection h2 with h2
      obtain ⟨h4, h5⟩ := ih h3
      refine ⟨h1, ?_⟩
      rw [h4, h5, show n = k by omega]

theorem natLt_iff (s t : Str) : NatLt s t ↔ List.Lex kLt (parts s) (parts t) := by
  constructor
  · rintro ⟨a, l, b, m, h1, h2, h3⟩
    rw [parts_reads h1, parts_reads h2, lex_enc]; exact h3
  · intro h
    obtain ⟨a, l, h1⟩ := reads_exists s
    obtain ⟨b, m, h2⟩ := reads_exists t
    rw [parts_reads h1, parts_reads h2, lex_enc] at h
    exact ⟨_, _, _, _, h1, h2, h⟩

theorem natSame_iff (s t : Str) : NatSame s t ↔ parts s = parts t := by
  constructor
  · rintro ⟨a, l, h1, h2⟩
    rw [parts_reads h1, parts_reads h2]
  · intro h
    obtain ⟨a, l, h1⟩ := reads_exists s
    obtain ⟨b, m, h2⟩ := reads_exists t
    rw [parts_reads h1, parts_reads h2] at h
    obtain ⟨rfl, rfl⟩ := enc_inj h
    exact ⟨_, _, h1, h2⟩

/-- a string has one reading -/
theorem reads_unique {s a l b m} (h1 : Reads s a l) (h2 : Reads s b m) : a = b ∧ l = m :=
  enc_inj ((parts_reads h1).symm.trans (parts_reads h2))

theorem keysLt_iff (ss ts : List Str) (hlen : ss.length = ts.length) :
    KeysLt ss ts ↔ List.Lex (List.Lex kLt) (ss.map parts) (ts.map parts) := by
  induction ss generalizing ts with
  | nil => cases ts with
    | nil => constructor <;> intro h <;> cases h
    | cons => simp at hlen
  | cons s ss ih => cases ts with
    | nil => simp at hlen
    | cons t ts =>
      have ih := ih ts (by simpa using hlen)
      constructor
      · intro h
        cases h with
        | here h => exact .rel ((natLt_iff _ _).1 h)
        | there h h' =>
          rw [List.map_cons, List.map_cons, (natSame_iff _ _).1 h]
          exact .cons (ih.1 h')
      · intro h
        rw [List.map_cons, List.map_cons] at h
        generalize hu : parts s = u at h
        generalize hv : parts t = v at h
        cases h with
        | rel h => subst hu; subst hv; exact .here ((natLt_iff _ _).2 h)
        | cons h => exact .there ((natSame_iff _ _).2 (hu.trans hv.symm)) (ih.2 h)

theorem keysSame_map {ss ts : List Str} (h : KeysSame ss ts) : ss.map parts = ts.map parts := by
  induction h with
  | nil => rfl
  | cons h _ ih => rw [List.map_cons, List.map_cons, ih, (natSame_iff _ _).1 h]

/-- all elements of the keys -/
def flat (ss : List Str) : List KPart := ss.flatMap parts

/-- a list that is empty or begins with text -/
def TextStart (xs : List KPart) : Prop := ∀ x l, xs = x :: l → ∃ s, x = .str s

theorem flat_start (ss : List Str) : TextStart (flat ss) := by
  intro x l h
  cases ss with
  | nil => simp [flat] at h
  | cons s ss =>
    obtain ⟨a, m, hr⟩ := reads_exists s
    rw [flat, List.flatMap_cons, parts_reads hr, enc, List.cons_append] at h
    injection h with h _
    exact ⟨_, h.symm⟩

theorem flat_nil {ss : List Str} (h : flat ss = []) : ss = [] := by
  cases ss with
  | nil => rfl
  | cons s ss =>
    obtain ⟨a, m, hr⟩ := reads_exists s
    rw [flat, List.flatMap_cons, parts_reads hr, enc, List.cons_append] at h
    cases h

theorem keyLt_str (a b : Str) (X Y : List KPart) (r : Bool)
    (h : keyLt (.str a :: X) (.str b :: Y) = .ok r) :
    (a = b ∧ keyLt X Y = .ok r) ∨ (a ≠ b ∧ (r = true ↔ a < b)) := by
  rw [keyLt] at h
  by_cases e : a = b
  · subst e; rw [if_pos rfl] at h; exact .inl ⟨rfl, h⟩
  · rw [if_neg (by simpa using e)] at h
    simp only [partLt] at h
    injection h with h
    exact .inr ⟨e, by rw [← h]; simp⟩

theorem keyLt_int (a b : Nat) (X Y : List KPart) (r : Bool)
    (h : keyLt (.int a :: X) (.int b :: Y) = .ok r) :
    (a = b ∧ keyLt X Y = .ok r) ∨ (a ≠ b ∧ (r = true ↔ a < b)) := by
  rw [keyLt] at h
  by_cases e : a = b
  · subst e; rw [if_pos rfl] at h; exact .inl ⟨rfl, h⟩
  · rw [if_neg (by simp; omega)] at h
    simp only [partLt] at h
    injection h with h
    exact .inr ⟨e, by rw [← h]; simp⟩

/-- comparing one key and what follows -/
theorem keyLt_enc (a : Str) (l : List (Nat × Str)) (b : Str) (m : List (Nat × Str))
    (X Y : List KPart) (hX : TextStart X) (hY : TextStart Y) (hXY : X = [] ↔ Y = []) (r : Bool)
    (h0 : keyLt (enc a l ++ X) (enc b m ++ Y) = .ok r) :
    (enc a l = enc b m ∧ keyLt X Y = .ok r) ∨
    (enc a l ≠ enc b m ∧ (r = true ↔ RdLt a l b m)) := by
  induction l generalizing a b m with
  | nil =>
    simp only [enc, List.flatMap_nil, List.cons_append, List.nil_append] at h0
    rcases keyLt_str _ _ _ _ _ h0 with ⟨rfl, h⟩ | ⟨e, h⟩
    · cases m with
      | nil => exact .inl ⟨rfl, by simpa using h⟩
      | cons x m =>
        right
        refine ⟨by simp [enc], ?_⟩
        cases X with
        | nil =>
          simp [keyLt] at h
          simp [← h, RdLt.ends]
        | cons y X =>
          obtain ⟨s, rfl⟩ := hX y X rfl
          simp [keyLt, partLt] at h
    · right
      refine ⟨by simp [enc, e], h.trans ⟨.text, ?_⟩⟩
      intro h
      cases h with
      | text h => exact h
      | ends => exact absurd rfl e
  | cons x l ih =>
    obtain ⟨n, c⟩ := x
    rw [enc_cons, List.cons_append] at h0
    rw [show enc b m = .str b :: m.flatMap (fun x => [.int x.1, .str x.2]) from rfl,
      List.cons_append] at h0
    rcases keyLt_str _ _ _ _ _ h0 with ⟨rfl, h⟩ | ⟨e, h⟩
    · cases m with
      | nil =>
        right
        refine ⟨by simp [enc], ?_⟩
        cases Y with
        | nil =>
          simp [keyLt] at h
          subst h
          simp
          intro h
          cases h with
          | text h => exact List.lt_irrefl _ h
        | cons y Y =>
          obtain ⟨s, rfl⟩ := hY y Y rfl
          simp [keyLt, partLt] at h
      | cons y m =>
        obtain ⟨k, d⟩ := y
        have h : keyLt (.int n :: (enc c l ++ X)) (.int k :: (enc d m ++ Y)) = .ok r := h
        rw [enc_cons, enc_cons]
        rcases keyLt_int _ _ _ _ _ h with ⟨rfl, h1⟩ | ⟨e, h⟩
        · rcases ih c d m h1 with ⟨e, h⟩ | ⟨e, h⟩
          · exact .inl ⟨by rw [e], h⟩
          · refine .inr ⟨by simpa using e, h.trans ⟨.next, ?_⟩⟩
            intro h
            cases h with
            | text h => exact absurd h (List.lt_irrefl _)
            | num h => exact absurd h (Nat.lt_irrefl _)
            | next h => exact h
        · refine .inr ⟨by simp; intro hh; omega, h.trans ⟨.num, ?_⟩⟩
          intro h
          cases h with
          | text h => exact absurd h (List.lt_irrefl _)
          | num h => exact h
          | next h => exact absurd rfl e
    · right
      refine ⟨by simp [enc, e], h.trans ⟨.text, ?_⟩⟩
      intro h
      cases h with
      | text h => exact h
      | num => exact absurd rfl e
      | next => exact absurd rfl e

/-- a comparison that does not raise an exception agrees with the order of the keys -/
theorem keyLt_sound (ss ts : List Str) (hlen : ss.length = ts.length) (r : Bool)
    (h : keyLt (flat ss) (flat ts) = .ok r) : r = true ↔ KeysLt ss ts := by
  induction ss generalizing ts with
  | nil => cases ts with
    | nil =>
      simp [flat, keyLt] at h
      subst h
      constructor <;> intro h <;> cases h
    | cons => simp at hlen
  | cons s ss ih => cases ts with
    | nil => simp at hlen
    | cons t ts =>
      have hl : ss.length = ts.length := by simpa using hlen
      obtain ⟨a, l, h1⟩ := reads_exists s
      obtain ⟨b, m, h2⟩ := reads_exists t
      have hXY : flat ss = [] ↔ flat ts = [] := by
        constructor <;> intro h <;> have := flat_nil h <;> subst this <;> simp at hl
        · have := List.length_eq_zero_iff.1 hl.symm; subst this; rfl
        · subst hl; rfl
      rw [flat, flat, List.flatMap_cons, List.flatMap_cons, parts_reads h1, parts_reads h2] at h
      rcases keyLt_enc a l b m _ _ (flat_start ss) (flat_start ts) hXY r h with ⟨e, h⟩ | ⟨e, h⟩
      · rw [ih ts hl h]
        have hsame : NatSame s t := by rw [natSame_iff, parts_reads h1, parts_reads h2, e]
        constructor
        · exact .there hsame
        · intro h
          cases h with
          | here h =>
            rw [natLt_iff, (natSame_iff _ _).1 hsame] at h
            exact absurd h ((lex_sto kLt_sto).irrefl _)
          | there _ h => exact h
      · rw [h, ← lex_enc, ← parts_reads h1, ← parts_reads h2]
        rw [← parts_reads h1, ← parts_reads h2] at e
        constructor
        · intro h; exact .here ((natLt_iff _ _).2 h)
        · intro h
          cases h with
          | here h => exact (natLt_iff _ _).1 h
          | there h _ => exact absurd ((natSame_iff _ _).1 h) e

theorem keyLt_enc_ok (a : Str) (l : List (Nat × Str)) (b : Str) (m : List (Nat × Str))
    (X Y : List KPart) (hl : l.length = m.length ∨ X = [] ∧ Y = [])
    (h : ∃ r, keyLt X Y = .ok r) :
    ∃ r, keyLt (enc a l ++ X) (enc b m ++ Y) = .ok r := by
  induction l generalizing a b m with
  | nil =>
    simp only [enc, List.flatMap_nil, List.cons_append, List.nil_append, keyLt]
    split
    · cases m with
      | nil => simpa using h
      | cons x m =>
        rcases hl with hl | ⟨rfl, rfl⟩
        · simp at hl
        · exact ⟨_, by simp [keyLt]; rfl⟩
    · simp [partLt]
  | cons x l ih =>
    obtain ⟨n, c⟩ := x
    cases m with
    | nil =>
      rcases hl with hl | ⟨rfl, rfl⟩
      · simp at hl
      · rw [enc_cons]
        simp only [enc, List.flatMap_nil, List.cons_append, keyLt]
        split
        · simp [keyLt]
        · simp [partLt]
    | cons y m =>
      obtain ⟨k, d⟩ := y
      rw [enc_cons, enc_cons]
      simp only [List.cons_append, keyLt]
      split
      · split
        · apply ih
          simpa using hl
        · simp [partLt]
      · simp [partLt]

/-- comparing keys with the same number of numerals in all but the last does not fail -/
theorem keyLt_ok {ss ts : List Str} (h : Aligned ss ts) : ∃ r, keyLt (flat ss) (flat ts) = .ok r := by
  induction h with
  | nil => exact ⟨_, rfl⟩
  | @one s t =>
    obtain ⟨a, l, h1⟩ := reads_exists s
    obtain ⟨b, m, h2⟩ := reads_exists t
    simp only [flat, List.flatMap_cons, List.flatMap_nil]
    rw [parts_reads h1, parts_reads h2]
    exact keyLt_enc_ok _ _ _ _ _ _ (.inr ⟨rfl, rfl⟩) ⟨_, rfl⟩
  | cons h _ ih =>
    obtain ⟨a, l, b, m, h1, h2, h3⟩ := h
    rw [flat, flat, List.flatMap_cons, List.flatMap_cons, parts_reads h1, parts_reads h2]
    exact keyLt_enc_ok _ _ _ _ _ _ (.inl h3) ih

theorem keyLt_err (xs ys : List KPart) (e : PyErr) (h : keyLt xs ys = .error e) :
    e = .typeError := by
  induction xs generalizing ys with
  | nil => cases ys <;> simp [keyLt] at h
  | cons x xs ih => cases ys with
    | nil => simp [keyLt] at h
    | cons y ys =>
      rw [keyLt] at h
      split at h
      · exact ih _ h
      · cases x <;> cases y <;> simp [partLt] at h <;> exact h.symm

end

/-! ### Sorting -/

/-- what a sort does: reorders, in ascending order, leaving equal elements in their order -/
structure Sorts {α : Type} (r : α → α → Prop) (l l' : List α) : Prop where
  perm : l'.Perm l
  sorted : l'.Pairwise fun a b => ¬ r b a
  stable : ∀ p : α → Bool, (∀ a ∈ l, ∀ b ∈ l, p a = true → p b = true → ¬ r a b) →
    l'.filter p = l.filter p

section
variable {α : Type} {lt : α → α → Py Bool} {r : α → α → Prop}

theorem insertPy_sorts (hneg : ∀ x y z, ¬ r x y → ¬ r y z → ¬ r x z) (hirr : ∀ x, ¬ r x x)
    (htr : ∀ x y z, r x y → r y z → r x z)
    (x : α) (l l' : List α) (hs : l.Pairwise fun a b => ¬ r b a)
    (hok : ∀ y ∈ l, ∀ b, lt y x = .ok b → (b = true ↔ r y x))
    (h : insertPy lt x l = .ok l') : Sorts r (x :: l) l' := by
  induction l generalizing l' with
  | nil =>
    simp [insertPy] at h
    subst h
    exact ⟨List.Perm.refl _, by simp, fun _ _ => rfl⟩
  | cons y ys ih =>
    rw [insertPy] at h
    simp only [bind, Except.bind] at h
    cases hc : lt y x with
    | error e => simp [hc] at h
    | ok b =>
      have hb := hok y (by simp) b hc
      rw [hc] at h
      simp only at h
      rw [List.pairwise_cons] at hs
      cases b with
      | false =>
        simp at h
        subst h
        have hyx : ¬ r y x := fun h => by simpa using hb.2 h
        refine ⟨List.Perm.refl _, ?_, fun _ _ => rfl⟩
        rw [List.pairwise_cons, List.pairwise_cons]
        refine ⟨?_, hs.1, hs.2⟩
        intro z hz
        rcases List.mem_cons.1 hz with rfl | hz
        · exact hyx
        · exact hneg _ _ _ (hs.1 z hz) hyx
      | true =>
        have hyx : r y x := hb.1 rfl
        simp only [if_true] at h
        cases hi : insertPy lt x ys with
        | error e => simp [hi] at h
        | ok l2 =>
          simp [hi] at h
          subst h
          have := ih _ hs.2 (fun z hz => hok z (by simp [hz])) hi
          refine ⟨?_, ?_, ?_⟩
          · exact (List.Perm.cons y this.perm).trans (List.Perm.swap x y ys)
          · rw [List.pairwise_cons]
            refine ⟨?_, this.sorted⟩
            intro z hz
            rcases List.mem_cons.1 (this.perm.subset hz) with rfl | hz
            · intro h; exact hirr _ (htr _ _ _ h hyx)
            · exact hs.1 z hz
          · intro p hp
            rw [List.filter_cons, this.stable p (fun a ha b hb => hp a (by
              rcases List.mem_cons.1 ha with rfl | ha <;> simp [*]) b (by
              rcases List.mem_cons.1 hb with rfl | hb <;> simp [*]))]
            cases hpy : p y with
            | false => simp [List.filter_cons, hpy]
            | true =>
              cases hpx : p x with
              | false => simp [List.filter_cons, hpy, hpx]
              | true => exact absurd hyx (hp y (by simp) x (by simp) hpy hpx)

theorem sortPy_sorts (hneg : ∀ x y z, ¬ r x y → ¬ r y z → ¬ r x z) (hirr : ∀ x, ¬ r x x)
    (htr : ∀ x y z, r x y → r y z → r x z)
    (l l' : List α) (hok : ∀ x ∈ l, ∀ y ∈ l, ∀ b, lt x y = .ok b → (b = true ↔ r x y))
    (h : sortPy lt l = .ok l') : Sorts r l l' := by
  induction l generalizing l' with
  | nil => simp [sortPy] at h; subst h; exact ⟨List.Perm.refl _, by simp, fun _ _ => rfl⟩
  | cons x xs ih =>
    rw [sortPy] at h
    simp only [bind, Except.bind] at h
    cases hr : sortPy lt xs with
    | error e => simp [hr] at h
    | ok l2 =>
      rw [hr] at h
      have h2 := ih l2 (fun a ha b hb => hok a (by simp [ha]) b (by simp [hb])) hr
      have h3 := insertPy_sorts hneg hirr htr x l2 l' h2.sorted
        (fun y hy => hok y (by simp [h2.perm.subset hy]) x (by simp)) h
      refine ⟨h3.perm.trans (List.Perm.cons x h2.perm), h3.sorted, ?_⟩
      intro p hp
      have hm : ∀ a, a ∈ x :: l2 → a ∈ x :: xs := fun a ha => by
        rcases List.mem_cons.1 ha with rfl | ha
        · simp
        · simp [h2.perm.subset ha]
      rw [h3.stable p (fun a ha b hb => hp a (hm a ha) b (hm b hb)), List.filter_cons,
        h2.stable p (fun a ha b hb => hp a (by simp [ha]) b (by simp [hb])), ← List.filter_cons]

theorem insertPy_ok (x : α) (l : List α) (h : ∀ y ∈ l, ∃ b, lt y x = .ok b) :
    ∃ l', insertPy lt x l = .ok l' ∧ ∀ y ∈ l', y ∈ x :: l := by
  induction l with
  | nil => exact ⟨_, rfl, by simp⟩
  | cons y ys ih =>
    obtain ⟨b, hb⟩ := h y (by simp)
    obtain ⟨l2, h2, h3⟩ := ih (fun z hz => h z (by simp [hz]))
    simp only [insertPy, bind, Except.bind, hb, h2]
    cases b with
    | true =>
      refine ⟨_, rfl, ?_⟩
      intro z hz
      rcases List.mem_cons.1 hz with rfl | hz
      · simp
      · have := h3 z hz
        simp at this ⊢
        rcases this with h | h <;> simp [h]
    | false => exact ⟨_, rfl, by simp⟩

theorem sortPy_ok (l : List α) (h : ∀ x ∈ l, ∀ y ∈ l, ∃ b, lt x y = .ok b) :
    ∃ l', sortPy lt l = .ok l' ∧ ∀ y ∈ l', y ∈ l := by
  induction l with
  | nil => exact ⟨_, rfl, by simp⟩
  | cons x xs ih =>
    obtain ⟨l2, h2, h3⟩ := ih (fun a ha b hb => h a (by simp [ha]) b (by simp [hb]))
    obtain ⟨l3, h4, h5⟩ := insertPy_ok x l2 (fun y hy => h y (by simp [h3 y hy]) x (by simp))
    simp only [sortPy, bind, Except.bind, h2]
    refine ⟨l3, h4, ?_⟩
    intro y hy
    rcases List.mem_cons.1 (h5 y hy) with rfl | hy
    · simp
    · simp [h3 y hy]

theorem sortPy_err (hlt : ∀ x y e, lt x y = .error e → e = .typeError) (l : List α) (e : PyErr)
    (h : sortPy lt l = .error e) : e = .typeError := by
  have hins : ∀ (x : α) (l : List α) e, insertPy lt x l = .error e → e = .typeError := by
    intro x l
    induction l with
    | nil => intro e h; simp [insertPy] at h
    | cons y ys ih =>
      intro e h
      simp only [insertPy, bind, Except.bind] at h
      cases hc : lt y x with
      | error e' => simp [hc] at h; subst h; exact hlt _ _ _ hc
      | ok b =>
        rw [hc] at h
        cases b with
        | false => simp at h
        | true =>
          simp only [if_true] at h
          cases hi : insertPy lt x ys with
          | error e' => simp [hi] at h; subst h; exact ih _ hi
          | ok _ => simp [hi] at h
  induction l with
  | nil => simp [sortPy] at h
  | cons x xs ih =>
    simp only [sortPy, bind, Except.bind] at h
    cases hr : sortPy lt xs with
    | error e' => simp [hr] at h; subst h; exact ih hr
    | ok l2 => rw [hr] at h; exact hins _ _ _ h

end
section
variable [Uni]

theorem keyStrs_length {c v sks ss} (h : KeyStrs c v sks ss) : ss.length = sks.length := by
  induction h <;> simp [*]

theorem sortKey_ok {c v sks ss} (h : KeyStrs c v sks ss) : sortKey c v sks = .ok (flat ss) := by
  induction h with
  | nil => rfl
  | found h _ ih =>
    simp only [sortKey, keyStr, bind, Except.bind, h, ih]; rfl
  | missing h _ ih =>
    simp only [sortKey, keyStr, bind, Except.bind, h, ih]; rfl

theorem withKeys_ok {c sks up} (ks : Obj → List Str) (l : List Obj)
    (h : ∀ y ∈ l, KeyStrs c (.node y up) sks (ks y)) :
    withKeys c sks up l = .ok (l.map fun y => (flat (ks y), y)) := by
  induction l with
  | nil => rfl
  | cons y ys ih =>
    simp only [withKeys, bind, Except.bind, sortKey_ok (h y (by simp)),
      ih (fun z hz => h z (by simp [hz])), List.map_cons]

/-- the order of the keys of objects -/
def objLt (ks : Obj → List Str) (a b : List KPart × Obj) : Prop :=
  List.Lex (List.Lex kLt) ((ks a.2).map parts) ((ks b.2).map parts)

theorem objLt_neg (ks : Obj → List Str) (x y z) (h1 : ¬ objLt ks x y) (h2 : ¬ objLt ks y z) :
    ¬ objLt ks x z := by
  have so := lex_sto (lex_sto kLt_sto)
  intro h
  rcases so.tri ((ks x.2).map parts) ((ks y.2).map parts) with h3 | h3 | h3
  · exact h1 h3
  · rw [objLt, h3] at h; exact h2 h
  · exact h2 (so.trans _ _ _ h3 h)

/-- **C50** (partial): if the paths give strings, sorting either raises TypeError, or reorders the
objects in ascending order of their keys, numerals compared as numbers, objects with the same keys
remaining in their order.

Missing from the property: that it never raises TypeError, which is false (`C50_refuted`); see
`C50_succeeds`. -/
theorem C50_partial (c : XP.PCfg) (sks : List Str) (x : Obj) (up : List Obj) (ks : Obj → List Str)
    (hk : ∀ y ∈ x.kids, KeyStrs c (.node y (.mk x.data x.md [] :: up)) sks (ks y)) :
    sortKids c sks x up = .error .typeError ∨
    ∃ y, sortKids c sks x up = .ok y ∧ y.data = x.data ∧ y.md = x.md ∧
      y.kids.Perm x.kids ∧
      y.kids.Pairwise (fun a b => ¬ KeysLt (ks b) (ks a)) ∧
      ∀ p : Obj → Bool,
        (∀ a ∈ x.kids, ∀ b ∈ x.kids, p a = true → p b = true → KeysSame (ks a) (ks b)) →
        y.kids.filter p = x.kids.filter p := by
  have so := lex_sto (lex_sto kLt_sto)
  simp only [sortKids, bind, Except.bind, withKeys_ok ks x.kids hk]
  cases hs : sortPy (fun a b => keyLt a.1 b.1) (x.kids.map fun y => (flat (ks y), y)) with
  | error e =>
    left
    rw [sortPy_err (fun a b e h => keyLt_err _ _ e h) _ _ hs]
  | ok r =>
    right
    have hlen : ∀ a ∈ x.kids, ∀ b ∈ x.kids, (ks a).length = (ks b).length := fun a ha b hb => by
      rw [keyStrs_length (hk a ha), keyStrs_length (hk b hb)]
    have := sortPy_sorts (r := objLt ks) (objLt_neg ks) (fun _ => so.irrefl _)
      (fun _ _ _ => so.trans _ _ _) _ _ (by
        intro a ha b hb bb h
        obtain ⟨a, ha', rfl⟩ := List.mem_map.1 ha
        obtain ⟨b, hb', rfl⟩ := List.mem_map.1 hb
        rw [keyLt_sound _ _ (hlen a ha' b hb') _ h, keysLt_iff _ _ (hlen a ha' b hb')]
        rfl) hs
    have hperm : (r.map Prod.snd).Perm x.kids := by
      have := this.perm.map Prod.snd
      rw [List.map_map] at this
      simpa [Function.comp_def] using this
    refine ⟨_, rfl, rfl, rfl, hperm, ?_, ?_⟩
    · show (r.map Prod.snd).Pairwise _
      rw [List.pairwise_map]
      refine List.Pairwise.imp_of_mem ?_ this.sorted
      intro a b ha hb h
      rw [keysLt_iff _ _ (hlen _ (hperm.subset (List.mem_map_of_mem hb)) _
        (hperm.subset (List.mem_map_of_mem ha)))]
      exact h
    · intro p hp
      show (r.map Prod.snd).filter p = _
      rw [List.filter_map]
      have h2 := this.stable (fun a => p a.2) (by
        intro a ha b hb pa pb h
        obtain ⟨a, ha', rfl⟩ := List.mem_map.1 ha
        obtain ⟨b, hb', rfl⟩ := List.mem_map.1 hb
        have hsame := keysSame_map (hp a ha' b hb' pa pb)
        rw [objLt, hsame] at h
        exact so.irrefl _ h)
      rw [show (p ∘ Prod.snd) = fun a : List KPart × Obj => p a.2 from rfl, h2, List.filter_map,
        List.map_map]
      simp [Function.comp_def]

/-- **C50** (partial): sorting does not fail if there is one key, or if the keys of any two objects
contain the same number of numerals, except for the last key -/
theorem C50_succeeds (c : XP.PCfg) (sks : List Str) (x : Obj) (up : List Obj) (ks : Obj → List Str)
    (hk : ∀ y ∈ x.kids, KeyStrs c (.node y (.mk x.data x.md [] :: up)) sks (ks y))
    (ha : sks.length ≤ 1 ∨ ∀ a ∈ x.kids, ∀ b ∈ x.kids, Aligned (ks a) (ks b)) :
    ∃ y, sortKids c sks x up = .ok y := by
  have hal : ∀ a ∈ x.kids, ∀ b ∈ x.kids, Aligned (ks a) (ks b) := by
    rcases ha with ha | ha
    · intro a h1 b h2
      have l1 := keyStrs_length (hk a h1)
      have l2 := keyStrs_length (hk b h2)
      match hka : ks a, hkb : ks b with
      | [], [] => exact .nil
      | [s], [t] => exact .one
      | [], t :: ts => rw [hka] at l1; rw [hkb] at l2; simp at l1 l2; omega
      | s :: ss, [] => rw [hka] at l1; rw [hkb] at l2; simp at l1 l2; omega
      | s :: s' :: ss, _ => rw [hka] at l1; simp at l1; omega
      | _, t :: t' :: ts => rw [hkb] at l2; simp at l2; omega
    · exact ha
  obtain ⟨r, h, _⟩ := sortPy_ok (lt := fun a b : List KPart × Obj => keyLt a.1 b.1)
    (x.kids.map fun y => (flat (ks y), y)) (by
      intro a ha b hb
      obtain ⟨a, ha', rfl⟩ := List.mem_map.1 ha
      obtain ⟨b, hb', rfl⟩ := List.mem_map.1 hb
      exact keyLt_ok (hal a ha' b hb'))
  simp only [sortKids, bind, Except.bind, withKeys_ok ks x.kids hk, h]
  exact ⟨_, rfl⟩

/-- the order is total: of two lists of keys one is less or they are the same -/
theorem C50_total (ss ts : List Str) (hlen : ss.length = ts.length) :
    (KeysLt ss ts ∨ KeysSame ss ts ∨ KeysLt ts ss) ∧ ¬ KeysLt ss ss ∧
    ∀ us, us.length = ss.length → KeysLt ss ts → KeysLt ts us → KeysLt ss us := by
  have so := lex_sto (lex_sto kLt_sto)
  refine ⟨?_, ?_, ?_⟩
  · rcases so.tri (ss.map parts) (ts.map parts) with h | h | h
    · exact .inl ((keysLt_iff _ _ hlen).2 h)
    · refine .inr (.inl ?_)
      clear so
      induction ss generalizing ts with
      | nil => cases ts with
        | nil => exact .nil
        | cons => simp at hlen
      | cons s ss ih => cases ts with
        | nil => simp at hlen
        | cons t ts =>
          injection h with h1 h2
          exact .cons ((natSame_iff _ _).2 h1) (ih ts (by simpa using hlen) h2)
    · exact .inr (.inr ((keysLt_iff _ _ hlen.symm).2 h))
  · rw [keysLt_iff _ _ rfl]; exact so.irrefl _
  · intro us hu h1 h2
    rw [keysLt_iff _ _ hlen] at h1
    rw [keysLt_iff _ _ (by omega)] at h2
    rw [keysLt_iff _ _ (by omega)]
    exact so.trans _ _ _ h1 h2

end

/-! ### The whole script (C68) -/

/-- `y` is `x` but for the order of the objects in it, up to the given depth -/
def Reord : Nat → Obj → Obj → Prop
  | 0, x, y => y = x
  | n + 1, x, y => y.data = x.data ∧ y.md = x.md ∧ ∃ l, l.Perm x.kids ∧ All2 (Reord n) l y.kids

theorem all2_self {α : Type} {R : α → α → Prop} (h : ∀ x, R x x) (l : List α) : All2 R l l := by
  induction l with
  | nil => exact .nil
  | cons x l ih => exact .cons (h x) ih

theorem all2_perm {α β : Type} {R : α → β → Prop} {m k : List β} (hp : m.Perm k) :
    ∀ l, All2 R l k → ∃ l', l'.Perm l ∧ All2 R l' m := by
  induction hp with
  | nil => intro l h; exact ⟨l, List.Perm.refl _, h⟩
  | cons x _ ih =>
    intro l h
    cases h with
    | cons h1 h2 =>
      obtain ⟨l', h3, h4⟩ := ih _ h2
      exact ⟨_, List.Perm.cons _ h3, .cons h1 h4⟩
  | swap x y l =>
    intro l h
    cases h with
    | cons h1 h2 => cases h2 with
      | cons h2 h3 => exact ⟨_, List.Perm.swap _ _ _, .cons h2 (.cons h1 h3)⟩
  | trans _ _ ih1 ih2 =>
    intro l h
    obtain ⟨l1, h1, h2⟩ := ih2 l h
    obtain ⟨l2, h3, h4⟩ := ih1 l1 h2
    exact ⟨l2, h3.trans h1, h4⟩

theorem all2_trans {α : Type} {R : α → α → Prop} (hR : ∀ x y z, R x y → R y z → R x z) {l m n : List α}
    (h1 : All2 R l m) (h2 : All2 R m n) : All2 R l n := by
  induction h1 generalizing n with
  | nil => cases h2; exact .nil
  | cons h _ ih => cases h2 with
    | cons h' h2 => exact .cons (hR _ _ _ h h') (ih h2)

theorem reord_refl (n : Nat) : ∀ x, Reord n x x := by
  induction n with
  | zero => intro x; exact rfl
  | succ n ih => intro x; exact ⟨rfl, rfl, _, List.Perm.refl _, all2_self ih _⟩

theorem reord_trans (n : Nat) : ∀ x y z, Reord n x y → Reord n y z → Reord n x z := by
  induction n with
  | zero => intro x y z h1 h2; exact Eq.trans h2 h1
  | succ n ih =>
    rintro x y z ⟨a1, a2, l, a3, a4⟩ ⟨b1, b2, m, b3, b4⟩
    obtain ⟨l', h1, h2⟩ := all2_perm b3 l a4
    exact ⟨b1.trans a1, b2.trans a2, l', h1.trans a3, all2_trans ih h2 b4⟩

theorem reord_perm {n : Nat} {x y : Obj} (h1 : y.data = x.data) (h2 : y.md = x.md)
    (h3 : y.kids.Perm x.kids) : Reord (n + 1) x y :=
  ⟨h1, h2, _, h3, all2_self (reord_refl n) _⟩

theorem insertPy_perm {α : Type} (lt : α → α → Py Bool) (x : α) (l l' : List α)
    (h : insertPy lt x l = .ok l') : l'.Perm (x :: l) := by
  induction l generalizing l' with
  | nil => simp [insertPy] at h; subst h; exact List.Perm.refl _
  | cons y ys ih =>
    simp only [insertPy, bind, Except.bind] at h
    cases hc : lt y x with
    | error e => simp [hc] at h
    | ok b =>
      rw [hc] at h
      cases b with
      | false => simp at h; subst h; exact List.Perm.refl _
      | true =>
        simp only [if_true] at h
        cases hi : insertPy lt x ys with
        | error e => simp [hi] at h
        | ok l2 =>
          simp [hi] at h
          subst h
          exact (List.Perm.cons y (ih _ hi)).trans (List.Perm.swap x y ys)

theorem sortPy_perm {α : Type} (lt : α → α → Py Bool) (l l' : List α)
    (h : sortPy lt l = .ok l') : l'.Perm l := by
  induction l generalizing l' with
  | nil => simp [sortPy] at h; subst h; exact List.Perm.refl _
  | cons x xs ih =>
    simp only [sortPy, bind, Except.bind] at h
    cases hr : sortPy lt xs with
    | error e => simp [hr] at h
    | ok l2 =>
      rw [hr] at h
      exact (insertPy_perm lt x l2 l' h).trans (List.Perm.cons x (ih _ hr))

section
variable [Uni]

theorem withKeys_snd {c sks up} (l : List Obj) (r) (h : withKeys c sks up l = .ok r) :
    r.map Prod.snd = l := by
  induction l generalizing r with
  | nil => simp [withKeys] at h; subst h; rfl
  | cons y ys ih =>
    simp only [withKeys, bind, Except.bind] at h
    cases h1 : sortKey c (.node y up) sks with
    | error e => simp [h1] at h
    | ok k =>
      rw [h1] at h
      cases h2 : withKeys c sks up ys with
      | error e => simp [h2] at h
      | ok r2 => simp [h2] at h; subst h; simp [ih _ h2]

theorem sortKids_reord {c sks x up y} (n : Nat) (h : sortKids c sks x up = .ok y) : Reord (n + 1) x y := by
  simp only [sortKids, bind, Except.bind] at h
  cases h1 : withKeys c sks (.mk x.data x.md [] :: up) x.kids with
  | error e => simp [h1] at h
  | ok l =>
    rw [h1] at h
    simp only at h
    cases h2 : sortPy (fun a b => keyLt a.1 b.1) l with
    | error e => simp [h2] at h
    | ok r =>
      simp only [h2] at h
      injection h with h
      subst h
      refine reord_perm rfl rfl ?_
      show (r.map Prod.snd).Perm _
      have := (sortPy_perm _ _ _ h2).map Prod.snd
      rwa [withKeys_snd _ _ h1] at this

theorem forKids_all2 {f : Obj → List Obj → Run Obj} {x up} {R : Obj → Obj → Prop}
    (hf : ∀ y up y', f y up = some (.ok y') → R y y') (l l' : List Obj)
    (h : forKids f x up l = some (.ok l')) : All2 R l l' := by
  induction l generalizing l' with
  | nil => simp [forKids] at h; subst h; exact .nil
  | cons y ys ih =>
    rw [forKids] at h
    split at h
    · cases h
    · cases h
    · rename_i y' h1
      split at h
      · cases h
      · cases h
      · rename_i ys' h2
        injection h with h
        injection h with h
        subst h
        exact .cons (hf _ _ _ h1) (ih _ h2)

theorem eachKid_reord {f : Obj → List Obj → Run Obj} {n : Nat}
    (hf : ∀ y up y', f y up = some (.ok y') → Reord n y y') (x : Obj) (up : List Obj) (y : Obj)
    (h : eachKid f x up = some (.ok y)) : Reord (n + 1) x y := by
  rw [eachKid] at h
  cases h1 : forKids f x up x.kids with
  | none => simp [h1] at h
  | some r => cases r with
    | error e => simp [h1, Except.map] at h
    | ok ys =>
      simp [h1, Except.map] at h
      subst h
      exact ⟨rfl, rfl, _, List.Perm.refl _, forKids_all2 hf _ _ h1⟩

theorem depSort_reord {n deps igt y} (k : Nat) (h : depSort n deps igt = some (.ok y)) :
    Reord (k + 1) igt y := by
  rw [depSort] at h
  cases h1 : sortTiers n deps igt.kids with
  | none => simp [h1] at h
  | some r => cases r with
    | error e => simp [h1, Except.map] at h
    | ok ts =>
      simp [h1, Except.map] at h
      subst h
      refine reord_perm rfl rfl ?_
      rw [sortTiers] at h1
      split at h1
      · cases h1
      · cases h1
      · injection h1 with h1
        injection h1 with h1
        subst h1
        exact sortBy_perm _ _

theorem thenRun_ok {α β : Type} {r : Run α} {f : α → Run β} {b : β} (h : thenRun r f = some (.ok b)) :
    ∃ a, r = some (.ok a) ∧ f a = some (.ok b) := by
  rw [thenRun.eq_def] at h
  split at h
  · cases h
  · cases h
  · exact ⟨_, rfl, h⟩

/-- **C68**: whatever the keys, a corpus that was sorted without an exception differs from the input
only in the order of the IGTs, of the tiers in IGTs and of the items in tiers -/
theorem C68_reorders (c : XP.PCfg) (n : Nat) (a : Args) (xc y : Obj)
    (h : run c n a xc = some (.ok y)) : Reord 3 xc y := by
  rw [run] at h
  obtain ⟨x1, h1, h⟩ := thenRun_ok h
  obtain ⟨x2, h2, h⟩ := thenRun_ok h
  have r1 : Reord 3 xc x1 := by
    split at h1
    · injection h1 with h1; exact sortKids_reord 2 h1
    · injection h1 with h1; injection h1 with h1; subst h1; exact reord_refl _ _
  have r2 : Reord 3 x1 x2 := by
    split at h2
    · exact eachKid_reord (n := 2) (fun y up y' h => sortKids_reord 1 (Option.some.inj h)) _ _ _ h2
    · split at h2
      · exact eachKid_reord (n := 2) (fun y up y' h => depSort_reord 1 h) _ _ _ h2
      · injection h2 with h2; injection h2 with h2; subst h2; exact reord_refl _ _
  have r3 : Reord 3 x2 y := by
    split at h
    · exact eachKid_reord (n := 2) (fun y up y' h => eachKid_reord (n := 1)
        (fun y up y' h => sortKids_reord 0 (Option.some.inj h)) _ _ _ h) _ _ _ h
    · injection h with h; injection h with h; subst h; exact reord_refl _ _
  exact reord_trans _ _ _ _ (reord_trans _ _ _ _ r1 r2) r3

end

/-! ### Examples -/

section
attribute [local instance] asciiUni

def exIgt (i t : Str) : Obj := .mk { cls := .igt, id := some i, type := some t } [] []
def exCorpus (l : List (Str × Str)) : Obj := .mk { cls := .corpus } [] (l.map fun p => exIgt p.1 p.2)
def exCfg : XP.PCfg := ⟨10, fun _ => [], fun _ => []⟩

def outIds (r : Py Obj) : Py (List (Option Str)) := r.map fun x => x.kids.map fun y => y.data.id

/-- numerals are compared as numbers -/
example : outIds (sortKids exCfg [lit! "@id"] (exCorpus [(lit! "i10", []), (lit! "i2", []), (lit! "i", []), (lit! "h2b", []), (lit! "h2a10", [])]) []) =
    .ok [some (lit! "h2a10"), some (lit! "h2b"), some (lit! "i"), some (lit! "i2"), some (lit! "i10")] := by
  decide +kernel

/-- the first key decides, then the second; the same keys remain in their order -/
example : outIds (sortKids exCfg [lit! "@type", lit! "@id"] (exCorpus [(lit! "i1", lit! "b"), (lit! "i", lit! "b"), (lit! "x01", lit! "a"), (lit! "x1", lit! "a")]) []) =
    .ok [some (lit! "x01"), some (lit! "x1"), some (lit! "i"), some (lit! "i1")] := by
  decide +kernel

theorem exKeys (i t : Str) (up : List Obj) :
    KeyStrs exCfg (.node (exIgt i t) up) [lit! "@type", lit! "@id"] [t, i] :=
  .found (XP.C43_find_first _ _ _ _ (XP.C48_member _ _ _).2.1)
    (.found (XP.C43_find_first _ _ _ _ (XP.C48_member _ _ _).1) .nil)

/-- the hypothesis of the theorems holds for every such corpus -/
example (l : List (Str × Str)) (up) : ∀ y ∈ (exCorpus l).kids,
    KeyStrs exCfg (.node y up) [lit! "@type", lit! "@id"] [y.data.type.getD [], y.data.id.getD []] := by
  intro y hy
  obtain ⟨p, _, rfl⟩ := List.mem_map.1 hy
  exact exKeys _ _ _

/-- the alignment in `C50_succeeds` -/
example : Aligned [lit! "b", lit! "i1"] [lit! "a", lit! "i"] :=
  .cons ⟨lit! "b", [], lit! "a", [], .last (by decide), .last (by decide), rfl⟩ .one

example : NatLt (lit! "i2") (lit! "i10") :=
  ⟨lit! "i", [(2, [])], lit! "i", [(10, [])],
    .more (a := lit! "i") (d := lit! "2") (s := []) (by decide) (by decide) (by decide) (by simp) (.last (by simp)),
    .more (a := lit! "i") (d := lit! "10") (s := []) (by decide) (by decide) (by decide) (by simp) (.last (by simp)),
    .num (by decide)⟩

/-- C50 is false for several keys: types `b` and `b1` with IDs `i1` and `i` cannot be sorted -/
theorem C50_refuted : ∃ (c : XP.PCfg) (sks : List Str) (x : Obj),
    (∀ y ∈ x.kids, ∃ ss, KeyStrs c (.node y [.mk x.data x.md []]) sks ss) ∧
    sortKids c sks x [] = .error .typeError := by
  refine ⟨exCfg, [lit! "@type", lit! "@id"], exCorpus [(lit! "i1", lit! "b"), (lit! "i", lit! "b1")], ?_, ?_⟩
  · intro y hy
    obtain ⟨p, _, rfl⟩ := List.mem_map.1 hy
    exact ⟨_, exKeys _ _ _⟩
  · have h : outIds (sortKids exCfg [lit! "@type", lit! "@id"] (exCorpus [(lit! "i1", lit! "b"), (lit! "i", lit! "b1")]) []) = .error .typeError := by
      decide +kernel
    cases hs : sortKids exCfg [lit! "@type", lit! "@id"] (exCorpus [(lit! "i1", lit! "b"), (lit! "i", lit! "b1")]) [] with
    | error e => rw [hs] at h; simp [outIds, Except.map] at h; rw [h]
    | ok y => rw [hs] at h; simp [outIds, Except.map] at h

def exTier (i : Str) (deps : Dict Str Str) (l : List Str) : Obj :=
  .mk { cls := .tier, id := some i, attrs := deps } [] (l.map fun j => .mk { cls := .item, id := some j } [] [])
def exDoc : Obj := .mk { cls := .corpus } [] [.mk { cls := .igt, id := some (lit! "i1") } []
  [exTier (lit! "w") [(lit! "segmentation", lit! "p")] [lit! "w10", lit! "w9"], exTier (lit! "p") [] [lit! "p1"]]]

/-- the IDs of the tiers and items -/
def ids (x : Obj) : List Str :=
  x.kids.flatMap fun igt => igt.kids.flatMap fun t => t.data.id.getD [] :: t.kids.map fun i => i.data.id.getD []

def runIds (r : Run Obj) : List Str :=
  match r with
  | some (.ok x) => ids x
  | _ => []

/-- `run` on a corpus, with a reordering at two levels -/
example : runIds (run exCfg 10 { tierDeps := [lit! "segmentation"], itemKey := [lit! "@id"] } exDoc) =
    [lit! "p", lit! "p1", lit! "w", lit! "w9", lit! "w10"] := by
  decide +kernel

end
end Xigt.Srt
