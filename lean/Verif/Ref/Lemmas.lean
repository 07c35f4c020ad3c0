import Verif.Ref.Spec
import Verif.RegexLemmas
/- Helper lemmas about the reference-expression patterns. -/

set_option linter.unusedSimpArgs false

namespace Xigt
variable [Uni]
open Re

/-! ### Character classes -/

omit [Uni] in
theorem isLetter_lt {c : Char} (h : isLetter c = true) : c.toNat < 128 := by
  simp only [isLetter, Bool.or_eq_true, Bool.and_eq_true, decide_eq_true_eq] at h; omega

theorem isLetter_word {c : Char} (h : isLetter c = true) : Uni.isWord c = true := by
  rw [Uni.ascii_word c (isLetter_lt h)]
  simp only [isLetter, Bool.or_eq_true, Bool.and_eq_true, decide_eq_true_eq] at h
  simp only [Bool.or_eq_true, Bool.and_eq_true, decide_eq_true_eq, beq_iff_eq]; omega

theorem isLetter_idChar {c : Char} (h : isLetter c = true) : isIdChar c = true := by
  simp [isIdChar, isLetter_word h]

theorem isLetter_not_digit {c : Char} (h : isLetter c = true) : Uni.digit c = none := by
  rw [Uni.ascii_digit c (isLetter_lt h)]
  simp only [isLetter, Bool.or_eq_true, Bool.and_eq_true, decide_eq_true_eq] at h
  rw [if_neg (by omega)]

theorem digit_idChar {c : Char} (h : (Uni.digit c).isSome = true) : isIdChar c = true := by
  obtain ⟨n, hn⟩ := Option.isSome_iff_exists.1 h
  simp [isIdChar, Uni.digit_word c n hn]

theorem digit_not_letter {c : Char} (h : (Uni.digit c).isSome = true) : isLetter c = false := by
  cases hl : isLetter c with
  | false => rfl
  | true => simp [isLetter_not_digit hl] at h

/-- decides class membership of a concrete ASCII character -/
theorem word_ascii {c : Char} (b : Bool) (h : c.toNat < 128)
    (hb : ((48 ≤ c.toNat && c.toNat ≤ 57) || (65 ≤ c.toNat && c.toNat ≤ 90) || c.toNat == 95
      || (97 ≤ c.toNat && c.toNat ≤ 122)) = b) : Uni.isWord c = b := by
  rw [Uni.ascii_word c h, hb]

theorem digit_ascii {c : Char} (r : Option Nat) (h : c.toNat < 128)
    (hb : (if 48 ≤ c.toNat ∧ c.toNat ≤ 57 then some (c.toNat - 48) else none) = r) :
    Uni.digit c = r := by
  rw [Uni.ascii_digit c h, hb]

theorem idChar_lbrack : isIdChar '[' = false := by
  simp [isIdChar, word_ascii false (c := '[') (by decide) (by decide)]
theorem idChar_rbrack : isIdChar ']' = false := by
  simp [isIdChar, word_ascii false (c := ']') (by decide) (by decide)]
theorem idChar_colon : isIdChar ':' = false := by
  simp [isIdChar, word_ascii false (c := ':') (by decide) (by decide)]
theorem idChar_plus : isIdChar '+' = false := by
  simp [isIdChar, word_ascii false (c := '+') (by decide) (by decide)]
theorem idChar_comma : isIdChar ',' = false := by
  simp [isIdChar, word_ascii false (c := ',') (by decide) (by decide)]
theorem idChar_space : isIdChar ' ' = false := by
  simp [isIdChar, word_ascii false (c := ' ') (by decide) (by decide)]
theorem idChar_newline : isIdChar '\n' = false := by
  simp [isIdChar, word_ascii false (c := '\n') (by decide) (by decide)]
theorem idChar_dash : isIdChar '-' = true := by simp [isIdChar]
omit [Uni] in
theorem letter_dash : isLetter '-' = false := by decide
omit [Uni] in
theorem letter_lbrack : isLetter '[' = false := by decide
omit [Uni] in
theorem letter_rbrack : isLetter ']' = false := by decide
omit [Uni] in
theorem letter_colon : isLetter ':' = false := by decide
theorem digit_dash : Uni.digit '-' = none := digit_ascii _ (by decide) (by decide)
theorem digit_colon : Uni.digit ':' = none := digit_ascii _ (by decide) (by decide)

theorem numChar_idChar {c : Char} (h : isNumChar c = true) : isIdChar c = true := by
  simp only [isNumChar, Uni.isDigit, Bool.or_eq_true, beq_iff_eq] at h
  rcases h with h | h
  · subst h; simp [isIdChar]
  · exact digit_idChar h

theorem numChar_of_not_idChar {c : Char} (h : isIdChar c = false) : isNumChar c = false := by
  cases hn : isNumChar c with
  | false => rfl
  | true => rw [numChar_idChar hn] at h; cases h

theorem not_dash_of_not_idChar {c : Char} (h : isIdChar c = false) : c ≠ '-' := by
  rintro rfl; simp [isIdChar] at h

theorem not_letter_of_not_idChar {c : Char} (h : isIdChar c = false) : isLetter c = false := by
  cases hn : isLetter c with
  | false => rfl
  | true => rw [isLetter_idChar hn] at h; cases h

theorem idChar_eq : idChar = isIdChar := rfl
theorem letter_eq : letter = isLetter := rfl

theorem spanDelim_of_delim {d : Char} (h : DelimOK d) : isSpanDelim d = true := by
  have h1 : isIdChar d = false := h.1
  have : Uni.isDigit d = false := by
    cases hd : Uni.isDigit d with
    | false => rfl
    | true => rw [digit_idChar hd] at h1; cases h1
  simp only [isIdChar, Bool.or_eq_false_iff] at h1
  simp [isSpanDelim, h1, this, h.2.1]

theorem sepOK_of_delim {d : Char} (h : DelimOK d) : SepOK [d] := by
  refine ⟨⟨d, [], rfl, h.1, h.2.2.1⟩, ?_⟩
  intro c hc
  simp at hc; subst hc
  exact ⟨not_letter_of_not_idChar h.1, h.2.2.2.2⟩

theorem delim_plus : DelimOK '+' := ⟨idChar_plus, by decide, by decide, by decide, by decide⟩
theorem delim_comma : DelimOK ',' := ⟨idChar_comma, by decide, by decide, by decide, by decide⟩
theorem delim_space : DelimOK ' ' := ⟨idChar_space, by decide, by decide, by decide, by decide⟩

theorem Expr.Simple.ok {e : Expr} (h : e.Simple) : e.OK := by
  refine ⟨h.1, fun p hp => ?_⟩
  obtain ⟨⟨d, hd, hok⟩, hs⟩ := h.2 p hp
  exact ⟨hd ▸ sepOK_of_delim hok, hs⟩

/-- what may follow an ID: nothing, or a non-ID character -/
def Brk (p : Char → Bool) (s : Str) : Prop := ∀ c cs, s = c :: cs → p c = false

omit [Uni] in
theorem brk_nil (p : Char → Bool) : Brk p [] := by intro c cs h; cases h
omit [Uni] in
theorem brk_cons {p : Char → Bool} {c cs} (h : p c = false) : Brk p (c :: cs) := by
  intro c' cs' h'; cases h'; exact h

omit [Uni] in
theorem takeWhile_append_brk {p : Char → Bool} : ∀ {a b : Str}, (∀ c ∈ a, p c = true) → Brk p b →
    (a ++ b).takeWhile p = a := by
  intro a
  induction a with
  | nil =>
    intro b _ hb
    cases b with
    | nil => rfl
    | cons c cs => simp [hb c cs rfl]
  | cons x xs ih =>
    intro b ha hb
    simp [ha x (by simp), ih (fun c hc => ha c (by simp [hc])) hb]

omit [Uni] in
theorem dropWhile_append_brk {p : Char → Bool} : ∀ {a b : Str}, (∀ c ∈ a, p c = true) → Brk p b →
    (a ++ b).dropWhile p = b := by
  intro a
  induction a with
  | nil =>
    intro b _ hb
    cases b with
    | nil => rfl
    | cons c cs => simp [hb c cs rfl]
  | cons x xs ih =>
    intro b ha hb
    simp [ha x (by simp), ih (fun c hc => ha c (by simp [hc])) hb]

/-! ### Pieces of the patterns -/

theorem idOK_chars {i : Str} (h : IdOK i) : ∀ c ∈ i, isIdChar c = true := by
  obtain ⟨c, cs, rfl, hc, hcs⟩ := h
  intro x hx
  simp at hx
  rcases hx with rfl | hx
  · exact isLetter_idChar hc
  · exact hcs x hx

theorem idOK_ne {i : Str} (h : IdOK i) : i ≠ [] := by
  obtain ⟨c, cs, rfl, _⟩ := h; simp

theorem first_idRe {i more : Str} (h : IdOK i) (hm : Brk isIdChar more) (b caps) :
    first idRe ⟨b, i ++ more, caps⟩ = some (i, ⟨false, more, caps⟩) := by
  obtain ⟨c, cs, rfl, hc, hcs⟩ := h
  rw [letter_eq] at hc; rw [idChar_eq] at hcs
  rw [idRe, List.cons_append,
    first_seq_of (x := ([c], ⟨false, cs ++ more, caps⟩)) (by rw [first_cls_cons, if_pos hc])
      (first_star_cls _ _ _ _)]
  simp [takeWhile_append_brk hcs hm, dropWhile_append_brk hcs hm]

theorem first_idRe_none {s : Str} (h : Brk isLetter s) (b caps) :
    first idRe ⟨b, s, caps⟩ = none := by
  rw [idRe]
  apply first_seq_none_left
  cases s with
  | nil => exact first_cls_nil
  | cons c cs => rw [first_cls_cons]; simp [h c cs rfl]

theorem numChar_of_digit {c : Char} (h : (Uni.digit c).isSome = true) : isNumChar c = true := by
  simp [isNumChar, Uni.isDigit, h]

theorem first_numRe {n : Num} (h : n.OK) {more : Str} (hm : Brk isNumChar more) (b caps) :
    first numRe ⟨b, n.render ++ more, caps⟩ = some (n.render, ⟨false, more, caps⟩) := by
  have hds : ∀ c ∈ n.digits, isNumChar c = true := fun c hc => numChar_of_digit (h.2 c hc)
  have hp : ∀ b, first (plus (cls isNumChar)) ⟨b, n.digits ++ more, caps⟩ =
      some (n.digits, ⟨false, more, caps⟩) := by
    intro b
    rw [first_plus_cls, takeWhile_append_brk hds hm, dropWhile_append_brk hds hm, if_neg h.1]
  rw [numRe, Num.render]
  cases n.neg with
  | true =>
    simp only [if_true, List.cons_append, List.nil_append]
    rw [first_seq_of (x := (['-'], ⟨false, n.digits ++ more, caps⟩)) _ (hp _)]
    · rfl
    · rw [first_opt, first_chr_cons]; simp
  | false =>
    simp only [Bool.false_eq_true, if_false, List.nil_append]
    rw [first_seq_of (x := ([], ⟨b, n.digits ++ more, caps⟩)) _ (hp _)]
    · rfl
    · obtain ⟨c, cs, hcs⟩ := List.exists_cons_of_ne_nil h.1
      rw [hcs, List.cons_append, first_opt, first_chr_cons]
      have : c ≠ '-' := by
        rintro rfl
        have := h.2 '-' (by simp [hcs])
        simp [digit_dash] at this
      simp [this]

theorem first_numRe_none {s : Str} (h : Brk isNumChar s) (hd : ∀ cs, s ≠ '-' :: cs) (b caps) :
    first numRe ⟨b, s, caps⟩ = none := by
  have hr : (opt (chr '-')).run ⟨b, s, caps⟩ = [([], ⟨b, s, caps⟩)] := by
    cases s with
    | nil => rfl
    | cons c cs =>
      have : (c == '-') = false := by
        rw [beq_eq_false_iff_ne]; rintro rfl; exact hd cs rfl
      simp [opt, chr, run, this]
  rw [numRe, first_seq_single hr, first_plus_cls]
  cases s with
  | nil => rfl
  | cons c cs => simp [h c cs rfl]

theorem num_head {n : Num} (h : n.OK) : ∃ c cs, n.render = c :: cs ∧ isSpanDelim c = false := by
  obtain ⟨c, cs, hcs⟩ := List.exists_cons_of_ne_nil h.1
  unfold Num.render
  cases n.neg with
  | true => exact ⟨'-', n.digits, by simp, by simp [isSpanDelim]⟩
  | false =>
    refine ⟨c, cs, by simp [hcs], ?_⟩
    have := h.2 c (by simp [hcs])
    simp [isSpanDelim, Uni.isDigit, this]

theorem first_span_body {s : SpanE} (h : s.OK) {more : Str} (hm : Brk isNumChar more) (b caps) :
    first (.seq numRe (.seq (.chr ':') numRe)) ⟨b, s.render ++ more, caps⟩ =
      some (s.render, ⟨false, more, caps⟩) := by
  have hc : Brk isNumChar (':' :: (s.b.render ++ more)) :=
    brk_cons (numChar_of_not_idChar idChar_colon)
  have e : s.render ++ more = s.a.render ++ (':' :: (s.b.render ++ more)) := by
    simp [SpanE.render]
  rw [e, first_seq_of (first_numRe h.1 hc b caps)
    (first_seq_of (x := ([':'], ⟨false, s.b.render ++ more, caps⟩)) (by rw [first_chr_cons]; simp)
      (first_numRe h.2 hm _ _))]
  simp [SpanE.render]

theorem first_unit {s : SpanE} (h : s.OK) {more : Str} (hm : Brk isNumChar more) (b caps) :
    first rangeUnitRe ⟨b, s.render ++ more, caps⟩ = some (s.render, ⟨false, more, caps⟩) := by
  have : first (opt (cls isSpanDelim)) ⟨b, s.render ++ more, caps⟩ =
      some ([], ⟨b, s.render ++ more, caps⟩) := by
    obtain ⟨c, cs, hcs, hn⟩ := num_head h.1
    rw [first_opt, SpanE.render, hcs]
    simp only [List.cons_append]
    rw [first_cls_cons]; simp [hn]
  rw [rangeUnitRe, first_seq_of this (first_span_body h hm _ _)]
  rfl

theorem first_unit_delim {s : SpanE} (h : s.OK) {d : Char} (hd : DelimOK d) {more : Str}
    (hm : Brk isNumChar more) (b caps) :
    first rangeUnitRe ⟨b, d :: (s.render ++ more), caps⟩ =
      some (d :: s.render, ⟨false, more, caps⟩) := by
  rw [rangeUnitRe, first_seq_of (x := ([d], ⟨false, s.render ++ more, caps⟩)) _
    (first_span_body h hm _ _)]
  · rfl
  · rw [first_opt, first_cls_cons]; simp [spanDelim_of_delim hd]

/-- after a range: end of string or a non-ID character -/
theorem first_unit_rbrack {more : Str} (hm : Brk isIdChar more) (b caps) :
    first rangeUnitRe ⟨b, ']' :: more, caps⟩ = none := by
  have hr : (opt (cls isSpanDelim)).run ⟨b, ']' :: more, caps⟩ =
      [([']'], ⟨false, more, caps⟩), ([], ⟨b, ']' :: more, caps⟩)] := by
    have : isSpanDelim ']' = true := by
      simp [isSpanDelim, Uni.isDigit, digit_ascii none (c := ']') (by decide) (by decide)]
    simp [opt, run, this]
  have hmn : Brk isNumChar more := fun c cs h => numChar_of_not_idChar (hm c cs h)
  rw [rangeUnitRe, first_seq, hr]
  simp only [List.findSome?_cons, List.findSome?_nil]
  rw [first_seq_none_left (first_numRe_none hmn (fun cs h =>
      absurd rfl (not_dash_of_not_idChar (hm _ _ h))) _ _),
    first_seq_none_left (first_numRe_none (brk_cons (numChar_of_not_idChar idChar_rbrack))
      (by intro cs h; cases h) _ _)]
  rfl

theorem brk_num_of_rtail {l : List (Char × SpanE)} (h : ∀ p ∈ l, DelimOK p.1 ∧ p.2.OK) (more) :
    Brk isNumChar ((l.flatMap fun p => p.1 :: p.2.render) ++ ']' :: more) := by
  cases l with
  | nil => exact brk_cons (numChar_of_not_idChar idChar_rbrack)
  | cons p ps =>
    exact brk_cons (numChar_of_not_idChar (h p (by simp)).1.1)

theorem first_star_units {more : Str} (hm : Brk isIdChar more) :
    ∀ (l : List (Char × SpanE)), (∀ p ∈ l, DelimOK p.1 ∧ p.2.OK) → ∀ b caps,
    ∃ b', first (star rangeUnitRe)
      ⟨b, (l.flatMap fun p => p.1 :: p.2.render) ++ ']' :: more, caps⟩ =
      some (l.flatMap fun p => p.1 :: p.2.render, ⟨b', ']' :: more, caps⟩) := by
  intro l
  induction l with
  | nil =>
    intro _ b caps
    exact ⟨b, first_star_stop (first_unit_rbrack hm b caps)⟩
  | cons p ps ih =>
    intro h b caps
    have hp := h p (by simp)
    have hps : ∀ q ∈ ps, DelimOK q.1 ∧ q.2.OK := fun q hq => h q (by simp [hq])
    obtain ⟨b', hb'⟩ := ih hps false caps
    refine ⟨b', ?_⟩
    have h1 := first_unit_delim hp.2 hp.1 (brk_num_of_rtail hps more) b caps
    have := first_star_step h1 (by simp) hb'
    simpa using this

theorem first_range {r : RangeE} (h : r.OK) {more : Str} (hm : Brk isIdChar more) (b caps) :
    first rangeRe ⟨b, '[' :: (r.render ++ ']' :: more), caps⟩ =
      some ('[' :: (r.render ++ [']']), ⟨false, more, (3, r.render) :: caps⟩) := by
  obtain ⟨b', hb'⟩ := first_star_units hm r.tail h.2 false caps
  have hplus : first (plus rangeUnitRe) ⟨false, r.render ++ ']' :: more, caps⟩ =
      some (r.render, ⟨b', ']' :: more, caps⟩) := by
    have e : r.render ++ ']' :: more =
        r.head.render ++ ((r.tail.flatMap fun p => p.1 :: p.2.render) ++ ']' :: more) := by
      simp [RangeE.render]
    rw [e, plus, first_seq_of (first_unit h.1 (brk_num_of_rtail h.2 more) _ _) hb']
    rfl
  have hg : first (grp 3 (plus rangeUnitRe)) ⟨false, r.render ++ ']' :: more, caps⟩ =
      some (r.render, ⟨b', ']' :: more, (3, r.render) :: caps⟩) := by
    rw [first_grp, hplus]; rfl
  rw [rangeRe, first_seq_of (x := (['['], ⟨false, r.render ++ ']' :: more, caps⟩))
    (by rw [first_chr_cons]; simp)
    (first_seq_of hg (y := ([']'], ⟨false, more, (3, r.render) :: caps⟩))
      (by rw [first_chr_cons]; simp))]
  simp

/-! ### robust_ref_re on a selection -/

/-- groups captured for a selection with prefix `pre` -/
def Sel.caps (pre : Str) (s : Sel) : List (Nat × Str) :=
  match s.range with
  | none => [(2, s.id), (1, pre)]
  | some r => [(3, r.render), (2, s.id), (1, pre)]

/-- range text of a selection -/
def Sel.rangeText (s : Sel) : Str :=
  match s.range with
  | none => []
  | some r => r.render

omit [Uni] in
theorem SpanE.render_ne (s : SpanE) : s.render ≠ [] := by simp [SpanE.render]
omit [Uni] in
theorem RangeE.render_ne (r : RangeE) : r.render ≠ [] := by
  simp [RangeE.render, SpanE.render_ne]

omit [Uni] in
theorem Sel.caps_groups (pre : Str) (s : Sel) (b rest) :
    (MSt.group ⟨b, rest, s.caps pre⟩ 1, MSt.group ⟨b, rest, s.caps pre⟩ 2,
     MSt.group ⟨b, rest, s.caps pre⟩ 3) = (pre, s.id, s.rangeText) := by
  unfold Sel.caps Sel.rangeText MSt.group
  cases s.range <;> simp [List.find?_cons]

/-- what may follow a selection: nothing, or a character that continues neither ID nor range -/
def AfterSel (more : Str) : Prop := ∀ c cs, more = c :: cs → isIdChar c = false ∧ c ≠ '[' ∧ c ≠ '\n'

theorem AfterSel.brk {more} (h : AfterSel more) : Brk isIdChar more := fun c cs e => (h c cs e).1

theorem Sel.brk_after {s : Sel} {more} (hm : AfterSel more) :
    Brk isIdChar (s.rangeStr ++ more) := by
  unfold Sel.rangeStr
  cases s.range with
  | none => exact hm.brk
  | some r => exact brk_cons idChar_lbrack

theorem IdOK.head {i : Str} (h : IdOK i) (more : Str) :
    ∃ c cs, i ++ more = c :: cs ∧ isLetter c = true := by
  obtain ⟨c, cs, rfl, hc, _⟩ := h
  exact ⟨c, cs ++ more, rfl, hc⟩

omit [Uni] in
theorem eos_none_of_cons {c : Char} {cs : Str} (h : c ≠ '\n') (b caps) :
    first eos ⟨b, c :: cs, caps⟩ = none := by
  rw [first_eos, if_neg]
  simp only [reduceCtorEq, false_or, List.cons.injEq, not_and]
  intro h'; exact absurd h' h

omit [Uni] in
theorem letter_ne_newline {c : Char} (h : isLetter c = true) : c ≠ '\n' := by
  rintro rfl; simp [isLetter] at h

/-- group 2 and the optional range -/
theorem first_idrange {s : Sel} (h : s.OK) {more : Str} (hm : AfterSel more) (b pre) :
    first (.seq (.grp 2 (.alt .eos idRe)) (.opt (.alt .eos rangeRe)))
      ⟨b, s.render ++ more, [(1, pre)]⟩ =
      some (s.render, ⟨false, more, s.caps pre⟩) := by
  have e : s.render ++ more = s.id ++ (s.rangeStr ++ more) := by
    simp [Sel.render]
  obtain ⟨c, cs, hcs, hc⟩ := h.1.head (s.rangeStr ++ more)
  have hid : first (.grp 2 (.alt .eos idRe)) ⟨b, s.render ++ more, [(1, pre)]⟩ =
      some (s.id, ⟨false, (s.rangeStr ++ more), [(2, s.id), (1, pre)]⟩) := by
    have hne : first eos ⟨b, s.render ++ more, [(1, pre)]⟩ = none := by
      rw [e, hcs]; exact eos_none_of_cons (letter_ne_newline hc) _ _
    rw [first_grp, first_alt, hne, e, first_idRe h.1 (Sel.brk_after hm)]
    rfl
  unfold Sel.rangeStr at hid
  cases hr : s.range with
  | none =>
    simp only [hr, List.nil_append] at hid
    have : first (.opt (.alt .eos rangeRe)) ⟨false, more, [(2, s.id), (1, pre)]⟩ =
        some ([], ⟨false, more, [(2, s.id), (1, pre)]⟩) := by
      rw [first_opt, first_alt]
      cases more with
      | nil => rfl
      | cons d ds =>
        have hd := hm d ds rfl
        rw [eos_none_of_cons hd.2.2, rangeRe, first_seq_none_left (by
          rw [first_chr_cons, if_neg hd.2.1])]
        rfl
    rw [first_seq_of hid this]
    simp [Sel.render, Sel.rangeStr, Sel.caps, hr]
  | some r =>
    simp only [hr] at hid
    have : first (.opt (.alt .eos rangeRe))
        ⟨false, '[' :: (r.render ++ [']']) ++ more, [(2, s.id), (1, pre)]⟩ =
        some ('[' :: (r.render ++ [']']),
          ⟨false, more, [(3, r.render), (2, s.id), (1, pre)]⟩) := by
      rw [first_opt, first_alt]
      have e2 : '[' :: (r.render ++ [']']) ++ more = '[' :: (r.render ++ ']' :: more) := by simp
      rw [e2, eos_none_of_cons (by decide), first_range (h.2 r hr) hm.brk]
      rfl
    rw [first_seq_of hid this]
    simp [Sel.render, Sel.rangeStr, Sel.caps, hr]

theorem first_robust_start {s : Sel} (h : s.OK) {more : Str} (hm : AfterSel more) :
    first robustRefRe ⟨true, s.render ++ more, []⟩ =
      some (s.render, ⟨false, more, s.caps []⟩) := by
  rw [robustRefRe, first_seq_of (x := ([], ⟨true, s.render ++ more, [(1, [])]⟩)) _
    (first_idrange h hm _ _)]
  · rfl
  · rw [first_grp, first_alt, first_bos]; rfl

omit [Uni] in
/-- lazy repetition of a class followed by something that first succeeds after `sep` -/
theorem findSome_lazy {β} (p : Char → Bool) (f : Str × MSt → Option β) (tail : Str) (caps) :
    ∀ (sep : Str) (b : Bool) (acc : Str), (∀ c ∈ sep, p c = true) →
    (∀ pre x suf, sep = pre ++ x :: suf →
      f (acc ++ pre, ⟨b && pre.isEmpty, x :: suf ++ tail, caps⟩) = none) →
    (f (acc ++ sep, ⟨b && sep.isEmpty, tail, caps⟩)).isSome = true →
    ((starLazy (cls p)).run ⟨b, sep ++ tail, caps⟩).findSome?
      (fun x => f (acc ++ x.1, x.2)) = f (acc ++ sep, ⟨b && sep.isEmpty, tail, caps⟩) := by
  intro sep
  induction sep with
  | nil =>
    intro b acc _ _ hs
    rw [run_starLazy, List.findSome?_cons]
    obtain ⟨v, hv⟩ := Option.isSome_iff_exists.1 hs
    simp only [List.append_nil, List.nil_append, List.isEmpty_nil, Bool.and_true] at hv ⊢
    rw [hv]
  | cons c cs ih =>
    intro b acc hp hn hs
    have h0 := hn [] c cs rfl
    simp only [List.append_nil, List.isEmpty_nil, Bool.and_true] at h0
    rw [run_starLazy, List.findSome?_cons]
    simp only [List.append_nil, List.cons_append]
    have e0 : f (acc, { bol := b, rest := c :: (cs ++ tail), caps := caps }) = none := by
      simpa using h0
    rw [e0]
    have hrun : (cls p).run ⟨b, c :: (cs ++ tail), caps⟩ = [([c], ⟨false, cs ++ tail, caps⟩)] := by
      simp [run, hp c (by simp)]
    simp only [hrun]
    have := ih false (acc ++ [c]) (fun x hx => hp x (by simp [hx])) (by
      intro pre x suf h
      have := hn (c :: pre) x suf (by simp [h])
      simpa using this) (by simpa using hs)
    simp only [List.filter_cons, List.isEmpty_cons, Bool.not_false, if_true, List.filter_nil,
      List.flatMap_cons, List.flatMap_nil, List.append_nil, List.findSome?_map]
    simp only [Function.comp_def]
    simp only [List.append_assoc, List.singleton_append] at this
    simpa using this

theorem sel_render_head {s : Sel} (h : s.OK) (more : Str) :
    ∃ c cs, s.render ++ more = c :: cs ∧ isLetter c = true := by
  have : s.render ++ more = s.id ++ (s.rangeStr ++ more) := by simp [Sel.render]
  rw [this]; exact h.1.head _

/-- nothing matches at a character that is neither a letter nor a newline -/
theorem first_idrange_none {c : Char} {cs : Str} (h : isLetter c = false) (hn : c ≠ '\n') (b caps) :
    first (.seq (.grp 2 (.alt .eos idRe)) (.opt (.alt .eos rangeRe))) ⟨b, c :: cs, caps⟩ = none := by
  apply first_seq_none_left
  rw [first_grp, first_alt, eos_none_of_cons hn, first_idRe_none (brk_cons h)]
  rfl

theorem first_robust_sep {s : Sel} (h : s.OK) {sep : Str} (hsep : SepOK sep) {more : Str}
    (hm : AfterSel more) :
    first robustRefRe ⟨false, sep ++ (s.render ++ more), []⟩ =
      some (sep ++ s.render, ⟨false, more, s.caps sep⟩) := by
  obtain ⟨⟨d, ds, rfl, hd, hd2⟩, hall⟩ := hsep
  have hany : ∀ c ∈ d :: ds, isAny c = true := by
    intro c hc; simp [isAny, (hall c hc).2]
  -- the run of group 1
  have hrun : (alt bos (plusLazy (cls isAny))).run ⟨false, d :: ds ++ (s.render ++ more), []⟩ =
      ((starLazy (cls isAny)).run ⟨false, ds ++ (s.render ++ more), []⟩).map
        fun y => (d :: y.1, y.2) := by
    simp [run, plusLazy, hany d (by simp)]
  have hrun' : (grp 1 (alt bos (plusLazy (cls isAny)))).run
      ⟨false, d :: ds ++ (s.render ++ more), []⟩ =
      ((starLazy (cls isAny)).run ⟨false, ds ++ (s.render ++ more), []⟩).map
        fun y => (d :: y.1, { y.2 with caps := (1, d :: y.1) :: y.2.caps }) := by
    rw [run_grp, hrun, List.map_map]; rfl
  rw [robustRefRe, first_seq, hrun', List.findSome?_map]
  have key := findSome_lazy (β := Str × MSt) isAny
    (fun x => (first (.seq (.grp 2 (.alt .eos idRe)) (.opt (.alt .eos rangeRe)))
        { x.2 with caps := (1, x.1) :: x.2.caps }).map fun y => (x.1 ++ y.1, y.2))
    (s.render ++ more) [] ds false [d] (fun c hc => hany c (by simp [hc]))
    (by
      intro pre x suf hps
      have hx := hall x (by simp [hps])
      simp only [List.cons_append]
      rw [first_idrange_none hx.1 hx.2]; rfl)
    (by
      simp only
      rw [first_idrange h hm]; rfl)
  simp only [List.singleton_append] at key
  simp only [Function.comp_def]
  refine Eq.trans key ?_
  rw [first_idrange h hm]
  rfl

end Xigt
