import Verif.Schema.Plain
import Verif.Ref.Props
import Verif.Schema.Examples
/-
The alignment expressions of the schema (`AlgnExpr`, xigt-structure.rnc:6-8) and those the code reads
(ref.py:13-62).
-/

set_option linter.unusedSectionVars false

namespace Xigt.Rng

/-! ### The expressions the schema is about -/

/-- a delimiter of the schema -/
def DelimFits (d : Char) : Prop := d = ',' ∨ d = '+'
/-- no sign -/
def SpanFits (s : SpanE) : Prop := s.a.neg = false ∧ s.b.neg = false
def RangeFits (r : RangeE) : Prop := SpanFits r.head ∧ ∀ p ∈ r.tail, DelimFits p.1 ∧ SpanFits p.2
def SelFits (s : Sel) : Prop := ∀ r, s.range = some r → RangeFits r
/-- numbers without a sign, and `,` or `+` between selections and between spans -/
def ExprFits (e : Expr) : Prop :=
  SelFits e.head ∧ ∀ p ∈ e.tail, (∃ d, p.1 = [d] ∧ DelimFits d) ∧ SelFits p.2

section
variable [Uni] [Xsd]

/-- the numbers are numbers -/
def SelDigits (s : Sel) : Prop := ∀ r, s.range = some r → r.head.OK ∧ ∀ p ∈ r.tail, p.2.OK

/-! ### Regular expressions -/

theorem chr_iff {c : Char} {s : Str} : (Rx.chr c).Mem s ↔ s = [c] := by
  rw [Rx.chr, cls_iff]
  constructor
  · rintro ⟨x, rfl, h⟩; rw [beq_iff_eq.1 h]
  · rintro rfl; exact ⟨c, rfl, by simp⟩

theorem optRx_iff {a : Rx} {s : Str} : (Rx.opt a).Mem s ↔ a.Mem s ∨ s = [] := by
  constructor
  · intro h; cases h with
    | left h => exact .inl h
    | right h => cases h; exact .inr rfl
  · rintro (h | rfl)
    · exact .left h
    · exact .right .eps

theorem starRx_iff {a : Rx} {s : Str} : (Rx.star a).Mem s ↔ ∃ l : List Str, s = l.flatten ∧ ∀ u ∈ l, a.Mem u := by
  constructor
  · intro h
    generalize hr : Rx.star a = r at h
    induction h with
    | nil => exact ⟨[], rfl, by simp⟩
    | cons h1 _ _ ih =>
      cases hr
      obtain ⟨l, rfl, hl⟩ := ih rfl
      exact ⟨_ :: l, rfl, by simpa using ⟨h1, hl⟩⟩
    | _ => cases hr
  · rintro ⟨l, rfl, hl⟩
    induction l with
    | nil => exact .nil
    | cons u l ih => exact .cons (hl u (by simp)) (ih fun x hx => hl x (by simp [hx]))

theorem plus_digit {s : Str} : (Rx.plus (.cls Xsd.digit)).Mem s ↔ s ≠ [] ∧ ∀ c ∈ s, (Uni.digit c).isSome = true := by
  rw [Rx.plus, seq_iff]
  constructor
  · rintro ⟨u, v, rfl, h1, h2⟩
    obtain ⟨c, rfl, hc⟩ := cls_iff.1 h1
    have h2 := star_cls.1 h2
    simp only [Xsd.digit_py, Uni.isDigit] at hc h2
    exact ⟨by simp, by simpa using ⟨hc, h2⟩⟩
  · rintro ⟨h1, h2⟩
    cases s with
    | nil => exact absurd rfl h1
    | cons c r =>
      refine ⟨[c], r, rfl, cls_iff.2 ⟨c, rfl, ?_⟩, star_cls.2 fun x hx => ?_⟩
      · rw [Xsd.digit_py]; exact h2 c (by simp)
      · rw [Xsd.digit_py]; exact h2 x (by simp [hx])

theorem span_iff {s : Str} : spanRx.Mem s ↔ ∃ p : SpanE, s = p.render ∧ p.OK ∧ SpanFits p := by
  rw [spanRx, seq_iff]
  constructor
  · rintro ⟨u, v, rfl, h1, h2⟩
    obtain ⟨w, x, rfl, h2, h3⟩ := seq_iff.1 h2
    rw [chr_iff] at h2
    subst h2
    exact ⟨⟨⟨false, u⟩, ⟨false, x⟩⟩, by simp [SpanE.render, Num.render], ⟨plus_digit.1 h1, plus_digit.1 h3⟩, rfl, rfl⟩
  · rintro ⟨⟨⟨n, u⟩, ⟨m, x⟩⟩, rfl, ⟨h1, h3⟩, hn, hm⟩
    simp only at hn hm
    subst hn hm
    exact ⟨u, ':' :: x, by simp [SpanE.render, Num.render], plus_digit.2 h1,
      seq_iff.2 ⟨[':'], x, rfl, chr_iff.2 rfl, plus_digit.2 h3⟩⟩

theorem delim_iff {s : Str} : delimRx.Mem s ↔ ∃ d, s = [d] ∧ DelimFits d := by
  rw [delimRx, cls_iff]
  simp only [Bool.or_eq_true, beq_iff_eq, DelimFits]

theorem spans_iff {s : Str} : (Rx.star (.seq delimRx spanRx)).Mem s ↔
    ∃ l : List (Char × SpanE), s = l.flatMap (fun p => p.1 :: p.2.render) ∧ ∀ p ∈ l, DelimFits p.1 ∧ p.2.OK ∧ SpanFits p.2 := by
  rw [starRx_iff]
  constructor
  · rintro ⟨l, rfl, hl⟩
    induction l with
    | nil => exact ⟨[], rfl, by simp⟩
    | cons u l ih =>
      obtain ⟨m, hm, hm'⟩ := ih fun x hx => hl x (by simp [hx])
      obtain ⟨a, b, rfl, ha, hb⟩ := seq_iff.1 (hl u (by simp))
      obtain ⟨d, rfl, hd⟩ := delim_iff.1 ha
      obtain ⟨p, rfl, hp⟩ := span_iff.1 hb
      exact ⟨(d, p) :: m, by simp [hm], by simpa using ⟨⟨hd, hp⟩, fun a b h => hm' (a, b) h⟩⟩
  · rintro ⟨l, rfl, hl⟩
    refine ⟨l.map fun p => p.1 :: p.2.render, by rw [List.flatMap_def], ?_⟩
    intro u hu
    obtain ⟨p, hp, rfl⟩ := List.mem_map.1 hu
    obtain ⟨h1, h2⟩ := hl p hp
    exact seq_iff.2 ⟨[p.1], p.2.render, rfl, delim_iff.2 ⟨_, rfl, h1⟩, span_iff.2 ⟨_, rfl, h2⟩⟩

theorem sel_iff {s : Str} : selRx.Mem s ↔ ∃ x : Sel, s = x.render ∧ IdFits x.id ∧ SelDigits x ∧ SelFits x := by
  rw [selRx, seq_iff]
  constructor
  · rintro ⟨u, v, rfl, h1, h2⟩
    rw [idRx_iff] at h1
    rcases optRx_iff.1 h2 with h | rfl
    · obtain ⟨a, b, rfl, ha, hb⟩ := seq_iff.1 h
      rw [chr_iff] at ha; subst ha
      obtain ⟨c, d, rfl, hc, hd⟩ := seq_iff.1 hb
      obtain ⟨e, f, rfl, he, hf⟩ := seq_iff.1 hd
      rw [chr_iff] at hf; subst hf
      obtain ⟨p, rfl, hp, hp'⟩ := span_iff.1 hc
      obtain ⟨l, rfl, hl⟩ := spans_iff.1 he
      refine ⟨⟨u, some ⟨p, l⟩⟩, ?_, h1, ?_, ?_⟩
      · simp [Sel.render, Sel.rangeStr, RangeE.render]
      · rintro r hr; cases hr
        exact ⟨hp, fun q hq => (hl q hq).2.1⟩
      · rintro r hr; cases hr
        exact ⟨hp', fun q hq => ⟨(hl q hq).1, (hl q hq).2.2⟩⟩
    · exact ⟨⟨u, none⟩, by simp [Sel.render, Sel.rangeStr], h1, by rintro r ⟨⟩, by rintro r ⟨⟩⟩
  · rintro ⟨⟨i, r⟩, rfl, h1, h2, h3⟩
    refine ⟨i, Sel.rangeStr ⟨i, r⟩, rfl, idRx_iff.2 h1, optRx_iff.2 ?_⟩
    cases r with
    | none => exact .inr rfl
    | some r =>
      obtain ⟨hp, hl⟩ := h2 r rfl
      obtain ⟨hp', hl'⟩ := h3 r rfl
      left
      refine seq_iff.2 ⟨['['], _, rfl, chr_iff.2 rfl, seq_iff.2 ⟨r.head.render, _, ?_, span_iff.2 ⟨_, rfl, hp, hp'⟩,
        seq_iff.2 ⟨_, [']'], rfl, spans_iff.2 ⟨r.tail, rfl, fun p h => ⟨(hl' p h).1, hl p h, (hl' p h).2⟩⟩, chr_iff.2 rfl⟩⟩⟩
      simp [RangeE.render]

/-- The schema's alignment expressions, for every string: selections joined by `,` and `+`, each an
identifier of the schema with, possibly, spans of unsigned numbers joined by `,` and `+`. -/
theorem algn_iff {v : Str} : AlgnFits v ↔
    ∃ e : Expr, v = e.render ∧ ExprFits e ∧ ∀ s ∈ e.sels, IdFits s.id ∧ SelDigits s := by
  rw [AlgnFits, algnRx, seq_iff]
  constructor
  · rintro ⟨u, w, rfl, h1, h2⟩
    obtain ⟨x, rfl, hi, hd, hf⟩ := sel_iff.1 h1
    obtain ⟨l, rfl, hl⟩ := starRx_iff.1 h2
    have : ∃ m : List (Str × Sel), l.flatten = m.flatMap (fun p => p.1 ++ p.2.render) ∧
        ∀ p ∈ m, ((∃ d, p.1 = [d] ∧ DelimFits d) ∧ SelFits p.2) ∧ IdFits p.2.id ∧ SelDigits p.2 := by
      clear h1 h2
      induction l with
      | nil => exact ⟨[], rfl, by simp⟩
      | cons u l ih =>
        obtain ⟨m, hm, hm'⟩ := ih fun x hx => hl x (by simp [hx])
        obtain ⟨a, b, rfl, ha, hb⟩ := seq_iff.1 (hl u (by simp))
        obtain ⟨d, rfl, hd⟩ := delim_iff.1 ha
        obtain ⟨p, rfl, hp1, hp2, hp3⟩ := sel_iff.1 hb
        refine ⟨([d], p) :: m, by simp [hm], ?_⟩
        intro q hq
        rcases List.mem_cons.1 hq with rfl | hq
        · exact ⟨⟨⟨d, rfl, hd⟩, hp3⟩, hp1, hp2⟩
        · exact hm' q hq
    obtain ⟨m, hm, hm'⟩ := this
    refine ⟨⟨x, m⟩, by rw [hm]; rfl, ⟨hf, fun p hp => (hm' p hp).1⟩, ?_⟩
    intro s hs
    simp only [Expr.sels, List.mem_cons, List.mem_map] at hs
    rcases hs with rfl | ⟨p, hp, rfl⟩
    · exact ⟨hi, hd⟩
    · exact (hm' p hp).2
  · rintro ⟨⟨x, m⟩, rfl, ⟨hf, hm⟩, hs⟩
    refine ⟨x.render, _, rfl, sel_iff.2 ⟨x, rfl, (hs x (by simp [Expr.sels])).1, (hs x (by simp [Expr.sels])).2, hf⟩,
      starRx_iff.2 ⟨m.map fun p => p.1 ++ p.2.render, by rw [List.flatMap_def], ?_⟩⟩
    intro u hu
    obtain ⟨p, hp, rfl⟩ := List.mem_map.1 hu
    obtain ⟨⟨d, h1, h2⟩, h3⟩ := hm p hp
    have := hs p.2 (by simp only [Expr.sels, List.mem_cons, List.mem_map]; exact .inr ⟨p, hp, rfl⟩)
    exact seq_iff.2 ⟨p.1, p.2.render, rfl, delim_iff.2 ⟨d, h1, h2⟩, sel_iff.2 ⟨_, rfl, this.1, this.2, h3⟩⟩

/-! ### Identifiers -/

theorem letter_iff {c : Char} : letter c = _root_.Xigt.letter c := by
  rw [Bool.eq_iff_iff]
  simp only [letter, _root_.Xigt.letter, Bool.or_eq_true, Bool.and_eq_true, decide_eq_true_eq, Char.le_def, UInt32.le_iff_toNat_le]
  exact or_comm

/-- the identifiers of the code are identifiers of the schema -/
theorem id_fits {i : Str} (h : IdOK i) : IdFits i := by
  obtain ⟨c, r, rfl, hc, hr⟩ := h
  refine ⟨c, r, rfl, letter_iff.trans hc, fun x hx => ?_⟩
  have := hr x hx
  simp only [idChar, idCh, Bool.or_eq_true, beq_iff_eq] at this ⊢
  rcases this with (h | h) | h
  · exact .inl (.inl (.inl h))
  · exact .inl (.inr h)
  · by_cases hu : x = '_'
    · exact .inl (.inl (.inr hu))
    · exact .inr (Xsd.word_py x h hu)

theorem underscore : Uni.isWord '_' = true := by
  rw [Uni.ascii_word _ (by decide)]; decide

theorem id_reads {i : Str} (h : IdFits i) (hw : ∀ c ∈ i, Xsd.word c = true → Uni.isWord c = true) : IdOK i := by
  obtain ⟨c, r, rfl, hc, hr⟩ := h
  refine ⟨c, r, rfl, letter_iff.symm.trans hc, fun x hx => ?_⟩
  have := hr x hx
  simp only [idChar, idCh, Bool.or_eq_true, beq_iff_eq] at this ⊢
  rcases this with ((h | h) | h) | h
  · exact .inl (.inl h)
  · exact .inr (h ▸ underscore)
  · exact .inl (.inr h)
  · exact .inr (hw x (by simp [hx]) h)

theorem delim_ok {d : Char} (h : DelimFits d) : DelimOK d := by
  have : Uni.isWord d = false := by
    rcases h with rfl | rfl <;> rw [Uni.ascii_word _ (by decide)] <;> decide
  refine ⟨?_, ?_⟩
  · rcases h with rfl | rfl <;> simp [idChar, this]
  · rcases h with rfl | rfl <;> decide

theorem sel_ok {s : Sel} (hi : IdOK s.id) (hd : SelDigits s) (hf : SelFits s) : s.OK :=
  ⟨hi, fun r hr => ⟨(hd r hr).1, fun p hp => ⟨delim_ok ((hf r hr).2 p hp).1, (hd r hr).2 p hp⟩⟩⟩

theorem sel_digits {s : Sel} (h : s.OK) : SelDigits s :=
  fun r hr => ⟨(h.2 r hr).1, fun p hp => ((h.2 r hr).2 p hp).2⟩

theorem simple_of {e : Expr} (hf : ExprFits e) (h : ∀ s ∈ e.sels, IdOK s.id ∧ SelDigits s) : e.Simple := by
  refine ⟨sel_ok (h _ (by simp [Expr.sels])).1 (h _ (by simp [Expr.sels])).2 hf.1, fun p hp => ?_⟩
  obtain ⟨⟨d, h1, h2⟩, h3⟩ := hf.2 p hp
  have := h p.2 (by simp only [Expr.sels, List.mem_cons, List.mem_map]; exact .inr ⟨p, hp, rfl⟩)
  exact ⟨⟨d, h1, delim_ok h2⟩, sel_ok this.1 this.2 h3⟩

theorem Simple.sel {e : Expr} (h : e.Simple) : ∀ s ∈ e.sels, s.OK := by
  intro s hs
  simp only [Expr.sels, List.mem_cons, List.mem_map] at hs
  rcases hs with rfl | ⟨p, hp, rfl⟩
  · exact h.1
  · exact (h.2 p hp).2

/-- **C101**, from the code to the schema: what is written of an expression the code reads (C13–C18),
if the numbers have no sign and the delimiters are `,` and `+`, is valid. -/
theorem C101_written {e : Expr} (h : e.Simple) (hf : ExprFits e) : AlgnFits e.render :=
  algn_iff.2 ⟨e, rfl, hf, fun s hs => ⟨id_fits (Simple.sel h s hs).1, sel_digits (Simple.sel h s hs)⟩⟩

/-- Full statement: every string the schema allows as an alignment expression is read by the code as the
selections, delimiters, identifiers and spans that the schema's grammar divides it into.  It is false
when symbols of XML Schema's `\w` occur (`C101_refuted` below), of which `+` is one.

**C101**, from the schema to the code: a valid string whose identifier characters are word characters
of python too is read (`ids`, `selections`, `spans`, `resolve`) as the schema divides it. -/
theorem C101_partial {v : Str} (h : AlgnFits v) (hw : ∀ c ∈ v, Xsd.word c = true → Uni.isWord c = true) :
    ∃ e : Expr, v = e.render ∧ e.Simple ∧ ExprFits e ∧ ids v = e.ids ∧ selections v = e.tokens ∧
      spans v = e.split.tokens ∧ ∀ get, resolve get v = e.denote get := by
  obtain ⟨e, rfl, hf, hs⟩ := algn_iff.1 h
  have hm : ∀ s ∈ e.sels, ∀ c ∈ s.id, c ∈ e.render := by
    intro s hs c hc
    have hr : c ∈ s.render := List.mem_append_left _ hc
    simp only [Expr.sels, List.mem_cons, List.mem_map] at hs
    rcases hs with rfl | ⟨p, hp, rfl⟩
    · exact List.mem_append_left _ hr
    · exact List.mem_append_right _ (List.mem_flatMap.2 ⟨p, hp, List.mem_append_right _ hr⟩)
  have hS : e.Simple := simple_of hf fun s h' => ⟨id_reads (hs s h').1 fun c hc => hw c (hm s h' c hc), (hs s h').2⟩
  refine ⟨e, rfl, hS, hf, C13_ids_of_expression e ⟨hS.1, fun p hp => ?_⟩,
    (C14_selections_of_expression e hS.ok).1, (C16_spans e hS.ok).1, fun get => C17_resolve get e hS⟩
  obtain ⟨⟨d, h1, h2⟩, h3⟩ := hS.2 p hp
  refine ⟨⟨⟨d, [], h1, h2.1⟩, ?_⟩, h3⟩
  intro c hc
  rw [h1, List.mem_singleton] at hc
  obtain ⟨d', h4, h5⟩ := (hf.2 p hp).1
  rw [h1] at h4
  cases h4
  rw [hc]
  rcases h5 with rfl | rfl <;> decide

end

/-! ### Examples -/

section
attribute [local instance] asciiUni asciiXsd

/-- an item with the identifier `a+b` -/
def plusId : Str := lit! "a+b"

/-- **C101** refuted: the XML Schema class `\w` has symbols, so `a+b` is a valid identifier, and a valid
alignment to the item of this name; but the code reads it as references to the items `a` and `b`,
while `a+1`, likewise valid, is read as a reference to `a` and a delimiter `+1`. -/
theorem C101_refuted : IdFits plusId ∧ AlgnFits plusId ∧ ids plusId = [lit! "a", lit! "b"] ∧
    AlgnFits (lit! "a+1") ∧ selections (lit! "a+1") = [lit! "a", lit! "+1"] := by
  have h1 : IdFits plusId := ⟨'a', lit! "+b", rfl, by decide +kernel, by decide +kernel⟩
  have h2 : IdFits (lit! "a+1") := ⟨'a', lit! "+1", rfl, by decide +kernel, by decide +kernel⟩
  refine ⟨h1, algn_iff.2 ⟨⟨⟨plusId, none⟩, []⟩, rfl, ⟨by rintro r ⟨⟩, by simp⟩, ?_⟩, by decide +kernel,
    algn_iff.2 ⟨⟨⟨lit! "a+1", none⟩, []⟩, rfl, ⟨by rintro r ⟨⟩, by simp⟩, ?_⟩, by decide +kernel⟩
  · intro s hs
    simp only [Expr.sels, List.map_nil, List.mem_singleton] at hs
    subst hs
    exact ⟨h1, by rintro r ⟨⟩⟩
  · intro s hs
    simp only [Expr.sels, List.map_nil, List.mem_singleton] at hs
    subst hs
    exact ⟨h2, by rintro r ⟨⟩⟩

theorem all_chars {v : Str} (h : AlgnFits v) : ∀ c ∈ v, c ≠ ' ' := by
  have hn : ∀ (n : Num), n.OK → n.neg = false → ∀ c ∈ n.render, c ≠ ' ' := by
    intro n h hn c hc e
    simp only [Num.render, hn] at hc
    have := h.2 c (by simpa using hc)
    rw [e] at this
    exact absurd this (by decide)
  have hsp : ∀ (p : SpanE), p.OK → SpanFits p → ∀ c ∈ p.render, c ≠ ' ' := by
    intro p h hf c hc
    simp only [SpanE.render, List.mem_append, List.mem_cons] at hc
    rcases hc with hc | rfl | hc
    · exact hn _ h.1 hf.1 c hc
    · decide
    · exact hn _ h.2 hf.2 c hc
  have hd : ∀ d, DelimFits d → d ≠ ' ' := by rintro d (rfl | rfl) <;> decide
  have hs : ∀ s : Sel, IdFits s.id → SelDigits s → SelFits s → ∀ c ∈ s.render, c ≠ ' ' := by
    rintro ⟨i, r⟩ ⟨x, y, h1, h2, h3⟩ hg hf c hc e
    subst e
    simp only at h1
    subst h1
    simp only [Sel.render, List.mem_append] at hc
    rcases hc with hc | hc
    · rcases List.mem_cons.1 hc with rfl | hc
      · exact absurd h2 (by decide)
      · exact absurd (h3 _ hc) (by decide +kernel)
    · cases r with
      | none => simp [Sel.rangeStr] at hc
      | some r =>
        simp only [Sel.rangeStr, List.mem_cons, List.mem_append, RangeE.render, List.mem_flatMap] at hc
        rcases hc with hc | (hc | ⟨p, hp, hc | hc⟩) | hc | hc
        · exact absurd hc (by decide)
        · exact hsp _ (hg r rfl).1 (hf r rfl).1 _ hc rfl
        · exact hd _ ((hf r rfl).2 p hp).1 hc.symm
        · exact hsp _ ((hg r rfl).2 p hp) ((hf r rfl).2 p hp).2 _ hc rfl
        · exact absurd hc (by decide)
        · cases hc
  obtain ⟨e, rfl, hf, he⟩ := algn_iff.1 h
  intro c hc
  simp only [Expr.render, List.mem_append, List.mem_flatMap] at hc
  rcases hc with hc | ⟨p, hp, hc | hc⟩
  · exact hs e.head (he _ (by simp [Expr.sels])).1 (he _ (by simp [Expr.sels])).2 hf.1 c hc
  · obtain ⟨⟨d, h1, h2⟩, _⟩ := hf.2 p hp
    rw [h1, List.mem_singleton] at hc
    exact hc ▸ hd d h2
  · have := he p.2 (by simp only [Expr.sels, List.mem_cons, List.mem_map]; exact .inr ⟨p, hp, rfl⟩)
    exact hs p.2 this.1 this.2 (hf.2 p hp).2 c hc

/-- **C101** refuted, the other way: a list of identifiers separated by spaces, which the code reads
(and which `ids` is documented to read), is not valid. -/
theorem C101_refuted_space : ids (lit! "a b") = [lit! "a", lit! "b"] ∧ ¬ AlgnFits (lit! "a b") :=
  ⟨by decide +kernel, fun h => all_chars h ' ' (by decide) rfl⟩

/-- `m1,m2[0:1,2:3]` is valid and has no symbols -/
def twoSel : Expr := ⟨⟨lit! "m1", none⟩, [([','], ⟨lit! "m2", some ⟨⟨⟨false, ['0']⟩, ⟨false, ['1']⟩⟩,
  [(',', ⟨⟨false, ['2']⟩, ⟨false, ['3']⟩⟩)]⟩⟩)]⟩

theorem twoSel_fits : ExprFits twoSel := by
  refine ⟨by rintro r ⟨⟩, ?_⟩
  intro p hp
  simp only [twoSel, List.mem_singleton] at hp
  subst hp
  refine ⟨⟨',', rfl, .inl rfl⟩, ?_⟩
  rintro r ⟨⟩
  refine ⟨⟨rfl, rfl⟩, ?_⟩
  intro q hq
  simp only [List.mem_singleton] at hq
  subst hq
  exact ⟨.inl rfl, rfl, rfl⟩

theorem twoSel_simple : twoSel.Simple := by
  refine simple_of twoSel_fits ?_
  intro s hs
  simp only [twoSel, Expr.sels, List.map_cons, List.map_nil, List.mem_cons, List.not_mem_nil, or_false] at hs
  rcases hs with rfl | rfl
  · exact ⟨⟨'m', ['1'], rfl, by decide, by decide⟩, by rintro r ⟨⟩⟩
  · refine ⟨⟨'m', ['2'], rfl, by decide, by decide⟩, ?_⟩
    rintro r ⟨⟩
    refine ⟨⟨⟨by simp, by decide⟩, ⟨by simp, by decide⟩⟩, ?_⟩
    intro q hq
    simp only [List.mem_singleton] at hq
    subst hq
    exact ⟨⟨by simp, by decide⟩, ⟨by simp, by decide⟩⟩

example : twoSel.render = lit! "m1,m2[0:1,2:3]" ∧ twoSel.Simple ∧ ExprFits twoSel ∧ AlgnFits (lit! "m1,m2[0:1,2:3]") ∧
    (∀ c ∈ lit! "m1,m2[0:1,2:3]", Xsd.word c = true → Uni.isWord c = true) :=
  ⟨rfl, twoSel_simple, twoSel_fits, C101_written twoSel_simple twoSel_fits, by decide +kernel⟩

end
end Xigt.Rng
