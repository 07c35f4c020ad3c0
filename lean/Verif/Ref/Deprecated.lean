import Verif.Ref.Props
/-
The deprecated functions of ref.py (lines 288-352): `get_alignment_expression_spans`,
`resolve_alignment_expression`, `resolve_alignment`.  (`get_alignment_expression_ids` is `ids`.)
-/

set_option linter.unusedSectionVars false
set_option linter.unusedSimpArgs false

namespace Xigt
section
variable [Uni]
open Re

/-! ### Model -/

/-- `[+]|,` -/
def plusComma : Re := .alt (.chr '+') (.chr ',')

/-- ref.py:290 `algnexpr_re = (([a-zA-Z][\-.\w]*)(\[[^\]]*\])?|\+|,)` -/
def algnRe : Re :=
  .grp 1 (.alt (.seq (.grp 2 idRe) (.opt (.grp 3 (.seq (.chr '[') (.seq (.star (.cls (· != ']'))) (.chr ']')))))) plusComma)

/-- `-?\d+` -/
def intRe : Re := .seq (.opt (.chr '-')) (.plus (.cls Uni.isDigit))

/-- ref.py:291 `sel_re = (-?\d+:-?\d+|\+|,)` -/
def selRe : Re := .grp 1 (.alt (.seq intRe (.seq (.chr ':') intRe)) plusComma)

/-- `sel_re.findall(s)` -/
def findSel (s : Str) : List Str := (selRe.findAll s).map fun m => m.2.group 1

/-- `tuple(map(int, s.split(':')))`, for matches of `sel_re` with a colon, which have one only -/
def intPair (s : Str) : Py (Int × Int) := do
  match splitOnce ':' s with
  | none => .error .valueError
  | some (a, b) =>
    let a ← pyInt a
    let b ← pyInt b
    .ok (a, b)

/-- an element of the result of `get_alignment_expression_spans` -/
inductive SpanTok where
  | str (s : Str)
  | tup (i : Str) (a b : Int)
  deriving DecidableEq

/-- ref.py:316-318 one match of `sel_re` -/
def oldSpanTok (i m : Str) : Py SpanTok :=
  if ':' ∈ m then (intPair m).map fun p => .tup i p.1 p.2 else .ok (.str m)

/-- ref.py:313-320 one match of `algnexpr_re` -/
def oldSpans (t : Str × Str × Str) : Py (List SpanTok) :=
  if t.2.1 = [] then .ok [.str t.1]
  else if t.2.2 = [] then .ok [.str t.2.1]
  else (findSel t.2.2).mapM (oldSpanTok t.2.1)

/-- ref.py:311-323 `get_alignment_expression_spans` of a string -/
def getAlignmentSpans (e : Str) : Py (List SpanTok) := do
  let l ← (findTriples algnRe e).mapM oldSpans
  .ok l.flatten

/-- `''.join(parts)`: an element that is None is a TypeError -/
def joinParts : List (Option Str) → Py Str
  | [] => .ok []
  | none :: _ => .error .typeError
  | some s :: ps => (joinParts ps).map (s ++ ·)

/-- ref.py:347-351 one part of a selection; `v` is the outcome of the item's `value()` -/
def oldPart (v : Py (Option Str)) (m : Str) : Py (Option Str) :=
  if m = ['+'] then .ok (some [])
  else if m = [','] then .ok (some [' '])
  else do
    let p ← intPair m
    let c ← v
    .ok (c.map fun c => pySlice c (some p.1) (some p.2))

/-- ref.py:334-352 `resolve_alignment` with the default `plus` and `comma`; `get i` is `tier.get(i)`: `none` if there
is no such item (then `warnings.warn` raises NameError: `warnings` is not imported), otherwise the outcome of the
item's `value()` (model.py:406-410, 423-428: `get_content()` and `span()` call it) -/
def resolveAlignment (get : Str → Option (Py (Option Str))) (i sel : Str) : Py (Option Str) :=
  match get i with
  | none => .error .nameError
  | some v =>
    if sel = [] then v
    else do
      let ps ← (findSel sel).mapM (oldPart v)
      (joinParts ps).map some

/-- ref.py:325-331 one match of `algnexpr_re` -/
def oldRef (get : Str → Option (Py (Option Str))) (t : Str × Str × Str) : Py (Option Str) :=
  if t.1 = ['+'] then .ok (some [])
  else if t.1 = [','] then .ok (some [' '])
  else resolveAlignment get t.2.1 t.2.2

/-- ref.py:325-331 `resolve_alignment_expression` with the default `plus` and `comma` -/
def resolveAlignmentExpression (get : Str → Option (Py (Option Str))) (e : Str) : Py Str := do
  let ps ← (findTriples algnRe e).mapM (oldRef get)
  joinParts ps

/-! ### What is expected -/

/-- `+` and `,` are kept, other delimiters are not -/
def keptDelim (d : Str) : List Str := if d = ['+'] ∨ d = [','] then [d] else []

def SpanE.tok (i : Str) (s : SpanE) : SpanTok := .tup i s.a.value s.b.value

/-- a selection without spans is its ID, one with spans a triple for every span -/
def Sel.toks (s : Sel) : List SpanTok :=
  match s.range with
  | none => [.str s.id]
  | some r => r.head.tok s.id :: r.tail.flatMap fun p => (keptDelim [p.1]).map .str ++ [p.2.tok s.id]

def Expr.toks (e : Expr) : List SpanTok := e.head.toks ++ e.tail.flatMap fun p => (keptDelim p.1).map .str ++ p.2.toks

/-! ### Matching -/

theorem first_intRe {n : Num} (h : n.OK) {more : Str} (hm : Brk Uni.isDigit more) (b caps) :
    first intRe ⟨b, n.render ++ more, caps⟩ = some (n.render, ⟨false, more, caps⟩) := by
  have hds : ∀ c ∈ n.digits, Uni.isDigit c = true := fun c hc => h.2 c hc
  have hp : ∀ b, first (plus (cls Uni.isDigit)) ⟨b, n.digits ++ more, caps⟩ =
      some (n.digits, ⟨false, more, caps⟩) := by
    intro b
    rw [first_plus_cls, takeWhile_append_brk hds hm, dropWhile_append_brk hds hm, if_neg h.1]
  rw [intRe, Num.render]
  cases n.neg with
  | true =>
    simp only [if_true, List.cons_append, List.nil_append]
    rw [first_seq_of (x := (['-'], ⟨false, n.digits ++ more, caps⟩)) _ (hp _)]
    · rfl
    · rw [first_opt, first_chr_cons]; simp
  | false =>
    simp only [Bool.false_eq_true, if_false, List.nil_append]
    rw [first_seq_of (x := ([], ⟨b, n.digits ++ more, caps⟩)) _ (hp _)]
    · rfl
    · obtain ⟨c, cs, hcs⟩ := List.exists_cons_of_ne_nil h.1
      rw [hcs, List.cons_append, first_opt, first_chr_cons]
      have : c ≠ '-' := by
        rintro rfl
        have := h.2 '-' (by simp [hcs])
        simp [digit_dash] at this
      simp [this]

theorem first_intRe_none {c : Char} {cs : Str} (h : Uni.isDigit c = false) (hd : c ≠ '-') (b caps) :
    first intRe ⟨b, c :: cs, caps⟩ = none := by
  have hr : (opt (chr '-')).run ⟨b, c :: cs, caps⟩ = [([], ⟨b, c :: cs, caps⟩)] := by
    have : (c == '-') = false := by rw [beq_eq_false_iff_ne]; exact hd
    simp [opt, chr, run, this]
  rw [intRe, first_seq_single hr, first_plus_cls]
  simp [h]

theorem not_digit_of_not_idChar {c : Char} (h : isIdChar c = false) : Uni.isDigit c = false := by
  cases hd : Uni.isDigit c with
  | false => rfl
  | true => rw [digit_idChar hd] at h; cases h

theorem brk_digit {s : Str} (h : Brk isIdChar s) : Brk Uni.isDigit s := fun c cs e => not_digit_of_not_idChar (h c cs e)

theorem first_selSpan {s : SpanE} (h : s.OK) {more : Str} (hm : Brk isIdChar more) (b caps) :
    first (.seq intRe (.seq (.chr ':') intRe)) ⟨b, s.render ++ more, caps⟩ = some (s.render, ⟨false, more, caps⟩) := by
  have hc : Brk Uni.isDigit (':' :: (s.b.render ++ more)) := brk_digit (brk_cons idChar_colon)
  have e : s.render ++ more = s.a.render ++ (':' :: (s.b.render ++ more)) := by simp [SpanE.render]
  rw [e, first_seq_of (first_intRe h.1 hc _ _) (first_seq_of (x := ([':'], ⟨false, s.b.render ++ more, caps⟩))
    (by rw [first_chr_cons]; simp) (first_intRe h.2 (brk_digit hm) _ _))]
  simp [SpanE.render]

/-- a character at which the body does not match is matched if it is `+` or `,`, and skipped otherwise -/
theorem found_delim {body : Re} {c : Char} {cs : Str} (h : ∀ b, first body ⟨b, c :: cs, []⟩ = none) (b m : Bool) :
    found (.grp 1 (.alt body plusComma)) b (c :: cs) m =
      (if c = '+' ∨ c = ',' then [([c], (⟨false, cs, [(1, [c])]⟩ : MSt))] else []) ++
        found (.grp 1 (.alt body plusComma)) false cs false := by
  have hf : first (.grp 1 (.alt body plusComma)) ⟨b, c :: cs, []⟩ =
      if c = '+' ∨ c = ',' then some ([c], (⟨false, cs, [(1, [c])]⟩ : MSt)) else none := by
    rw [first_grp, first_alt, h b, plusComma, first_alt, first_chr_cons, first_chr_cons]
    by_cases h1 : c = '+'
    · simp [h1]
    · by_cases h2 : c = ','
      · simp [h2]
      · simp [h1, h2]
  by_cases hc : c = '+' ∨ c = ','
  · rw [if_pos hc] at hf ⊢
    rw [found_first hf (by simp)]
    rfl
  · rw [if_neg hc] at hf ⊢
    rw [found_skip (matchAt_none_of_first hf)]
    rfl

theorem found_body {body : Re} {s more : Str} {caps} {b : Bool} (h : first body ⟨b, s ++ more, []⟩ = some (s, ⟨false, more, caps⟩))
    (hs : s ≠ []) (m : Bool) : found (.grp 1 (.alt body plusComma)) b (s ++ more) m =
      (s, (⟨false, more, (1, s) :: caps⟩ : MSt)) :: found (.grp 1 (.alt body plusComma)) false more false := by
  rw [found_first (c := s) (st := ⟨false, more, (1, s) :: caps⟩) (by rw [first_grp, first_alt, h]; rfl) hs]

theorem selBody_none {c : Char} {cs : Str} (h : isIdChar c = false) (b) :
    first (.seq intRe (.seq (.chr ':') intRe)) ⟨b, c :: cs, []⟩ = none :=
  first_seq_none_left (first_intRe_none (not_digit_of_not_idChar h) (not_dash_of_not_idChar h) _ _)

theorem brk_rtail {l : List (Char × SpanE)} (h : ∀ p ∈ l, DelimOK p.1 ∧ p.2.OK) (more) :
    Brk isIdChar ((l.flatMap fun p => p.1 :: p.2.render) ++ ']' :: more) := by
  cases l with
  | nil => exact brk_cons idChar_rbrack
  | cons p ps => exact brk_cons (h p (by simp)).1.1

/-- the matches of `sel_re` in a bracketed range -/
def RangeE.found (r : RangeE) : List Str := r.head.render :: r.tail.flatMap fun p => keptDelim [p.1] ++ [p.2.render]

theorem findSel_tail : ∀ (l : List (Char × SpanE)), (∀ p ∈ l, DelimOK p.1 ∧ p.2.OK) →
    (found selRe false ((l.flatMap fun p => p.1 :: p.2.render) ++ [']']) false).map (fun m => m.2.group 1) =
    l.flatMap fun p => keptDelim [p.1] ++ [p.2.render] := by
  intro l
  induction l with
  | nil =>
    intro _
    rw [List.flatMap_nil, List.nil_append, selRe, found_delim (selBody_none idChar_rbrack)]
    rw [found_nil (matchAt_none_of_first (by rfl))]
    simp
  | cons p ps ih =>
    intro h
    have hp := h p (by simp)
    have hps : ∀ q ∈ ps, DelimOK q.1 ∧ q.2.OK := fun q hq => h q (by simp [hq])
    have e : ((p :: ps).flatMap fun p => p.1 :: p.2.render) ++ [']'] =
        p.1 :: (p.2.render ++ ((ps.flatMap fun p => p.1 :: p.2.render) ++ [']'])) := by simp
    have ih' := ih hps
    rw [selRe] at ih' ⊢
    rw [e, found_delim (selBody_none hp.1.1),
      found_body (first_selSpan hp.2 (brk_rtail hps []) _ _) (SpanE.render_ne _), List.map_append, List.map_cons, ih',
      List.flatMap_cons, keptDelim]
    by_cases hc : p.1 = '+' ∨ p.1 = ','
    · rw [if_pos hc, if_pos (by simpa using hc)]; rfl
    · rw [if_neg hc, if_neg (by simpa using hc)]; rfl

theorem findSel_range {r : RangeE} (h : r.OK) : findSel ('[' :: (r.render ++ [']'])) = r.found := by
  have e : r.render ++ [']'] = r.head.render ++ ((r.tail.flatMap fun p => p.1 :: p.2.render) ++ [']']) := by
    simp [RangeE.render]
  have ht := findSel_tail r.tail h.2
  rw [findSel, findAll_eq, e]
  rw [selRe] at ht ⊢
  rw [found_delim (selBody_none idChar_lbrack), found_body (first_selSpan h.1 (brk_rtail h.2 []) _ _) (SpanE.render_ne _)]
  simp only [RangeE.found, ← ht]
  simp [MSt.group]

theorem algn_sel {s : Sel} (h : s.OK) {more : Str} (hm : AfterSel more) (b m : Bool) :
    (found algnRe b (s.render ++ more) m).map (fun m => (m.2.group 1, m.2.group 2, m.2.group 3)) =
      (s.render, s.id, s.rangeStr) :: (found algnRe false more false).map (fun m => (m.2.group 1, m.2.group 2, m.2.group 3)) := by
  have e : s.render ++ more = s.id ++ (s.rangeStr ++ more) := by simp [Sel.render]
  have hid : first (.grp 2 idRe) ⟨b, s.render ++ more, []⟩ = some (s.id, ⟨false, s.rangeStr ++ more, [(2, s.id)]⟩) := by
    rw [first_grp, e, first_idRe h.1 (Sel.brk_after hm)]; rfl
  unfold Sel.rangeStr at hid
  cases hr : s.range with
  | none =>
    simp only [hr, List.nil_append] at hid
    have h2 : first (.opt (.grp 3 (.seq (.chr '[') (.seq (.star (.cls (· != ']'))) (.chr ']')))))
        ⟨false, more, [(2, s.id)]⟩ = some ([], ⟨false, more, [(2, s.id)]⟩) := by
      rw [first_opt, first_grp, first_seq_none_left]
      · rfl
      · cases more with
        | nil => rfl
        | cons d ds => rw [first_chr_cons, if_neg (hm d ds rfl).2.1]
    have hb := first_seq_of hid h2
    have hre : s.id = s.render := by simp [Sel.render, Sel.rangeStr, hr]
    simp only [List.append_nil] at hb
    rw [algnRe, found_body (s := s.render) (caps := [(2, s.id)]) (by rw [hb, ← hre]) (Sel.render_ne h)]
    simp [MSt.group, Sel.rangeStr, hr]
  | some r =>
    simp only [hr] at hid
    have hno := sel_range_no_rbrack (h.2 r hr)
    have hbrk : Brk (· != ']') (']' :: more) := brk_cons (by decide)
    have hg : first (.star (.cls (· != ']'))) ⟨false, r.render ++ ']' :: more, [(2, s.id)]⟩ =
        some (r.render, ⟨false, ']' :: more, [(2, s.id)]⟩) := by
      rw [first_star_cls, takeWhile_append_brk hno hbrk, dropWhile_append_brk hno hbrk]
      simp [RangeE.render_ne]
    have h2 : first (.opt (.grp 3 (.seq (.chr '[') (.seq (.star (.cls (· != ']'))) (.chr ']')))))
        ⟨false, '[' :: (r.render ++ [']']) ++ more, [(2, s.id)]⟩ =
        some ('[' :: (r.render ++ [']']), ⟨false, more, [(3, '[' :: (r.render ++ [']'])), (2, s.id)]⟩) := by
      have e2 : '[' :: (r.render ++ [']']) ++ more = '[' :: (r.render ++ ']' :: more) := by simp
      rw [e2, first_opt, first_grp, first_seq_of
        (x := (['['], ⟨false, r.render ++ ']' :: more, [(2, s.id)]⟩))
        (by rw [first_chr_cons]; simp)
        (first_seq_of hg (y := ([']'], ⟨false, more, [(2, s.id)]⟩))
          (by rw [first_chr_cons]; simp))]
      simp
    have hb := first_seq_of hid h2
    have hre : s.id ++ '[' :: (r.render ++ [']']) = s.render := by simp [Sel.render, Sel.rangeStr, hr]
    rw [algnRe, found_body (s := s.render) (caps := [(3, '[' :: (r.render ++ [']'])), (2, s.id)]) (by rw [hb, ← hre]) (Sel.render_ne h)]
    simp [MSt.group, Sel.rangeStr, hr]

theorem algn_tail : ∀ (l : List (Str × Sel)), (∀ p ∈ l, (∃ d, p.1 = [d] ∧ DelimOK d) ∧ p.2.OK) →
    (found algnRe false (renderTail l) false).map (fun m => (m.2.group 1, m.2.group 2, m.2.group 3)) =
    l.flatMap fun p => (keptDelim p.1).map (fun d => (d, [], [])) ++ [(p.2.render, p.2.id, p.2.rangeStr)] := by
  intro l
  induction l with
  | nil =>
    intro _
    rw [renderTail, List.flatMap_nil, found_nil (matchAt_none_of_first (by rfl))]
    rfl
  | cons p ps ih =>
    intro h
    obtain ⟨⟨d, hd, hok⟩, hs⟩ := h p (by simp)
    have hps : ∀ q ∈ ps, (∃ d, q.1 = [d] ∧ DelimOK d) ∧ q.2.OK := fun q hq => h q (by simp [hq])
    have e : renderTail (p :: ps) = d :: (p.2.render ++ renderTail ps) := by simp [renderTail, hd]
    have hnone : ∀ b, first (.seq (.grp 2 idRe) (.opt (.grp 3 (.seq (.chr '[') (.seq (.star (.cls (· != ']'))) (.chr ']'))))))
        ⟨b, d :: (p.2.render ++ renderTail ps), []⟩ = none := by
      intro b
      apply first_seq_none_left
      rw [first_grp, first_idRe_none (brk_cons (not_letter_of_not_idChar hok.1))]
      rfl
    have hsel := algn_sel hs (afterSel_tail (simple_sep hps)) false false
    rw [ih hps] at hsel
    rw [algnRe] at hsel ⊢
    rw [e, found_delim hnone, List.map_append, hsel, List.flatMap_cons, hd, keptDelim]
    by_cases hc : d = '+' ∨ d = ','
    · rw [if_pos hc, if_pos (by simpa using hc)]; simp [MSt.group]
    · rw [if_neg hc, if_neg (by simpa using hc)]; simp

theorem algn_expr {e : Expr} (h : e.Simple) : findTriples algnRe e.render =
    (e.head.render, e.head.id, e.head.rangeStr) ::
      e.tail.flatMap fun p => (keptDelim p.1).map (fun d => (d, [], [])) ++ [(p.2.render, p.2.id, p.2.rangeStr)] := by
  rw [findTriples_eq, show e.render = e.head.render ++ renderTail e.tail from rfl,
    algn_sel h.1 (afterSel_tail (simple_sep h.2)), algn_tail _ h.2]

/-! ### Evaluation -/

theorem mapM_nil' {α γ} (f : α → Py γ) : ([] : List α).mapM f = .ok [] := rfl

theorem mapM_cons' {α γ} (f : α → Py γ) (x : α) (l : List α) : (x :: l).mapM f = (do
    let a ← f x
    let b ← l.mapM f
    .ok (a :: b)) := by rw [List.mapM_cons]; rfl

theorem mapM_append_ok {α γ} {f : α → Py γ} {l l' : List α} {a b} (h : l.mapM f = .ok a) (h' : l'.mapM f = .ok b) :
    (l ++ l').mapM f = .ok (a ++ b) := by
  rw [List.mapM_append, h, h']; rfl

theorem splitOnce_of {c : Char} : ∀ {a : Str} (b : Str), c ∉ a → splitOnce c (a ++ c :: b) = some (a, b) := by
  intro a
  induction a with
  | nil => intro b _; simp [splitOnce]
  | cons x xs ih =>
    intro b h
    rw [List.mem_cons, not_or] at h
    rw [List.cons_append, splitOnce, if_neg (fun e => h.1 e.symm), ih b h.2]

theorem num_no_colon {n : Num} (h : n.OK) : ':' ∉ n.render := by
  intro hc
  have := num_chars h ':' hc
  rw [idChar_colon] at this
  cases this

theorem intPair_span {s : SpanE} (h : s.OK) : intPair s.render = .ok (s.a.value, s.b.value) := by
  rw [intPair, SpanE.render, splitOnce_of _ (num_no_colon h.1)]
  simp only [pyInt_num h.1, pyInt_num h.2]
  rfl

theorem span_not_delim {s : SpanE} (h : s.OK) : s.render ≠ ['+'] ∧ s.render ≠ [','] := by
  obtain ⟨c, cs, hcs, -⟩ := num_head h.1
  have : ∀ x : Char, s.render ≠ [x] := by
    intro x hx
    have := congrArg List.length hx
    rw [SpanE.render, hcs] at this
    simp at this
  exact ⟨this _, this _⟩

theorem oldSpanTok_span {s : SpanE} (h : s.OK) (i : Str) : oldSpanTok i s.render = .ok (s.tok i) := by
  have hm : ':' ∈ s.render := by simp [SpanE.render]
  rw [oldSpanTok, if_pos hm, intPair_span h]
  rfl

theorem oldSpanTok_delim {d : Str} (hd : d ∈ keptDelim d) (i : Str) : oldSpanTok i d = .ok (.str d) := by
  unfold keptDelim at hd
  split at hd
  · next h => rcases h with rfl | rfl <;> rfl
  · cases hd

theorem oldSpans_sel {s : Sel} (h : s.OK) : oldSpans (s.render, s.id, s.rangeStr) = .ok s.toks := by
  rw [oldSpans, if_neg (idOK_ne h.1)]
  unfold Sel.rangeStr Sel.toks
  cases hr : s.range with
  | none => rfl
  | some r =>
    have hok := h.2 r hr
    have ht : ∀ l : List (Char × SpanE), (∀ p ∈ l, DelimOK p.1 ∧ p.2.OK) →
        (l.flatMap fun p => keptDelim [p.1] ++ [p.2.render]).mapM (oldSpanTok s.id) =
        .ok (l.flatMap fun p => (keptDelim [p.1]).map .str ++ [p.2.tok s.id]) := by
      intro l
      induction l with
      | nil => intro _; rfl
      | cons p ps ih =>
        intro hl
        rw [List.flatMap_cons, List.flatMap_cons]
        refine mapM_append_ok (mapM_append_ok ?_ ?_) (ih fun q hq => hl q (by simp [hq]))
        · by_cases hk : [p.1] = ['+'] ∨ [p.1] = [',']
          · rw [keptDelim, if_pos hk, mapM_cons', oldSpanTok_delim (by rw [keptDelim, if_pos hk]; simp)]; rfl
          · rw [keptDelim, if_neg hk]; rfl
        · rw [mapM_cons', oldSpanTok_span (hl p (by simp)).2]; rfl
    simp only [reduceCtorEq, if_false]
    rw [findSel_range hok, RangeE.found, mapM_cons', oldSpanTok_span hok.1, ht r.tail hok.2]
    rfl

theorem flatten_map_singletons {l : List Str} : (l.map fun d => [SpanTok.str d]).flatten = l.map .str := by
  induction l with
  | nil => rfl
  | cons a l ih => simp [ih]

/-- **C83** the deprecated list of spans of a well-formed expression with one-character delimiters: IDs, triples of ID
and numbers, and the delimiters `+` and `,`, in order. -/
theorem C83_spans {e : Expr} (h : e.Simple) : getAlignmentSpans e.render = .ok e.toks := by
  have ht : ∀ l : List (Str × Sel), (∀ p ∈ l, (∃ d, p.1 = [d] ∧ DelimOK d) ∧ p.2.OK) → ∃ L,
      (l.flatMap fun p => (keptDelim p.1).map (fun d => (d, ([] : Str), ([] : Str))) ++ [(p.2.render, p.2.id, p.2.rangeStr)]).mapM oldSpans = .ok L ∧
      L.flatten = l.flatMap fun p => (keptDelim p.1).map .str ++ p.2.toks := by
    intro l
    induction l with
    | nil => intro _; exact ⟨[], rfl, rfl⟩
    | cons p ps ih =>
      intro hl
      obtain ⟨L, h1, h2⟩ := ih fun q hq => hl q (by simp [hq])
      have hd : ∀ ds : List Str, (ds.map (fun d => (d, ([] : Str), ([] : Str)))).mapM oldSpans = .ok (ds.map fun d => [SpanTok.str d]) := by
        intro ds
        induction ds with
        | nil => rfl
        | cons d ds ih => rw [List.map_cons, mapM_cons', ih]; rfl
      refine ⟨((keptDelim p.1).map (fun d => [SpanTok.str d]) ++ [p.2.toks]) ++ L, ?_, ?_⟩
      · rw [List.flatMap_cons]
        refine mapM_append_ok (mapM_append_ok (hd _) ?_) h1
        rw [mapM_cons', oldSpans_sel (hl p (by simp)).2]; rfl
      · rw [List.flatten_append, List.flatten_append, flatten_map_singletons, h2, List.flatMap_cons]
        simp
  obtain ⟨L, h1, h2⟩ := ht e.tail h.2
  rw [getAlignmentSpans, algn_expr h, mapM_cons', oldSpans_sel h.1, h1]
  simp only [bind, Except.bind, List.flatten_cons, h2]
  rfl

/-- what becomes of one selection -/
def Sel.oldDenote (get : Str → Option (Py (Option Str))) (s : Sel) : Py (Option Str) :=
  match get s.id with
  | none => .error .nameError
  | some (.error e) => .error e
  | some (.ok none) => if s.range.isNone then .ok none else .error .typeError
  | some (.ok (some v)) => .ok (some (s.select v))

theorem joinParts_some (l : List Str) : joinParts (l.map some) = .ok l.flatten := by
  induction l with
  | nil => rfl
  | cons a l ih => rw [List.map_cons, joinParts, ih]; rfl

theorem joinParts_none : ∀ (l : List (Option Str)), none ∈ l → joinParts l = .error .typeError := by
  intro l
  induction l with
  | nil => intro h; cases h
  | cons a l ih =>
    intro h
    cases a with
    | none => rfl
    | some s =>
      have : none ∈ l := by simpa using h
      rw [joinParts, ih this]; rfl

theorem sel_not_delim {s : Sel} (h : s.OK) : s.render ≠ ['+'] ∧ s.render ≠ [','] := by
  obtain ⟨c, cs, hcs, hl⟩ := sel_render_head h []
  rw [List.append_nil] at hcs
  constructor <;> (intro e; rw [e] at hcs; cases hcs; exact absurd hl (by decide))

theorem oldPart_span {s : SpanE} (h : s.OK) (v : Py (Option Str)) : oldPart v s.render = (do
    let c ← v
    .ok (c.map s.select)) := by
  rw [oldPart, if_neg (span_not_delim h).1, if_neg (span_not_delim h).2, intPair_span h]
  rfl

theorem oldPart_delim {d : Str} (hd : d ∈ keptDelim d) (v : Py (Option Str)) : oldPart v d = .ok (some (sepText d)) := by
  unfold keptDelim at hd
  split at hd
  · next h => rcases h with rfl | rfl <;> rfl
  · cases hd

theorem sepText_kept (d : Str) : ((keptDelim d).map sepText).flatten = sepText d := by
  unfold keptDelim
  by_cases h : d = ['+'] ∨ d = [',']
  · rw [if_pos h]; simp
  · rw [if_neg h, sepText, if_neg (fun e => h (.inr e))]; rfl

/-- the parts of the delimiters and spans after the first -/
theorem oldParts_tail (v : Str) : ∀ l : List (Char × SpanE), (∀ p ∈ l, DelimOK p.1 ∧ p.2.OK) →
    ∃ L : List Str, (l.flatMap fun p => keptDelim [p.1] ++ [p.2.render]).mapM (oldPart (.ok (some v))) = .ok (L.map some) ∧
      L.flatten = l.flatMap fun p => sepText [p.1] ++ p.2.select v := by
  intro l
  induction l with
  | nil => intro _; exact ⟨[], rfl, rfl⟩
  | cons p ps ih =>
    intro hl
    obtain ⟨L, h1, h2⟩ := ih fun q hq => hl q (by simp [hq])
    refine ⟨((keptDelim [p.1]).map sepText ++ [p.2.select v]) ++ L, ?_, ?_⟩
    · rw [List.flatMap_cons, List.map_append, List.map_append]
      refine mapM_append_ok (mapM_append_ok ?_ ?_) h1
      · by_cases hk : [p.1] = ['+'] ∨ [p.1] = [',']
        · have hm : [p.1] ∈ keptDelim [p.1] := by rw [keptDelim, if_pos hk]; simp
          rw [show keptDelim [p.1] = [[p.1]] by rw [keptDelim, if_pos hk], mapM_cons', oldPart_delim hm]; rfl
        · rw [keptDelim, if_neg hk]; rfl
      · rw [mapM_cons', oldPart_span (hl p (by simp)).2]; rfl
    · rw [List.flatten_append, List.flatten_append, sepText_kept, h2, List.flatMap_cons]
      simp

/-- if the value is None, so are the parts of the spans -/
theorem oldParts_none : ∀ l : List (Char × SpanE), (∀ p ∈ l, DelimOK p.1 ∧ p.2.OK) →
    ∃ L, (l.flatMap fun p => keptDelim [p.1] ++ [p.2.render]).mapM (oldPart (.ok none)) = .ok L := by
  intro l
  induction l with
  | nil => intro _; exact ⟨[], rfl⟩
  | cons p ps ih =>
    intro hl
    obtain ⟨L, h1⟩ := ih fun q hq => hl q (by simp [hq])
    refine ⟨((keptDelim [p.1]).map (fun d => some (sepText d)) ++ [none]) ++ L, ?_⟩
    rw [List.flatMap_cons]
    refine mapM_append_ok (mapM_append_ok ?_ ?_) h1
    · by_cases hk : [p.1] = ['+'] ∨ [p.1] = [',']
      · have hm : [p.1] ∈ keptDelim [p.1] := by rw [keptDelim, if_pos hk]; simp
        rw [show keptDelim [p.1] = [[p.1]] by rw [keptDelim, if_pos hk], mapM_cons', oldPart_delim hm]; rfl
      · rw [keptDelim, if_neg hk]; rfl
    · rw [mapM_cons', oldPart_span (hl p (by simp)).2]; rfl

theorem oldRef_sel (get : Str → Option (Py (Option Str))) {s : Sel} (h : s.OK) :
    oldRef get (s.render, s.id, s.rangeStr) = s.oldDenote get := by
  rw [oldRef, if_neg (sel_not_delim h).1, if_neg (sel_not_delim h).2]
  unfold resolveAlignment Sel.oldDenote Sel.rangeStr Sel.select
  cases get s.id with
  | none => rfl
  | some v =>
    cases hr : s.range with
    | none =>
      cases v with
      | error e => rfl
      | ok c => cases c <;> rfl
    | some r =>
      have hok := h.2 r hr
      simp only [reduceCtorEq, if_false]
      rw [findSel_range hok, RangeE.found, mapM_cons', oldPart_span hok.1]
      cases v with
      | error e => rfl
      | ok c =>
        cases c with
        | none =>
          obtain ⟨L, hL⟩ := oldParts_none r.tail hok.2
          simp only [bind, Except.bind, hL, Option.map_none]
          rfl
        | some v =>
          obtain ⟨L, hL, hF⟩ := oldParts_tail v r.tail hok.2
          simp only [bind, Except.bind, hL, Option.map_some]
          rw [show some (r.head.select v) :: L.map some = (r.head.select v :: L).map some from rfl, joinParts_some,
            List.flatten_cons, hF]
          rfl

theorem oldRef_delim (get : Str → Option (Py (Option Str))) (d : Str) :
    ((keptDelim d).map fun d => (d, ([] : Str), ([] : Str))).mapM (oldRef get) = .ok ((keptDelim d).map fun d => some (sepText d)) := by
  unfold keptDelim
  by_cases h : d = ['+'] ∨ d = [',']
  · rw [if_pos h, List.map_cons, List.map_nil, mapM_cons']
    rcases h with rfl | rfl <;> rfl
  · rw [if_neg h]; rfl

/-- the texts of all selections, and of the delimiters -/
theorem oldRef_tail (get : Str → Option (Py (Option Str))) (val : Str → Str) : ∀ l : List (Str × Sel),
    (∀ p ∈ l, (∃ d, p.1 = [d] ∧ DelimOK d) ∧ p.2.OK) → (∀ p ∈ l, get p.2.id = some (.ok (some (val p.2.id)))) →
    ∃ L : List Str, (l.flatMap fun p => (keptDelim p.1).map (fun d => (d, ([] : Str), ([] : Str))) ++
        [(p.2.render, p.2.id, p.2.rangeStr)]).mapM (oldRef get) = .ok (L.map some) ∧
      L.flatten = l.flatMap fun p => sepText p.1 ++ p.2.select (val p.2.id) := by
  intro l
  induction l with
  | nil => intro _ _; exact ⟨[], rfl, rfl⟩
  | cons p ps ih =>
    intro hl hv
    obtain ⟨L, h1, h2⟩ := ih (fun q hq => hl q (by simp [hq])) (fun q hq => hv q (by simp [hq]))
    have hs : p.2.oldDenote get = .ok (some (p.2.select (val p.2.id))) := by
      rw [Sel.oldDenote, hv p (by simp)]
    refine ⟨((keptDelim p.1).map sepText ++ [p.2.select (val p.2.id)]) ++ L, ?_, ?_⟩
    · rw [List.flatMap_cons, List.map_append, List.map_append, List.map_map]
      refine mapM_append_ok (mapM_append_ok (oldRef_delim get p.1) ?_) h1
      rw [mapM_cons', oldRef_sel get (hl p (by simp)).2, hs]; rfl
    · rw [List.flatten_append, List.flatten_append, sepText_kept, h2, List.flatMap_cons]
      simp

theorem mapM_ok_mem {α γ} {f : α → Py γ} : ∀ {l : List α} {b : List γ}, l.mapM f = .ok b →
    ∀ x ∈ l, ∃ y ∈ b, f x = .ok y := by
  intro l
  induction l with
  | nil => intro b _ x hx; cases hx
  | cons a l ih =>
    intro b h x hx
    rw [mapM_cons'] at h
    cases ha : f a with
    | error e => rw [ha] at h; cases h
    | ok y =>
      rw [ha] at h
      cases hl : l.mapM f with
      | error e => rw [hl] at h; cases h
      | ok ys =>
        rw [hl] at h
        cases h
        rcases List.mem_cons.1 hx with rfl | hx
        · exact ⟨y, by simp, ha⟩
        · obtain ⟨z, h1, h2⟩ := ih hl x hx
          exact ⟨z, by simp [h1], h2⟩

/-- **C83** the deprecated resolution of a well-formed expression with one-character delimiters succeeds exactly if
all items exist and have a value that is not None. -/
theorem C83_succeeds (get : Str → Option (Py (Option Str))) {e : Expr} (h : e.Simple) :
    (∃ r, resolveAlignmentExpression get e.render = .ok r) ↔ ∀ s ∈ e.sels, ∃ v, get s.id = some (.ok (some v)) := by
  constructor
  · rintro ⟨r, hr⟩ s hs
    rw [resolveAlignmentExpression, algn_expr h] at hr
    generalize hL : List.mapM (oldRef get) _ = M at hr
    cases M with
    | error e => cases hr
    | ok L =>
      have hr' : joinParts L = .ok r := hr
      have hmem : (s.render, s.id, s.rangeStr) ∈ (e.head.render, e.head.id, e.head.rangeStr) ::
          e.tail.flatMap fun p => (keptDelim p.1).map (fun d => (d, ([] : Str), ([] : Str))) ++ [(p.2.render, p.2.id, p.2.rangeStr)] := by
        rcases List.mem_cons.1 hs with rfl | hs
        · exact .head _
        · obtain ⟨p, hp, rfl⟩ := List.mem_map.1 hs
          exact .tail _ (List.mem_flatMap.2 ⟨p, hp, by simp⟩)
      have hsok : s.OK := by
        rcases List.mem_cons.1 hs with rfl | hs
        · exact h.1
        · obtain ⟨p, hp, rfl⟩ := List.mem_map.1 hs
          exact (h.2 p hp).2
      obtain ⟨y, hy, hf⟩ := mapM_ok_mem hL _ hmem
      rw [oldRef_sel get hsok, Sel.oldDenote] at hf
      split at hf
      · cases hf
      · cases hf
      · split at hf
        · cases hf
          rw [joinParts_none L hy] at hr'; cases hr'
        · cases hf
      · next v hv => exact ⟨v, hv⟩
  · intro hv
    have : ∀ s : Sel, ∃ v, s ∈ e.sels → get s.id = some (.ok (some v)) := by
      intro s
      by_cases hs : s ∈ e.sels
      · obtain ⟨v, hv⟩ := hv s hs; exact ⟨v, fun _ => hv⟩
      · exact ⟨[], fun h => absurd h hs⟩
    let val : Str → Str := fun i => match get i with | some (.ok (some v)) => v | _ => []
    have hval : ∀ s ∈ e.sels, get s.id = some (.ok (some (val s.id))) := by
      intro s hs
      obtain ⟨v, h1⟩ := hv s hs
      simp only [val, h1]
    obtain ⟨L, h1, h2⟩ := oldRef_tail get val e.tail h.2 fun p hp =>
      hval p.2 (List.mem_cons_of_mem _ (List.mem_map.2 ⟨p, hp, rfl⟩))
    have hh : e.head.oldDenote get = .ok (some (e.head.select (val e.head.id))) := by
      rw [Sel.oldDenote, hval e.head (by simp [Expr.sels])]
    refine ⟨(e.head.select (val e.head.id) :: L).flatten, ?_⟩
    rw [resolveAlignmentExpression, algn_expr h, mapM_cons', oldRef_sel get h.1, hh, h1]
    exact joinParts_some (e.head.select (val e.head.id) :: L)

/-- **C83** (partial): whenever the deprecated resolution gives a text, `resolve` gives the same.

Missing: expressions with items that do not exist or have no value (`C83_refuted_missing`, `C83_refuted_none`), and
other delimiters than single characters (`C83_refuted_delim`). -/
theorem C83_partial (get : Str → Option (Py (Option Str))) {e : Expr} (h : e.Simple) {r : Str}
    (hr : resolveAlignmentExpression get e.render = .ok r) : resolve get e.render = .ok r := by
  have hv := (C83_succeeds get h).1 ⟨r, hr⟩
  let val : Str → Str := fun i => match get i with | some (.ok (some v)) => v | _ => []
  have hval : ∀ s ∈ e.sels, get s.id = some (.ok (some (val s.id))) := by
    intro s hs
    obtain ⟨v, h1⟩ := hv s hs
    simp only [val, h1]
  obtain ⟨L, h1, h2⟩ := oldRef_tail get val e.tail h.2 fun p hp =>
    hval p.2 (List.mem_cons_of_mem _ (List.mem_map.2 ⟨p, hp, rfl⟩))
  have hh : e.head.oldDenote get = .ok (some (e.head.select (val e.head.id))) := by
    rw [Sel.oldDenote, hval e.head (by simp [Expr.sels])]
  rw [resolveAlignmentExpression, algn_expr h, mapM_cons', oldRef_sel get h.1, hh, h1] at hr
  have hj : joinParts ((e.head.select (val e.head.id) :: L).map some) = .ok r := hr
  rw [joinParts_some] at hj
  rw [C17_resolve_ok val get e h fun s hs => .inl (hval s hs), ← hj, List.flatten_cons, h2]

/-- **C83** refuted: for an item that does not exist the deprecated function raises NameError (`warnings` is not
imported), where `resolve` raises XigtStructureError. -/
theorem C83_refuted_missing (get : Str → Option (Py (Option Str))) {i : Str} (hi : IdOK i) (hg : get i = none) :
    resolveAlignmentExpression get i = .error .nameError ∧ resolve get i = .error .xigtStructureError := by
  have h : (⟨⟨i, none⟩, []⟩ : Expr).Simple := ⟨⟨hi, by simp⟩, by simp⟩
  have e : (⟨⟨i, none⟩, []⟩ : Expr).render = i := by simp [Expr.render, Sel.render, Sel.rangeStr]
  rw [← e]
  refine ⟨?_, ?_⟩
  · rw [resolveAlignmentExpression, algn_expr h, mapM_cons', oldRef_sel get h.1, Sel.oldDenote]
    simp only [hg]
    rfl
  · rw [C17_resolve get _ h]
    simp only [Expr.denote, Sel.denote, hg]
    rfl

/-- **C83** refuted: for an item without a value the deprecated function raises TypeError, where `resolve` gives the
empty string. -/
theorem C83_refuted_none (get : Str → Option (Py (Option Str))) {i : Str} (hi : IdOK i) (hg : get i = some (.ok none)) :
    resolveAlignmentExpression get i = .error .typeError ∧ resolve get i = .ok [] := by
  have h : (⟨⟨i, none⟩, []⟩ : Expr).Simple := ⟨⟨hi, by simp⟩, by simp⟩
  have e : (⟨⟨i, none⟩, []⟩ : Expr).render = i := by simp [Expr.render, Sel.render, Sel.rangeStr]
  rw [← e]
  refine ⟨?_, ?_⟩
  · rw [resolveAlignmentExpression, algn_expr h, mapM_cons', oldRef_sel get h.1, Sel.oldDenote]
    simp only [hg]
    rfl
  · rw [C17_resolve get _ h]
    simp only [Expr.denote, Sel.denote, hg]
    rfl

end

section
attribute [local instance] asciiUni

def oldGet (i : Str) : Option (Py (Option Str)) :=
  if i = lit! "a1" then some (.ok (some (lit! "abcdefghijklmno")))
  else if i = lit! "b" then some (.ok (some (lit! "uvwxyz")))
  else if i = lit! "c" then some (.ok (some (lit! "k"))) else none

/-- **C83** refuted: a comma and a space between IDs is a space for the deprecated function and nothing for `resolve`. -/
theorem C83_refuted_delim : resolveAlignmentExpression oldGet (lit! "b, c") = .ok (lit! "uvwxyz k") ∧
    resolve oldGet (lit! "b, c") = .ok (lit! "uvwxyzk") := ⟨by decide +kernel, by decide +kernel⟩

example : resolveAlignmentExpression oldGet exampleExpr.render = .ok (lit! "degh uv yzk") := by decide +kernel
example : ∀ s ∈ exampleExpr.sels, ∃ v, oldGet s.id = some (.ok (some v)) :=
  (C83_succeeds oldGet exampleExpr_simple).1 ⟨lit! "degh uv yzk", by decide +kernel⟩
example : getAlignmentSpans exampleExpr.render = .ok [.tup (lit! "a1") 3 5, .str ['+'], .tup (lit! "a1") 6 (-7), .str [','],
    .tup ['b'] 0 2, .str [','], .tup ['b'] 4 9, .str ['+'], .str ['c']] := by decide +kernel

end
end Xigt
