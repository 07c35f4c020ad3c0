import Verif.Ref.Lemmas
/- What the patterns of ref.py find in a rendered expression. -/

set_option linter.unusedSimpArgs false
set_option linter.unusedSectionVars false

namespace Xigt
variable [Uni]
open Re

omit [Uni] in
theorem findTriples_eq (r : Re) (s : Str) : findTriples r s =
    (found r true s false).map fun m => (m.2.group 1, m.2.group 2, m.2.group 3) := rfl

/-! ### robust_ref_re -/

theorem Sel.render_ne {s : Sel} (h : s.OK) : s.render ≠ [] := by
  obtain ⟨c, cs, he, _⟩ := sel_render_head h []
  intro h0; rw [h0] at he; simp at he

/-- rendered tail -/
def renderTail (l : List (Str × Sel)) : Str := l.flatMap fun p => p.1 ++ p.2.render

theorem afterSel_tail {l : List (Str × Sel)} (h : ∀ p ∈ l, SepOK p.1 ∧ p.2.OK) :
    AfterSel (renderTail l) := by
  cases l with
  | nil => intro c cs h; cases h
  | cons p ps =>
    obtain ⟨⟨d, ds, hd, hid, hb⟩, hall⟩ := (h p (by simp)).1
    intro c cs hc
    simp only [renderTail, List.flatMap_cons, hd, List.cons_append, List.cons.injEq] at hc
    obtain ⟨rfl, _⟩ := hc
    exact ⟨hid, hb, (hall d (by simp [hd])).2⟩

theorem robust_end (must) : found robustRefRe false [] must = [] := by
  apply found_nil
  apply matchAt_none_of_first
  rfl

theorem found_robust_tail : ∀ (l : List (Str × Sel)), (∀ p ∈ l, SepOK p.1 ∧ p.2.OK) →
    (found robustRefRe false (renderTail l) false).map
      (fun m => (m.2.group 1, m.2.group 2, m.2.group 3)) =
    l.map fun p => (p.1, p.2.id, p.2.rangeText) := by
  intro l
  induction l with
  | nil => intro _; simp [renderTail, robust_end]
  | cons p ps ih =>
    intro h
    have hp := h p (by simp)
    have hps : ∀ q ∈ ps, SepOK q.1 ∧ q.2.OK := fun q hq => h q (by simp [hq])
    have e : renderTail (p :: ps) = p.1 ++ (p.2.render ++ renderTail ps) := by
      simp [renderTail]
    rw [e, found_first (first_robust_sep hp.2 hp.1 (afterSel_tail hps)) (by
      simp [Sel.render_ne hp.2])]
    rw [List.map_cons, List.map_cons, ih hps, Sel.caps_groups]

theorem triples_robust {e : Expr} (h : e.OK) : findTriples robustRefRe e.render =
    ([], e.head.id, e.head.rangeText) :: e.tail.map fun p => (p.1, p.2.id, p.2.rangeText) := by
  have e1 : e.render = e.head.render ++ renderTail e.tail := rfl
  rw [findTriples_eq, e1, found_first (first_robust_start h.1 (afterSel_tail h.2))
    (Sel.render_ne h.1), List.map_cons, found_robust_tail _ h.2, Sel.caps_groups]

/-! ### span_re on the text of a range -/

/-- captured by span_re for a span with delimiter text `d` -/
theorem first_spanRe {s : SpanE} (h : s.OK) {more : Str} (hm : Brk isNumChar more) (b) :
    first spanRe ⟨b, s.render ++ more, []⟩ =
      some (s.render, ⟨false, more, [(3, s.b.render), (2, s.a.render)]⟩) := by
  have h0 : first (opt (grp 1 (cls isSpanDelim))) ⟨b, s.render ++ more, []⟩ =
      some ([], ⟨b, s.render ++ more, []⟩) := by
    obtain ⟨c, cs, hcs, hn⟩ := num_head h.1
    rw [first_opt, first_grp, SpanE.render, hcs]
    simp only [List.cons_append]
    rw [first_cls_cons]; simp [hn]
  have hc : Brk isNumChar (':' :: (s.b.render ++ more)) :=
    brk_cons (numChar_of_not_idChar idChar_colon)
  have e : s.render ++ more = s.a.render ++ (':' :: (s.b.render ++ more)) := by
    simp [SpanE.render]
  have h1 : first (grp 2 numRe) ⟨b, s.render ++ more, []⟩ =
      some (s.a.render, ⟨false, ':' :: (s.b.render ++ more), [(2, s.a.render)]⟩) := by
    rw [first_grp, e, first_numRe h.1 hc]; rfl
  have h2 : first (grp 3 numRe) ⟨false, s.b.render ++ more, [(2, s.a.render)]⟩ =
      some (s.b.render, ⟨false, more, [(3, s.b.render), (2, s.a.render)]⟩) := by
    rw [first_grp, first_numRe h.2 hm]; rfl
  rw [spanRe, first_seq_of h0 (first_seq_of h1
    (first_seq_of (x := ([':'], ⟨false, s.b.render ++ more, [(2, s.a.render)]⟩))
      (by rw [first_chr_cons]; simp) h2))]
  simp [SpanE.render]

theorem first_spanRe_delim {s : SpanE} (h : s.OK) {d : Char} (hd : DelimOK d) {more : Str}
    (hm : Brk isNumChar more) (b) :
    first spanRe ⟨b, d :: (s.render ++ more), []⟩ =
      some (d :: s.render, ⟨false, more, [(3, s.b.render), (2, s.a.render), (1, [d])]⟩) := by
  have h0 : first (opt (grp 1 (cls isSpanDelim))) ⟨b, d :: (s.render ++ more), []⟩ =
      some ([d], ⟨false, s.render ++ more, [(1, [d])]⟩) := by
    rw [first_opt, first_grp, first_cls_cons]; simp [spanDelim_of_delim hd]
  have hc : Brk isNumChar (':' :: (s.b.render ++ more)) :=
    brk_cons (numChar_of_not_idChar idChar_colon)
  have e : s.render ++ more = s.a.render ++ (':' :: (s.b.render ++ more)) := by
    simp [SpanE.render]
  have h1 : first (grp 2 numRe) ⟨false, s.render ++ more, [(1, [d])]⟩ =
      some (s.a.render, ⟨false, ':' :: (s.b.render ++ more), [(2, s.a.render), (1, [d])]⟩) := by
    rw [first_grp, e, first_numRe h.1 hc]; rfl
  have h2 : first (grp 3 numRe) ⟨false, s.b.render ++ more, [(2, s.a.render), (1, [d])]⟩ =
      some (s.b.render, ⟨false, more, [(3, s.b.render), (2, s.a.render), (1, [d])]⟩) := by
    rw [first_grp, first_numRe h.2 hm]; rfl
  rw [spanRe, first_seq_of h0 (first_seq_of h1
    (first_seq_of (x := ([':'], ⟨false, s.b.render ++ more, [(2, s.a.render), (1, [d])]⟩))
      (by rw [first_chr_cons]; simp) h2))]
  simp [SpanE.render]

theorem spanRe_end (must) : found spanRe false [] must = [] := by
  apply found_nil
  apply matchAt_none_of_first
  rw [spanRe, first_seq]
  have : (opt (grp 1 (cls isSpanDelim))).run ⟨false, [], []⟩ = [([], ⟨false, [], []⟩)] := rfl
  rw [this]
  simp only [List.findSome?_cons, List.findSome?_nil]
  rw [first_seq_none_left (by
    rw [first_grp, first_numRe_none (brk_nil _) (by intro cs h; cases h)]; rfl)]
  rfl

theorem brk_num_rtail {l : List (Char × SpanE)} (h : ∀ p ∈ l, DelimOK p.1 ∧ p.2.OK) :
    Brk isNumChar (l.flatMap fun p => p.1 :: p.2.render) := by
  cases l with
  | nil => exact brk_nil _
  | cons p ps => exact brk_cons (numChar_of_not_idChar (h p (by simp)).1.1)

theorem found_span_tail : ∀ (l : List (Char × SpanE)), (∀ p ∈ l, DelimOK p.1 ∧ p.2.OK) →
    (found spanRe false (l.flatMap fun p => p.1 :: p.2.render) false).map
      (fun m => (m.2.group 1, m.2.group 2, m.2.group 3)) =
    l.map fun p => ([p.1], p.2.a.render, p.2.b.render) := by
  intro l
  induction l with
  | nil => intro _; simp [spanRe_end]
  | cons p ps ih =>
    intro h
    have hp := h p (by simp)
    have hps : ∀ q ∈ ps, DelimOK q.1 ∧ q.2.OK := fun q hq => h q (by simp [hq])
    rw [List.flatMap_cons, List.cons_append,
      found_first (first_spanRe_delim hp.2 hp.1 (brk_num_rtail hps) _) (by simp)]
    rw [List.map_cons, List.map_cons, ih hps]
    rfl

theorem triples_span {r : RangeE} (h : r.OK) : findTriples spanRe r.render =
    ([], r.head.a.render, r.head.b.render) ::
      r.tail.map fun p => ([p.1], p.2.a.render, p.2.b.render) := by
  rw [findTriples_eq, RangeE.render, found_first (first_spanRe h.1 (brk_num_rtail h.2) _)
    (SpanE.render_ne _), List.map_cons, found_span_tail _ h.2]
  rfl

/-! ### selection_re -/

theorem sel_range_no_rbrack {r : RangeE} (h : r.OK) : ∀ c ∈ r.render, (c != ']') = true := by
  have hnum : ∀ n : Num, n.OK → ∀ c ∈ n.render, (c != ']') = true := by
    intro n hn c hc
    unfold Num.render at hc
    have hd : c = '-' ∨ (Uni.digit c).isSome = true := by
      cases hneg : n.neg <;> simp [hneg] at hc
      · exact Or.inr (hn.2 c hc)
      · rcases hc with rfl | hc
        · exact Or.inl rfl
        · exact Or.inr (hn.2 c hc)
    rcases hd with rfl | hd
    · decide
    · rw [bne_iff_ne]
      rintro rfl
      have := digit_idChar hd
      rw [idChar_rbrack] at this; cases this
  have hspan : ∀ s : SpanE, s.OK → ∀ c ∈ s.render, (c != ']') = true := by
    intro s hs c hc
    simp only [SpanE.render, List.mem_append, List.mem_cons] at hc
    rcases hc with hc | rfl | hc
    · exact hnum _ hs.1 c hc
    · decide
    · exact hnum _ hs.2 c hc
  intro c hc
  simp only [RangeE.render, List.mem_append, List.mem_flatMap, List.mem_cons] at hc
  rcases hc with hc | ⟨p, hp, rfl | hc⟩
  · exact hspan _ h.1 c hc
  · rw [bne_iff_ne]; exact (h.2 p hp).1.2.2.2.1
  · exact hspan _ (h.2 p hp).2 c hc

theorem first_sel_body {s : Sel} (h : s.OK) {more : Str} (hm : AfterSel more) (b pre) :
    first (.seq (.grp 2 idRe)
      (.opt (.seq (.chr '[') (.seq (.grp 3 (.star (.cls (· != ']')))) (.chr ']')))))
      ⟨b, s.render ++ more, [(1, pre)]⟩ = some (s.render, ⟨false, more, s.caps pre⟩) := by
  have e : s.render ++ more = s.id ++ (s.rangeStr ++ more) := by simp [Sel.render]
  have hid : first (.grp 2 idRe) ⟨b, s.render ++ more, [(1, pre)]⟩ =
      some (s.id, ⟨false, s.rangeStr ++ more, [(2, s.id), (1, pre)]⟩) := by
    rw [first_grp, e, first_idRe h.1 (Sel.brk_after hm)]; rfl
  unfold Sel.rangeStr at hid
  cases hr : s.range with
  | none =>
    simp only [hr, List.nil_append] at hid
    have : first (.opt (.seq (.chr '[') (.seq (.grp 3 (.star (.cls (· != ']')))) (.chr ']'))))
        ⟨false, more, [(2, s.id), (1, pre)]⟩ = some ([], ⟨false, more, [(2, s.id), (1, pre)]⟩) := by
      rw [first_opt, first_seq_none_left]
      · rfl
      · cases more with
        | nil => rfl
        | cons d ds => rw [first_chr_cons, if_neg (hm d ds rfl).2.1]
    rw [first_seq_of hid this]
    simp [Sel.render, Sel.rangeStr, Sel.caps, hr]
  | some r =>
    simp only [hr] at hid
    have hno := sel_range_no_rbrack (h.2 r hr)
    have hbrk : Brk (· != ']') (']' :: more) := brk_cons (by decide)
    have hg : first (grp 3 (.star (.cls (· != ']'))))
        ⟨false, r.render ++ ']' :: more, [(2, s.id), (1, pre)]⟩ =
        some (r.render, ⟨false, ']' :: more, [(3, r.render), (2, s.id), (1, pre)]⟩) := by
      rw [first_grp, first_star_cls, takeWhile_append_brk hno hbrk, dropWhile_append_brk hno hbrk]
      rfl
    have : first (.opt (.seq (.chr '[') (.seq (.grp 3 (.star (.cls (· != ']')))) (.chr ']'))))
        ⟨false, '[' :: (r.render ++ [']']) ++ more, [(2, s.id), (1, pre)]⟩ =
        some ('[' :: (r.render ++ [']']),
          ⟨false, more, [(3, r.render), (2, s.id), (1, pre)]⟩) := by
      have e2 : '[' :: (r.render ++ [']']) ++ more = '[' :: (r.render ++ ']' :: more) := by simp
      rw [e2, first_opt, first_seq_of
        (x := (['['], ⟨false, r.render ++ ']' :: more, [(2, s.id), (1, pre)]⟩))
        (by rw [first_chr_cons]; simp)
        (first_seq_of hg (y := ([']'], ⟨false, more, [(3, r.render), (2, s.id), (1, pre)]⟩))
          (by rw [first_chr_cons]; simp))]
      simp
    rw [first_seq_of hid this]
    simp [Sel.render, Sel.rangeStr, Sel.caps, hr]

theorem first_selection_start {s : Sel} (h : s.OK) {more : Str} (hm : AfterSel more) :
    first selectionRe ⟨true, s.render ++ more, []⟩ =
      some (s.render, ⟨false, more, s.caps []⟩) := by
  rw [selectionRe, first_seq_of (x := ([], ⟨true, s.render ++ more, [(1, [])]⟩)) _
    (first_sel_body h hm _ _)]
  · rfl
  · rw [first_grp, first_alt, first_bos]; rfl

theorem selDelim_of_delim {d : Char} (h : DelimOK d) : isSelDelim d = true := by
  have h1 : isIdChar d = false := h.1
  have h2 := not_letter_of_not_idChar h1
  simp only [isIdChar, Bool.or_eq_false_iff] at h1
  simp [isSelDelim, h1, h2, h.2.1]

theorem first_selection_delim {s : Sel} (h : s.OK) {d : Char} (hd : DelimOK d) {more : Str}
    (hm : AfterSel more) :
    first selectionRe ⟨false, d :: (s.render ++ more), []⟩ =
      some (d :: s.render, ⟨false, more, s.caps [d]⟩) := by
  rw [selectionRe, first_seq_of (x := ([d], ⟨false, s.render ++ more, [(1, [d])]⟩)) _
    (first_sel_body h hm _ _)]
  · rfl
  · rw [first_grp, first_alt, first_bos, first_cls_cons]; simp [selDelim_of_delim hd]

theorem selection_end (must) : found selectionRe false [] must = [] := by
  apply found_nil
  apply matchAt_none_of_first
  rfl

theorem simple_sep {l : List (Str × Sel)}
    (h : ∀ p ∈ l, (∃ d, p.1 = [d] ∧ DelimOK d) ∧ p.2.OK) : ∀ p ∈ l, SepOK p.1 ∧ p.2.OK := by
  intro p hp
  obtain ⟨⟨d, hd, hok⟩, hs⟩ := h p hp
  exact ⟨hd ▸ sepOK_of_delim hok, hs⟩

theorem found_selection_tail : ∀ (l : List (Str × Sel)),
    (∀ p ∈ l, (∃ d, p.1 = [d] ∧ DelimOK d) ∧ p.2.OK) →
    (found selectionRe false (renderTail l) false).map
      (fun m => (m.2.group 1, m.2.group 2, m.2.group 3)) =
    l.map fun p => (p.1, p.2.id, p.2.rangeText) := by
  intro l
  induction l with
  | nil => intro _; simp [renderTail, selection_end]
  | cons p ps ih =>
    intro h
    obtain ⟨⟨d, hd, hok⟩, hs⟩ := h p (by simp)
    have hps : ∀ q ∈ ps, (∃ d, q.1 = [d] ∧ DelimOK d) ∧ q.2.OK := fun q hq => h q (by simp [hq])
    have e : renderTail (p :: ps) = d :: (p.2.render ++ renderTail ps) := by
      simp [renderTail, hd]
    rw [e, found_first (first_selection_delim hs hok (afterSel_tail (simple_sep hps))) (by simp)]
    rw [List.map_cons, List.map_cons, ih hps, Sel.caps_groups, hd]

theorem triples_selection {e : Expr} (h : e.Simple) : findTriples selectionRe e.render =
    ([], e.head.id, e.head.rangeText) :: e.tail.map fun p => (p.1, p.2.id, p.2.rangeText) := by
  have e1 : e.render = e.head.render ++ renderTail e.tail := rfl
  rw [findTriples_eq, e1, found_first (first_selection_start h.1 (afterSel_tail (simple_sep h.2)))
    (Sel.render_ne h.1), List.map_cons, found_selection_tail _ h.2, Sel.caps_groups]

/-! ### id_re -/

theorem idRe_none_nil (must b) : found idRe b [] must = [] := by
  apply found_nil
  apply matchAt_none_of_first
  rfl

/-- text without letters has no ID -/
theorem found_id_skip {pre s : Str} (h : ∀ c ∈ pre, isLetter c = false) (hne : pre ≠ []) (b m) :
    found idRe b (pre ++ s) m = found idRe false s false := by
  apply found_skip_all
  · intro a x c e b'
    exact first_idRe_none (brk_cons (h x (by simp [e]))) _ _
  · exact hne

theorem found_id_skip' {pre s : Str} (h : ∀ c ∈ pre, isLetter c = false) :
    found idRe false (pre ++ s) false = found idRe false s false := by
  cases pre with
  | nil => rfl
  | cons c cs => exact found_id_skip h (by simp) _ _

theorem range_no_letter {r : RangeE} (h : r.OK) : ∀ c ∈ r.render, isLetter c = false := by
  have hnum : ∀ n : Num, n.OK → ∀ c ∈ n.render, isLetter c = false := by
    intro n hn c hc
    unfold Num.render at hc
    cases hneg : n.neg <;> simp [hneg] at hc
    · exact digit_not_letter (hn.2 c hc)
    · rcases hc with rfl | hc
      · decide
      · exact digit_not_letter (hn.2 c hc)
  have hspan : ∀ s : SpanE, s.OK → ∀ c ∈ s.render, isLetter c = false := by
    intro s hs c hc
    simp only [SpanE.render, List.mem_append, List.mem_cons] at hc
    rcases hc with hc | rfl | hc
    · exact hnum _ hs.1 c hc
    · decide
    · exact hnum _ hs.2 c hc
  intro c hc
  simp only [RangeE.render, List.mem_append, List.mem_flatMap, List.mem_cons] at hc
  rcases hc with hc | ⟨p, hp, rfl | hc⟩
  · exact hspan _ h.1 c hc
  · exact not_letter_of_not_idChar (h.2 p hp).1.1
  · exact hspan _ (h.2 p hp).2 c hc

theorem Sel.rangeStr_no_letter {s : Sel} (h : s.OK) : ∀ c ∈ s.rangeStr, isLetter c = false := by
  unfold Sel.rangeStr
  cases hr : s.range with
  | none => simp
  | some r =>
    intro c hc
    simp only [List.mem_cons, List.mem_append, List.not_mem_nil, or_false] at hc
    rcases hc with rfl | hc | rfl
    · decide
    · exact range_no_letter (h.2 r hr) c hc
    · decide

theorem found_id_sel {s : Sel} (h : s.OK) {more : Str} (hm : AfterSel more) (b m) :
    (found idRe b (s.render ++ more) m).map (·.1) =
      s.id :: (found idRe false more false).map (·.1) := by
  have e : s.render ++ more = s.id ++ (s.rangeStr ++ more) := by simp [Sel.render]
  rw [e, found_first (first_idRe h.1 (Sel.brk_after hm) _ _) (idOK_ne h.1), List.map_cons,
    found_id_skip' (Sel.rangeStr_no_letter h)]

theorem found_id_tail : ∀ (l : List (Str × Sel)), (∀ p ∈ l, SepOK p.1 ∧ p.2.OK) →
    (found idRe false (renderTail l) false).map (·.1) = l.map fun p => p.2.id := by
  intro l
  induction l with
  | nil => intro _; simp [renderTail, idRe_none_nil]
  | cons p ps ih =>
    intro h
    have hp := h p (by simp)
    have hps : ∀ q ∈ ps, SepOK q.1 ∧ q.2.OK := fun q hq => h q (by simp [hq])
    have e : renderTail (p :: ps) = p.1 ++ (p.2.render ++ renderTail ps) := by
      simp [renderTail]
    rw [e, found_id_skip' (fun c hc => (hp.1.2 c hc).1),
      found_id_sel hp.2 (afterSel_tail hps), ih hps, List.map_cons]

theorem found_id_expr {e : Expr} (h : e.OK) : (idRe.findAll e.render).map (·.1) = e.ids := by
  have e1 : e.render = e.head.render ++ renderTail e.tail := rfl
  rw [findAll_eq, e1, found_id_sel h.1 (afterSel_tail h.2), found_id_tail _ h.2]
  simp [Expr.ids, Expr.sels]

end Xigt
