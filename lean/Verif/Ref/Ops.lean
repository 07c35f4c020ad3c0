import Verif.Ref.Parse
/- Helper lemmas: the string operations on rendered expressions and on arbitrary strings. -/

set_option linter.unusedSimpArgs false
set_option linter.unusedSectionVars false

namespace Xigt
variable [Uni]
open Re

/-! ### ids on arbitrary strings -/

theorem mem_idRe {st x} (h : x ∈ idRe.run st) : IdOK x.1 := by
  obtain ⟨y, hy, z, hz, rfl⟩ := mem_seq h
  obtain ⟨c, cs, _, hc, rfl⟩ := mem_cls hy
  exact ⟨c, z.1, rfl, hc, mem_star_cls hz⟩

theorem idSplit_found {s l} (h : IdSplit s l) :
    ∀ b m, (found idRe b s m).map (·.1) = l := by
  induction h with
  | nil => intro b m; simp [idRe_none_nil]
  | skip hc _ ih =>
    intro b m
    rw [found_skip (matchAt_none_of_first (first_idRe_none (brk_cons hc) _ _))]
    exact ih _ _
  | take hi hb _ ih =>
    intro b m
    rw [found_first (first_idRe hi hb _ _) (idOK_ne hi), List.map_cons, ih]

omit [Uni] in
theorem mem_takeWhile_imp {p : Char → Bool} {x : Char} : ∀ {l : Str}, x ∈ l.takeWhile p → p x = true := by
  intro l
  induction l with
  | nil => intro h; cases h
  | cons c cs ih =>
    intro h
    rw [List.takeWhile_cons] at h
    split at h
    · rename_i hc
      rcases List.mem_cons.1 h with rfl | h
      · exact hc
      · exact ih h
    · cases h

theorem idSplit_exists : ∀ (n : Nat) (s : Str), s.length ≤ n → ∃ l, IdSplit s l := by
  intro n
  induction n with
  | zero =>
    intro s h
    have : s = [] := List.length_eq_zero_iff.1 (by omega)
    subst this; exact ⟨[], .nil⟩
  | succ n ih =>
    intro s h
    cases s with
    | nil => exact ⟨[], .nil⟩
    | cons c cs =>
      simp at h
      cases hc : isLetter c with
      | false =>
        obtain ⟨l, hl⟩ := ih cs h
        exact ⟨l, .skip hc hl⟩
      | true =>
        have hlen : (cs.dropWhile isIdChar).length ≤ n := by
          have := (List.dropWhile_sublist (p := isIdChar) (l := cs)).length_le
          omega
        obtain ⟨l, hl⟩ := ih _ hlen
        refine ⟨(c :: cs.takeWhile isIdChar) :: l, ?_⟩
        have e : c :: cs = (c :: cs.takeWhile isIdChar) ++ cs.dropWhile isIdChar := by
          simp [List.takeWhile_append_dropWhile]
        rw [e]
        refine .take ⟨c, _, rfl, hc, fun x hx => ?_⟩ (fun d ds hd => ?_) hl
        · exact mem_takeWhile_imp hx
        · have := List.head?_dropWhile_not isIdChar cs
          rw [hd] at this
          rw [idChar_eq]; simpa using this

theorem idSplit_ok {s l} (h : IdSplit s l) : ∀ i ∈ l, IdOK i := by
  induction h with
  | nil => simp
  | skip _ _ ih => exact ih
  | take hi _ _ ih =>
    intro j hj
    rcases List.mem_cons.1 hj with rfl | hj
    · exact hi
    · exact ih j hj

theorem ids_of_idSplit {s l} (h : IdSplit s l) : ids s = l := by
  rw [ids, findAll_eq, idSplit_found h, List.filter_eq_self]
  intro i hi
  simpa using idOK_ne (idSplit_ok h i hi)

theorem ids_iff_idSplit (s l) : ids s = l ↔ IdSplit s l := by
  constructor
  · intro h
    obtain ⟨l', hl'⟩ := idSplit_exists s.length s (Nat.le_refl _)
    rw [← h, ids_of_idSplit hl']; exact hl'
  · exact ids_of_idSplit

/-! ### robust_ref_re on arbitrary strings -/

/-- one match of the robust pattern: prefix, selection -/
structure Piece where
  pre : Str
  id : Str
  rng : Str

def Piece.sel (p : Piece) : Str := if p.rng = [] then p.id else p.id ++ '[' :: (p.rng ++ [']'])
def Piece.OK (p : Piece) : Prop := (p.id = [] ∨ IdOK p.id) ∧ (p.id = [] → p.rng = [])

theorem unit_ne {st x} (h : x ∈ rangeUnitRe.run st) : x.1 ≠ [] := by
  obtain ⟨y, _, z, hz, rfl⟩ := mem_seq h
  obtain ⟨u, _, v, hv, rfl⟩ := mem_seq hz
  obtain ⟨w, hw, t, _, rfl⟩ := mem_seq hv
  obtain ⟨c, cs, _, _, rfl⟩ := mem_cls hw
  simp

theorem robust_mem {b s x} (hnl : ∀ c ∈ s, c ≠ '\n') (h : x ∈ robustRefRe.run ⟨b, s, []⟩) :
    ∃ p : Piece, p.OK ∧ x.1 = p.pre ++ p.sel ∧
      (x.2.group 1, x.2.group 2, x.2.group 3) = (p.pre, p.id, p.rng) ∧
      (x.1 = [] → s = []) := by
  have htot := run_sound' _ _ _ h
  obtain ⟨y, hy, z, hz, rfl⟩ := mem_seq h
  have hys := run_sound' _ _ _ hy
  obtain ⟨y', hy', rfl⟩ := mem_grp hy
  have hycaps := run_caps (alt bos (plusLazy (cls isAny))) rfl _ _ hy'
  obtain ⟨u, hu, v, hv, rfl⟩ := mem_seq hz
  have hus := run_sound' _ _ _ hu
  obtain ⟨u', hu', rfl⟩ := mem_grp hu
  have hucaps := run_caps (alt eos idRe) rfl _ _ hu'
  simp only at *
  have hrest : ∀ c ∈ y'.2.rest, c ≠ '\n' := by
    intro c hc; apply hnl; rw [hys]; simp [hc]
  have hid : (u'.1 = [] ∧ u'.2.rest = []) ∨ IdOK u'.1 := by
    rcases mem_alt.1 hu' with he | hi
    · have hee := mem_eos he
      refine Or.inl ⟨by rw [hee.2], ?_⟩
      rcases hee.1 with h1 | h1
      · rw [hee.2]; exact h1
      · exact absurd rfl (hrest '\n' (by simp at h1; simp [h1]))
    · exact Or.inr (mem_idRe hi)
  have hcaps : ({ u'.2 with caps := (2, u'.1) :: u'.2.caps } : MSt).caps =
      [(2, u'.1), (1, y'.1)] := by
    simp [hucaps, hycaps]
  rcases mem_opt.1 hv with hv | rfl
  · rcases mem_alt.1 hv with hv | hv
    · have hee := mem_eos hv
      refine ⟨⟨y'.1, u'.1, []⟩, ⟨hid.imp And.left id, fun _ => rfl⟩, ?_, ?_, ?_⟩
      · rw [hee.2]; simp [Piece.sel]
      · rw [hee.2]; simp [MSt.group, hcaps, hucaps, hycaps]
      · intro h0
        rw [hee.2] at h0
        simp at h0
        rcases hid with hid | hid
        · rw [hys, hus]; simp [h0, hid]
        · exact absurd h0.2 (idOK_ne hid)
    · obtain ⟨w, hw, t, ht, rfl⟩ := mem_seq hv
      obtain ⟨c, cs, hcs, hc, rfl⟩ := mem_cls hw
      obtain ⟨p, hp, q, hq, rfl⟩ := mem_seq ht
      obtain ⟨p', hp', rfl⟩ := mem_grp hp
      obtain ⟨c', cs', hcs', hc', rfl⟩ := mem_cls hq
      have hpc := run_caps (plus rangeUnitRe) rfl _ _ hp'
      have hne : p'.1 ≠ [] := by
        obtain ⟨k, hk, k2, _, rfl⟩ := mem_seq hp'
        have := unit_ne hk
        simp [this]
      simp only at hcs
      rcases hid with hid | hid
      · exfalso; rw [hid.2] at hcs; cases hcs
      · simp only [beq_iff_eq] at hc hc'
        subst hc; subst hc'
        refine ⟨⟨y'.1, u'.1, p'.1⟩, ⟨Or.inr hid, fun h0 => absurd h0 (idOK_ne hid)⟩, ?_, ?_, ?_⟩
        · simp [Piece.sel, hne]
        · simp [MSt.group, hpc, hucaps, hycaps]
        · intro h0; simp at h0
  · refine ⟨⟨y'.1, u'.1, []⟩, ⟨hid.imp And.left id, fun _ => rfl⟩, ?_, ?_, ?_⟩
    · simp [Piece.sel]
    · simp [MSt.group, hcaps, hucaps, hycaps]
    · intro h0
      simp at h0
      rcases hid with hid | hid
      · rw [hys, hus]; simp [h0, hid]
      · exact absurd h0.2 (idOK_ne hid)

theorem robust_exists {b c cs} (hnl : ∀ x ∈ c :: cs, x ≠ '\n') :
    ∃ y st, robustRefRe.matchAt b (c :: cs) false = some (y, st) := by
  cases hm : robustRefRe.matchAt b (c :: cs) false with
  | some p => exact ⟨p.1, p.2, rfl⟩
  | none =>
    exfalso
    rw [matchAt_false, first_none] at hm
    obtain ⟨b', hb'⟩ := starLazy_cls_full isAny cs false [] (fun x hx => by
      simp [isAny, hnl x (by simp [hx])])
    have h1 : (c :: cs, (⟨b', [], [(1, c :: cs)]⟩ : MSt)) ∈
        (grp 1 (alt bos (plusLazy (cls isAny)))).run ⟨b, c :: cs, []⟩ := by
      rw [run_grp, List.mem_map]
      refine ⟨(c :: cs, ⟨b', [], []⟩), ?_, rfl⟩
      rw [mem_alt]; right
      rw [plusLazy, run_seq, List.mem_flatMap]
      refine ⟨([c], ⟨false, cs, []⟩), ?_, ?_⟩
      · simp [run, isAny, hnl c (by simp)]
      · rw [List.mem_map]; exact ⟨_, hb', rfl⟩
    have : (c :: cs, (⟨b', [], [(2, []), (1, c :: cs)]⟩ : MSt)) ∈
        robustRefRe.run ⟨b, c :: cs, []⟩ := by
      rw [robustRefRe, run_seq, List.mem_flatMap]
      refine ⟨_, h1, ?_⟩
      rw [List.mem_map]
      refine ⟨([], ⟨b', [], [(2, []), (1, c :: cs)]⟩), ?_, by simp⟩
      simp [run, opt]
    rw [hm] at this; cases this

theorem robust_pieces : ∀ bol s must, (∀ c ∈ s, c ≠ '\n') → (must = false ∨ s = []) →
    ∃ ps : List Piece, (∀ p ∈ ps, p.OK) ∧
      (found robustRefRe bol s must).map (fun m => (m.2.group 1, m.2.group 2, m.2.group 3)) =
        ps.map (fun p => (p.pre, p.id, p.rng)) ∧
      s = ps.flatMap fun p => p.pre ++ p.sel := by
  apply scan_induct robustRefRe
  · intro bol s must c st h ih hnl hmust
    obtain ⟨p, hok, hc, hg, hemp⟩ := robust_mem hnl (matchAt_mem h)
    have hs := (matchAt_sound h).1
    obtain ⟨ps, h1, h2, h3⟩ := ih (fun x hx => hnl x (by rw [hs]; simp [hx])) (by
      cases hc0 : c with
      | nil =>
        right
        have := hemp hc0
        rw [this, hc0] at hs
        simpa using hs.symm
      | cons => left; rfl)
    refine ⟨p :: ps, ?_, ?_, ?_⟩
    · intro q hq
      rcases List.mem_cons.1 hq with rfl | hq
      · exact hok
      · exact h1 q hq
    · rw [found_matchAt h, List.map_cons, List.map_cons, h2, hg]
    · rw [List.flatMap_cons, ← h3, ← hc]; exact hs
  · intro bol must h _ _
    exact ⟨[], by simp, by simp [found_nil h], by simp⟩
  · intro bol x xs must h _ hnl hmust
    exfalso
    rcases hmust with rfl | hmust
    · obtain ⟨y, st, hy⟩ := robust_exists (b := bol) hnl
      rw [h] at hy; cases hy
    · cases hmust

/-! ### strip and int() -/

omit [Uni] in
theorem dropWhile_eq_self {p : Char → Bool} {s : Str} (h : Brk p s) : s.dropWhile p = s := by
  have := dropWhile_append_brk (p := p) (a := []) (b := s) (by simp) h
  simpa using this

theorem strip_eq_self {s : Str} (h1 : Brk Uni.isSpace s) (h2 : Brk Uni.isSpace s.reverse) :
    strip s = s := by
  rw [strip, lstrip, dropWhile_eq_self h1, dropWhile_eq_self h2, List.reverse_reverse]

theorem idChar_not_space {c : Char} (h : isIdChar c = true) : Uni.isSpace c = false := by
  cases hs : Uni.isSpace c with
  | false => rfl
  | true =>
    have hw := Uni.space_not_word c hs
    simp only [isIdChar, hw, Bool.or_false, Bool.or_eq_true, beq_iff_eq] at h
    rcases h with rfl | rfl
    · rw [Uni.ascii_space _ (by decide)] at hs; revert hs; decide
    · rw [Uni.ascii_space _ (by decide)] at hs; revert hs; decide

theorem rbrack_not_space : Uni.isSpace ']' = false := by
  rw [Uni.ascii_space _ (by decide)]; decide

/-- last character of a rendered selection -/
theorem sel_render_last {s : Sel} (h : s.OK) (pre : Str) :
    ∃ c cs, (pre ++ s.render).reverse = c :: cs ∧ Uni.isSpace c = false := by
  unfold Sel.render Sel.rangeStr
  cases s.range with
  | some r =>
    refine ⟨']', (pre ++ s.id ++ '[' :: r.render).reverse, ?_, rbrack_not_space⟩
    simp
  | none =>
    have hne := idOK_ne h.1
    have hl : s.id.getLast hne ∈ s.id := List.getLast_mem hne
    refine ⟨s.id.getLast hne, (pre ++ s.id.dropLast).reverse, ?_,
      idChar_not_space (idOK_chars h.1 _ hl)⟩
    simp only [List.append_nil]
    conv => lhs; rw [← List.dropLast_concat_getLast hne]
    simp

theorem strip_render {e : Expr} (h : e.OK) : strip e.render = e.render := by
  apply strip_eq_self
  · obtain ⟨c, cs, hc, hl⟩ := sel_render_head h.1 (renderTail e.tail)
    have e1 : e.render = e.head.render ++ renderTail e.tail := rfl
    rw [e1, hc]
    exact brk_cons (idChar_not_space (isLetter_idChar hl))
  · have key : ∃ pre s, Sel.OK s ∧ e.render = pre ++ s.render := by
      cases ht : e.tail.reverse with
      | nil =>
        have : e.tail = [] := by simpa using ht
        exact ⟨[], e.head, h.1, by simp [Expr.render, this]⟩
      | cons p ps =>
        have : e.tail = ps.reverse ++ [p] := by
          rw [← List.reverse_reverse (as := e.tail), ht]; simp
        refine ⟨e.head.render ++ renderTail ps.reverse ++ p.1, p.2, (h.2 p (by simp [this])).2, ?_⟩
        simp [Expr.render, this, renderTail]
    obtain ⟨pre, s, hs, he⟩ := key
    obtain ⟨c, cs, hc, hsp⟩ := sel_render_last hs pre
    rw [he, hc]; exact brk_cons hsp

theorem digit_underscore : Uni.digit '_' = none := digit_ascii _ (by decide) (by decide)
theorem digit_plus : Uni.digit '+' = none := digit_ascii _ (by decide) (by decide)

theorem parseDigits_ok : ∀ (ds : Str) (acc : Nat), (∀ c ∈ ds, (Uni.digit c).isSome = true) →
    parseDigits ds acc false = some (ds.foldl (fun acc c => 10 * acc + (Uni.digit c).getD 0) acc) := by
  intro ds
  induction ds with
  | nil => intro acc _; simp [parseDigits]
  | cons c cs ih =>
    intro acc h
    have hc := h c (by simp)
    obtain ⟨n, hn⟩ := Option.isSome_iff_exists.1 hc
    have hu : c ≠ '_' := by rintro rfl; rw [digit_underscore] at hn; cases hn
    rw [parseDigits, if_neg hu, hn]
    simp only
    rw [ih _ (fun x hx => h x (by simp [hx]))]
    simp [hn, Nat.mul_comm]

theorem parseNat_ok {ds : Str} (hne : ds ≠ []) (h : ∀ c ∈ ds, (Uni.digit c).isSome = true) :
    parseNat ds = some (decVal ds) := by
  cases ds with
  | nil => exact absurd rfl hne
  | cons c cs =>
    obtain ⟨n, hn⟩ := Option.isSome_iff_exists.1 (h c (by simp))
    rw [parseNat, hn]
    simp only
    rw [parseDigits_ok _ _ (fun x hx => h x (by simp [hx]))]
    simp [decVal, hn]

theorem num_chars {n : Num} (h : n.OK) : ∀ c ∈ n.render, isIdChar c = true := by
  intro c hc
  unfold Num.render at hc
  cases hneg : n.neg <;> simp [hneg] at hc
  · exact digit_idChar (h.2 c hc)
  · rcases hc with rfl | hc
    · exact idChar_dash
    · exact digit_idChar (h.2 c hc)

theorem strip_num {n : Num} (h : n.OK) : strip n.render = n.render := by
  apply strip_eq_self
  · intro c cs e
    exact idChar_not_space (num_chars h c (by simp [e]))
  · intro c cs e
    have : c ∈ n.render.reverse := by simp [e]
    exact idChar_not_space (num_chars h c (by simpa using this))

theorem pyInt_num {n : Num} (h : n.OK) : pyInt n.render = .ok n.value := by
  rw [pyInt, strip_num h]
  unfold Num.render Num.value
  cases hneg : n.neg with
  | true =>
    simp only [if_true, List.cons_append, List.nil_append]
    rw [parseNat_ok h.1 h.2]
  | false =>
    obtain ⟨c, cs, hcs⟩ := List.exists_cons_of_ne_nil h.1
    have hc := h.2 c (by simp [hcs])
    have h1 : c ≠ '-' := by rintro rfl; simp [digit_dash] at hc
    have h2 : c ≠ '+' := by rintro rfl; simp [digit_plus] at hc
    simp only [Bool.false_eq_true, if_false, List.nil_append, hcs, if_neg h1, if_neg h2]
    rw [← hcs, parseNat_ok h.1 h.2]

/-! ### Laws of split and merge -/

omit [Uni] in
theorem split_of_isSplit {s : Sel} (h : ∀ r, s.range = some r → r.tail = []) :
    s.split = (s, []) := by
  unfold Sel.split
  cases hr : s.range with
  | none => rfl
  | some r =>
    have := h r hr
    obtain ⟨hd, tl⟩ := r
    simp only at this
    subst this
    simp [← hr]

omit [Uni] in
theorem Expr.split_of_isSplit {e : Expr} (h : e.IsSplit) : e.split = e := by
  have hs : ∀ s ∈ e.sels, s.split = (s, []) := fun s hs => Xigt.split_of_isSplit (h s hs)
  obtain ⟨hd, tl⟩ := e
  simp only [Expr.sels] at hs
  unfold Expr.split
  rw [hs hd (by simp)]
  simp only [List.nil_append, Expr.mk.injEq, true_and]
  have : ∀ p ∈ tl, p.2.split = (p.2, []) := fun p hp => hs p.2 (by simp; exact Or.inr ⟨_, hp⟩)
  clear hs h
  induction tl with
  | nil => rfl
  | cons p ps ih =>
    rw [List.flatMap_cons, this p (by simp), ih (fun q hq => this q (by simp [hq]))]
    rfl

omit [Uni] in
theorem Sel.split_isSplit (s : Sel) : (∀ r, s.split.1.range = some r → r.tail = []) ∧
    ∀ p ∈ s.split.2, ∀ r, p.2.range = some r → r.tail = [] := by
  unfold Sel.split
  cases hr : s.range with
  | none => simp [hr]
  | some q =>
    constructor
    · intro r h; simp at h; subst h; rfl
    · intro p hp r h
      simp at hp
      obtain ⟨a, b, _, rfl⟩ := hp
      simp at h; subst h; rfl

omit [Uni] in
theorem Expr.split_isSplit (e : Expr) : e.split.IsSplit := by
  intro s hs
  simp only [Expr.sels, Expr.split, List.mem_cons, List.mem_map, List.mem_append,
    List.mem_flatMap] at hs
  rcases hs with rfl | ⟨p, hp | ⟨q, _, hq⟩, rfl⟩
  · exact e.head.split_isSplit.1
  · exact e.head.split_isSplit.2 p hp
  · rcases hq with rfl | hq
    · exact q.2.split_isSplit.1
    · exact q.2.split_isSplit.2 p hq

theorem Sel.split_ok {s : Sel} (h : s.OK) : s.split.1.OK ∧
    ∀ p ∈ s.split.2, (∃ d, p.1 = [d] ∧ DelimOK d) ∧ p.2.OK := by
  unfold Sel.split
  cases hr : s.range with
  | none => exact ⟨by simpa using h, by simp⟩
  | some q =>
    have hq := h.2 q hr
    constructor
    · refine ⟨h.1, fun r he => ?_⟩
      simp at he; subst he
      exact ⟨hq.1, by simp⟩
    · intro p hp
      simp at hp
      obtain ⟨a, b, hab, rfl⟩ := hp
      have := hq.2 (a, b) hab
      refine ⟨⟨a, rfl, this.1⟩, h.1, fun r he => ?_⟩
      simp at he; subst he
      exact ⟨this.2, by simp⟩

theorem Expr.split_simple {e : Expr} (h : e.Simple) : e.split.Simple := by
  refine ⟨(Sel.split_ok h.1).1, ?_⟩
  intro p hp
  simp only [Expr.split, List.mem_append, List.mem_flatMap, List.mem_cons] at hp
  rcases hp with hp | ⟨q, hq, rfl | hp⟩
  · exact (Sel.split_ok h.1).2 p hp
  · exact ⟨(h.2 q hq).1, (Sel.split_ok (h.2 q hq).2).1⟩
  · exact (Sel.split_ok (h.2 q hq).2).2 p hp

theorem Expr.split_ok {e : Expr} (h : e.OK) : e.split.OK := by
  have conv : ∀ p : Str × Sel, ((∃ d, p.1 = [d] ∧ DelimOK d) ∧ p.2.OK) → SepOK p.1 ∧ p.2.OK := by
    rintro p ⟨⟨d, hd, hok⟩, hs⟩; exact ⟨hd ▸ sepOK_of_delim hok, hs⟩
  refine ⟨(Sel.split_ok h.1).1, ?_⟩
  intro p hp
  simp only [Expr.split, List.mem_append, List.mem_flatMap, List.mem_cons] at hp
  rcases hp with hp | ⟨q, hq, rfl | hp⟩
  · exact conv p ((Sel.split_ok h.1).2 p hp)
  · exact ⟨(h.2 q hq).1, (Sel.split_ok (h.2 q hq).2).1⟩
  · exact conv p ((Sel.split_ok (h.2 q hq).2).2 p hp)

/-- expand on a rendered expression -/
theorem expand_render {e : Expr} (h : e.OK) : expand e.render = e.split.render := by
  have one : ∀ (s : Sel), s.OK → ∀ pre : Str,
      (if s.rangeText = [] then pre ++ s.id
       else pre ++ (findTriples spanRe s.rangeText).flatMap
          fun u => u.1 ++ spanStr s.id u.2.1 u.2.2) =
      pre ++ (s.split.1.render ++ renderTail s.split.2) := by
    intro s hs pre
    unfold Sel.rangeText Sel.split
    cases hr : s.range with
    | none => simp [Sel.render, Sel.rangeStr, hr, renderTail]
    | some r =>
      simp only [RangeE.render_ne r, if_false]
      rw [triples_span (hs.2 r hr)]
      simp only [List.flatMap_cons, List.flatMap_map, renderTail]
      congr 1
      simp only [Sel.render, Sel.rangeStr, RangeE.render, SpanE.render, spanStr, List.nil_append,
        List.flatMap_nil, List.append_nil, List.append_assoc, List.cons_append, List.singleton_append]
  rw [expand, triples_robust h, List.flatMap_cons]
  simp only
  rw [one e.head h.1 [], List.flatMap_map]
  simp only [Expr.render, Expr.split, List.nil_append, renderTail, List.flatMap_append,
    List.append_assoc]
  congr 2
  have ht := h.2
  generalize e.tail = l at ht
  clear h
  induction l with
  | nil => rfl
  | cons p ps ih =>
    rw [List.flatMap_cons, ih (fun q hq => ht q (by simp [hq])), one p.2 (ht p (by simp)).2]
    simp [renderTail, List.flatMap_append]

/-! ### compress -/

/-- state of the loop of `compress` for a current selection -/
def curSel (s : Sel) : Option Str := s.range.map fun r => '[' :: r.render
def curLast (s : Sel) : Option Str := s.range.map fun _ => s.id

omit [Uni] in
theorem mergeTail_same {s t : Sel} {r q c ps} (hs : s.range = some r) (ht : t.range = some q)
    (hid : s.id = t.id) : mergeTail s (([c], t) :: ps) =
      mergeTail ⟨s.id, some ⟨r.head, r.tail ++ (c, q.head) :: q.tail⟩⟩ ps := by
  obtain ⟨i, rg⟩ := s
  obtain ⟨j, rg'⟩ := t
  simp only at hs ht hid
  subst hs ht hid
  simp [mergeTail]

omit [Uni] in
theorem mergeTail_diff {s t : Sel} {r q c ps} (hs : s.range = some r) (ht : t.range = some q)
    (hid : s.id ≠ t.id) : mergeTail s (([c], t) :: ps) =
      ⟨s, ([c], (mergeTail t ps).head) :: (mergeTail t ps).tail⟩ := by
  obtain ⟨i, rg⟩ := s
  obtain ⟨j, rg'⟩ := t
  simp only at hs ht hid
  subst hs ht
  simp [mergeTail, hid]

omit [Uni] in
theorem mergeTail_none_left {s t : Sel} {d ps} (hs : s.range = none) :
    mergeTail s ((d, t) :: ps) = ⟨s, (d, (mergeTail t ps).head) :: (mergeTail t ps).tail⟩ := by
  obtain ⟨i, rg⟩ := s
  simp only at hs
  subst hs
  simp [mergeTail]

omit [Uni] in
theorem mergeTail_none_right {s t : Sel} {d ps} (ht : t.range = none) :
    mergeTail s ((d, t) :: ps) = ⟨s, (d, (mergeTail t ps).head) :: (mergeTail t ps).tail⟩ := by
  obtain ⟨i, rg⟩ := t
  simp only at ht
  subst ht
  simp [mergeTail]

omit [Uni] in
theorem mergeTail_long {s t : Sel} {d ps} (hd : ∀ c, d ≠ [c]) :
    mergeTail s ((d, t) :: ps) = ⟨s, (d, (mergeTail t ps).head) :: (mergeTail t ps).tail⟩ := by
  rw [mergeTail]
  intro r q c _ _ hc
  exact hd c hc

/-- two selections are merged or kept apart -/
theorem mergeTail_cases (s t : Sel) (d : Str) (ps)
    (hj : Mergeable s t → ∃ c, d = [c] ∧ DelimOK c) :
    (∃ r q c, d = [c] ∧ DelimOK c ∧ s.range = some r ∧ t.range = some q ∧ s.id = t.id ∧
      mergeTail s ((d, t) :: ps) =
      mergeTail ⟨s.id, some ⟨r.head, r.tail ++ (c, q.head) :: q.tail⟩⟩ ps) ∨
    (¬ Mergeable s t ∧ mergeTail s ((d, t) :: ps) =
      ⟨s, (d, (mergeTail t ps).head) :: (mergeTail t ps).tail⟩) := by
  cases hs : s.range with
  | none => exact Or.inr ⟨by simp [Mergeable, hs], mergeTail_none_left hs⟩
  | some r =>
    cases ht : t.range with
    | none => exact Or.inr ⟨by simp [Mergeable, ht], mergeTail_none_right ht⟩
    | some q =>
      by_cases hid : s.id = t.id
      · obtain ⟨c, rfl, hc⟩ := hj ⟨hid, by simp [hs], by simp [ht]⟩
        exact Or.inl ⟨r, q, c, rfl, hc, rfl, rfl, hid, mergeTail_same hs ht hid⟩
      · refine Or.inr ⟨by simp [Mergeable, hid], ?_⟩
        by_cases hd : ∃ c, d = [c]
        · obtain ⟨c, rfl⟩ := hd
          exact mergeTail_diff hs ht hid
        · exact mergeTail_long (fun c hc => hd ⟨c, hc⟩)

theorem JoinOK.congr {s s' : Sel} (h1 : s.id = s'.id) (h2 : s.range.isSome = s'.range.isSome) :
    ∀ {l}, JoinOK s l → JoinOK s' l := by
  intro l
  cases l with
  | nil => exact id
  | cons p ps =>
    obtain ⟨d, t⟩ := p
    simp only [JoinOK, Mergeable, h1, h2]
    exact id

theorem compress_loop : ∀ (l : List (Str × Sel)) (s : Sel) (T : Str), JoinOK s l →
    finishC (compressLoop (l.map fun p => (p.1, p.2.id, p.2.rangeText)) (T ++ s.id)
      (curSel s) (curLast s)) = T ++ (mergeTail s l).render := by
  intro l
  induction l with
  | nil =>
    intro s T _
    simp only [List.map_nil, compressLoop, mergeTail, Expr.render, Sel.render, Sel.rangeStr, curSel]
    cases s.range <;> simp [finishC]
  | cons p ps ih =>
    intro s T h
    obtain ⟨d, t⟩ := p
    rw [List.map_cons]
    simp only [compressLoop]
    have hT : finishC (T ++ s.id, curSel s) = T ++ s.render := by
      unfold curSel Sel.render Sel.rangeStr
      cases s.range <;> simp [finishC]
    rcases mergeTail_cases s t d ps h.1 with ⟨r, q, c, rfl, hc, hs, ht, hid, e⟩ | ⟨hn, e⟩
    · have e1 : curSel s = some ('[' :: r.render) := by simp [curSel, hs]
      have e2 : curLast s = some s.id := by simp [curLast, hs]
      rw [e1, e2, if_pos ⟨by simp [Sel.rangeText, ht, RangeE.render_ne], by rw [hid]⟩, e]
      have := ih ⟨s.id, some ⟨r.head, r.tail ++ (c, q.head) :: q.tail⟩⟩ T
        (JoinOK.congr (s := t) (s' := ⟨s.id, some _⟩) hid.symm (by simp [ht]) h.2)
      rw [← this]
      simp [curSel, curLast, Sel.rangeText, ht, RangeE.render]
    · have hneg : ¬ (t.rangeText ≠ [] ∧ some t.id = curLast s) := by
        rintro ⟨h1, h2⟩
        unfold curLast at h2
        cases hs : s.range with
        | none => simp [hs] at h2
        | some r =>
          simp [hs] at h2
          cases ht : t.range with
          | none => simp [Sel.rangeText, ht] at h1
          | some q => exact hn ⟨h2.symm, by simp [hs], by simp [ht]⟩
      rw [if_neg hneg, e, hT]
      have := ih t (T ++ s.render ++ d) h.2
      simp only [Expr.render, List.flatMap_cons]
      have e : T ++ (s.render ++ (d ++ (mergeTail t ps).head.render ++
          (mergeTail t ps).tail.flatMap fun p => p.1 ++ p.2.render)) =
          T ++ s.render ++ d ++ (mergeTail t ps).render := by
        simp [Expr.render]
      rw [e, ← this]
      unfold Sel.rangeText curSel curLast
      cases t.range with
      | none => simp
      | some q => simp [RangeE.render_ne]

theorem compress_render {e : Expr} (h : e.WF) : compress e.render = e.merge.render := by
  have key := compress_loop e.tail e.head [] h.2
  rw [compress, triples_robust h.1]
  simp only [compressLoop]
  rw [if_neg (by simp)]
  simp only [List.nil_append] at key ⊢
  rw [Expr.merge, ← key]
  unfold Sel.rangeText curSel curLast
  cases e.head.range with
  | none => simp [finishC]
  | some q => simp [RangeE.render_ne, finishC]

end Xigt
