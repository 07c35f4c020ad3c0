import Verif.Ref.Ops
/- Helper lemmas: laws of split/merge/denote. -/

set_option linter.unusedSimpArgs false
set_option linter.unusedSectionVars false

namespace Xigt
variable [Uni]
open Re

/-! ### merge -/

def OKTail (l : List (Str × Sel)) : Prop := ∀ p ∈ l, SepOK p.1 ∧ p.2.OK
def SimpleTail (l : List (Str × Sel)) : Prop := ∀ p ∈ l, (∃ d, p.1 = [d] ∧ DelimOK d) ∧ p.2.OK

theorem OKTail.tail {p : Str × Sel} {l} (h : OKTail (p :: l)) : OKTail l :=
  fun q hq => h q (by simp [hq])
theorem SimpleTail.tail {p : Str × Sel} {l} (h : SimpleTail (p :: l)) : SimpleTail l :=
  fun q hq => h q (by simp [hq])

theorem merged_sel_ok {s t : Sel} {r q c} (hs : s.OK) (ht : t.OK) (hr : s.range = some r)
    (hq : t.range = some q) (hc : DelimOK c) :
    (⟨s.id, some ⟨r.head, r.tail ++ (c, q.head) :: q.tail⟩⟩ : Sel).OK := by
  refine ⟨hs.1, ?_⟩
  intro r' h
  simp at h; subst h
  have h1 := hs.2 r hr
  have h2 := ht.2 q hq
  refine ⟨h1.1, fun p hp => ?_⟩
  simp only [List.mem_append, List.mem_cons] at hp
  rcases hp with hp | rfl | hp
  · exact h1.2 p hp
  · exact ⟨hc, h2.1⟩
  · exact h2.2 p hp

theorem mergeTail_ok : ∀ (l : List (Str × Sel)) (s : Sel), s.OK → OKTail l → JoinOK s l →
    (mergeTail s l).OK := by
  intro l
  induction l with
  | nil => intro s hs _ _; exact ⟨hs, by simp [mergeTail]⟩
  | cons p ps ih =>
    intro s hs h hj
    obtain ⟨hd, hp⟩ := h p (by simp)
    obtain ⟨d, t⟩ := p
    rcases mergeTail_cases s t d ps hj.1 with ⟨r, q, c, rfl, hc, hr, hq, hid, e⟩ | ⟨_, e⟩
    · rw [e]; exact ih _ (merged_sel_ok hs hp hr hq hc) h.tail (JoinOK.congr (s := t) (s' := ⟨s.id, some _⟩) hid.symm (by simp [hq]) hj.2)
    · rw [e]
      have := ih t hp h.tail hj.2
      refine ⟨hs, ?_⟩
      intro p hp'
      simp only [List.mem_cons] at hp'
      rcases hp' with rfl | hp'
      · exact ⟨hd, this.1⟩
      · exact this.2 p hp'

theorem Expr.Simple.join {e : Expr} (h : e.Simple) : JoinOK e.head e.tail := by
  obtain ⟨s, l⟩ := e
  have hl := h.2
  simp only at hl ⊢
  clear h
  induction l generalizing s with
  | nil => trivial
  | cons p ps ih =>
    obtain ⟨d, t⟩ := p
    exact ⟨fun _ => (hl (d, t) (by simp)).1, ih t (fun q hq => hl q (by simp [hq]))⟩

theorem Expr.Simple.wf {e : Expr} (h : e.Simple) : e.WF := ⟨h.ok, h.join⟩

theorem mergeTail_simple : ∀ (l : List (Str × Sel)) (s : Sel), s.OK → SimpleTail l → JoinOK s l →
    (mergeTail s l).Simple := by
  intro l
  induction l with
  | nil => intro s hs _ _; exact ⟨hs, by simp [mergeTail]⟩
  | cons p ps ih =>
    intro s hs h hj
    obtain ⟨hd, hp⟩ := h p (by simp)
    obtain ⟨d, t⟩ := p
    rcases mergeTail_cases s t d ps hj.1 with ⟨r, q, c, rfl, hc, hr, hq, hid, e⟩ | ⟨_, e⟩
    · rw [e]; exact ih _ (merged_sel_ok hs hp hr hq hc) h.tail (JoinOK.congr (s := t) (s' := ⟨s.id, some _⟩) hid.symm (by simp [hq]) hj.2)
    · rw [e]
      have := ih t hp h.tail hj.2
      refine ⟨hs, ?_⟩
      intro p hp'
      simp only [List.mem_cons] at hp'
      rcases hp' with rfl | hp'
      · exact ⟨hd, this.1⟩
      · exact this.2 p hp'

omit [Uni] in
theorem mergeTail_head : ∀ (l : List (Str × Sel)) (s : Sel),
    (mergeTail s l).head.id = s.id ∧ ((mergeTail s l).head.range.isSome = s.range.isSome) := by
  intro l
  induction l with
  | nil => intro s; simp [mergeTail]
  | cons p ps ih =>
    intro s
    obtain ⟨d, t⟩ := p
    cases hs : s.range with
    | none => rw [mergeTail_none_left hs]; simp [hs]
    | some r =>
      cases ht : t.range with
      | none => rw [mergeTail_none_right ht]; simp [hs]
      | some q =>
        by_cases hd : ∃ c, d = [c]
        · obtain ⟨c, rfl⟩ := hd
          by_cases hid : s.id = t.id
          · rw [mergeTail_same hs ht hid]
            have := ih ⟨s.id, some ⟨r.head, r.tail ++ (c, q.head) :: q.tail⟩⟩
            simp at this
            simp [this]
          · rw [mergeTail_diff hs ht hid]; simp [hs]
        · rw [mergeTail_long (fun c hc => hd ⟨c, hc⟩)]; simp [hs]

theorem mergeTail_merged : ∀ (l : List (Str × Sel)) (s : Sel), JoinOK s l →
    (mergeTail s l).IsMerged := by
  intro l
  induction l with
  | nil =>
    intro s _ pre a b r h
    simp only [mergeTail, Expr.sels, List.map_nil] at h
    cases pre <;> simp at h
  | cons p ps ih =>
    intro s h
    obtain ⟨d, t⟩ := p
    rcases mergeTail_cases s t d ps h.1 with ⟨r, q, c, rfl, hc, hr, hq, hid, e⟩ | ⟨hn, e⟩
    · rw [e]; exact ih _ (JoinOK.congr (s := t) (s' := ⟨s.id, some _⟩) hid.symm (by simp [hq]) h.2)
    · rw [e]
      have hm := ih t h.2
      intro pre a b r hsplit
      simp only [Expr.sels, List.map_cons] at hsplit
      cases pre with
      | nil =>
        simp only [List.nil_append, List.cons.injEq] at hsplit
        obtain ⟨rfl, rfl, _⟩ := hsplit
        have hh := mergeTail_head ps t
        unfold Mergeable at hn ⊢
        rw [hh.1, hh.2]; exact hn
      | cons x xs =>
        simp only [List.cons_append, List.cons.injEq] at hsplit
        exact hm xs a b r hsplit.2

theorem JoinOK.of_merged : ∀ (l : List (Str × Sel)) (s : Sel), (⟨s, l⟩ : Expr).IsMerged →
    JoinOK s l := by
  intro l
  induction l with
  | nil => intro s _; trivial
  | cons p ps ih =>
    intro s hm
    obtain ⟨d, t⟩ := p
    refine ⟨fun h => absurd h (hm [] s t (ps.map Prod.snd) rfl), ih t ?_⟩
    intro pre a b r e
    exact hm (s :: pre) a b r (by simp only [Expr.sels, List.map_cons] at e ⊢; rw [e]; rfl)

theorem mergeTail_of_merged : ∀ (l : List (Str × Sel)) (s : Sel),
    (⟨s, l⟩ : Expr).IsMerged → mergeTail s l = ⟨s, l⟩ := by
  intro l
  induction l with
  | nil => intro s _; rfl
  | cons p ps ih =>
    intro s hm
    have hj := JoinOK.of_merged _ _ hm
    obtain ⟨d, t⟩ := p
    have hn : ¬ Mergeable s t := hm [] s t (ps.map Prod.snd) rfl
    have hm' : (⟨t, ps⟩ : Expr).IsMerged := by
      intro pre a b r e
      exact hm (s :: pre) a b r (by simp only [Expr.sels, List.map_cons] at e ⊢; rw [e]; rfl)
    rcases mergeTail_cases s t d ps hj.1 with ⟨r, q, c, _, _, hr, hq, hid, e⟩ | ⟨_, e⟩
    · exact absurd ⟨hid, by simp [hr], by simp [hq]⟩ hn
    · rw [e, ih t hm']

/-- the flattened form of an expression: single spans with their delimiters -/
def flatTail (l : List (Str × Sel)) : List (Str × Sel) :=
  l.flatMap fun p => (p.1, p.2.split.1) :: p.2.split.2

omit [Uni] in
theorem Expr.split_eq (e : Expr) : e.split = ⟨e.head.split.1, e.head.split.2 ++ flatTail e.tail⟩ := rfl

omit [Uni] in
theorem split_fst_id (t : Sel) : t.split.1.id = t.id := by unfold Sel.split; cases t.range <;> rfl

omit [Uni] in
theorem split_fst_range (t : Sel) : t.split.1.range = t.range.map fun r => ⟨r.head, []⟩ := by
  unfold Sel.split
  cases hr : t.range <;> simp [hr]

theorem mergeTail_split : ∀ (l : List (Str × Sel)) (s : Sel), JoinOK s l →
    (mergeTail s l).split = (⟨s, l⟩ : Expr).split := by
  intro l
  induction l with
  | nil => intro s _; rfl
  | cons p ps ih =>
    intro s h
    obtain ⟨d, t⟩ := p
    rcases mergeTail_cases s t d ps h.1 with ⟨r, q, c, rfl, hc, hr, hq, hid, e⟩ | ⟨_, e⟩
    · rw [e, ih _ (JoinOK.congr (s := t) (s' := ⟨s.id, some _⟩) hid.symm (by simp [hq]) h.2)]
      simp [Expr.split_eq, flatTail, Sel.split, hr, hq, hid]
    · rw [e]
      have := ih t h.2
      simp only [Expr.split_eq, flatTail, Expr.mk.injEq] at this ⊢
      refine ⟨trivial, ?_⟩
      simp only [List.flatMap_cons, List.cons_append]
      rw [this.1, this.2]

omit [Uni] in
/-- merging the split form of a current selection with more -/
theorem mergeTail_split_cur : ∀ (tl : List (Char × SpanE)) (i : Str) (hd : SpanE)
    (acc : List (Char × SpanE)) (rest : List (Str × Sel)),
    mergeTail ⟨i, some ⟨hd, acc⟩⟩ ((tl.map fun p => ([p.1], ⟨i, some ⟨p.2, []⟩⟩)) ++ rest) =
      mergeTail ⟨i, some ⟨hd, acc ++ tl⟩⟩ rest := by
  intro tl
  induction tl with
  | nil => intro i hd acc rest; simp
  | cons p ps ih =>
    intro i hd acc rest
    simp only [List.map_cons, List.cons_append]
    rw [mergeTail_same (s := ⟨i, some ⟨hd, acc⟩⟩) (t := ⟨i, some ⟨p.2, []⟩⟩) rfl rfl rfl]
    simp only
    rw [ih]
    simp

omit [Uni] in
theorem mergeTail_prefix (s : Sel) (rest : List (Str × Sel)) :
    mergeTail s.split.1 (s.split.2 ++ rest) = mergeTail s rest := by
  unfold Sel.split
  cases hr : s.range with
  | none => simp
  | some r =>
    simp only
    rw [mergeTail_split_cur]
    congr 1
    obtain ⟨i, rg⟩ := s
    simp only at hr; subst hr
    simp

/-- merging spans one by one or a whole selection at once gives the same -/
theorem mergeTail_flat : ∀ (l : List (Str × Sel)) (s : Sel), JoinOK s l →
    mergeTail s (flatTail l) = mergeTail s l := by
  intro l
  induction l with
  | nil => intro s _; rfl
  | cons p ps ih =>
    intro s h
    obtain ⟨d, t⟩ := p
    have e1 : flatTail ((d, t) :: ps) = (d, t.split.1) :: (t.split.2 ++ flatTail ps) := rfl
    rw [e1]
    have hsid := split_fst_id t
    have hsr := split_fst_range t
    rcases mergeTail_cases s t d ps h.1 with ⟨r, q, c, rfl, hc, hr, hq, hid, e⟩ | ⟨hn, e⟩
    · rw [e, ← ih _ (JoinOK.congr (s := t) (s' := ⟨s.id, some _⟩) hid.symm (by simp [hq]) h.2)]
      have hq' : t.split.1.range = some ⟨q.head, []⟩ := by rw [hsr, hq]; rfl
      rw [mergeTail_same hr hq' (by rw [hsid, hid])]
      have h2 : t.split.2 = q.tail.map fun p => ([p.1], ⟨s.id, some ⟨p.2, []⟩⟩) := by
        unfold Sel.split; simp [hq, hid]
      rw [h2]
      simp only
      rw [mergeTail_split_cur]
      simp
    · have hn' : ¬ Mergeable s t.split.1 := by
        unfold Mergeable at hn ⊢
        rw [hsid, hsr]; simpa using hn
      rcases mergeTail_cases s t.split.1 d (t.split.2 ++ flatTail ps) (fun x => absurd x hn') with
        ⟨r, q, c, _, _, hr, hq, hid, _⟩ | ⟨_, e2⟩
      · exact absurd ⟨hid, by simp [hr], by simp [hq]⟩ hn'
      · rw [e, e2, mergeTail_prefix, ih t h.2]

theorem join_split_cur : ∀ (tl : List (Char × SpanE)) (i : Str) (x : RangeE)
    (rest : List (Str × Sel)), (∀ p ∈ tl, DelimOK p.1) → JoinOK ⟨i, some x⟩ rest →
    JoinOK ⟨i, some x⟩ ((tl.map fun p => ([p.1], ⟨i, some ⟨p.2, []⟩⟩)) ++ rest) := by
  intro tl
  induction tl with
  | nil => intro i x rest _ h; simpa using h
  | cons p ps ih =>
    intro i x rest hd h
    refine ⟨fun _ => ⟨p.1, rfl, hd p (by simp)⟩, ?_⟩
    exact ih i _ rest (fun q hq => hd q (by simp [hq])) (JoinOK.congr (s := ⟨i, some x⟩) (s' := ⟨i, some ⟨p.2, []⟩⟩) rfl rfl h)

theorem join_prefix {s : Sel} (hs : s.OK) {rest : List (Str × Sel)} (h : JoinOK s rest) :
    JoinOK s.split.1 (s.split.2 ++ rest) := by
  unfold Sel.split
  cases hr : s.range with
  | none => simpa using h
  | some r =>
    exact join_split_cur r.tail s.id ⟨r.head, []⟩ rest (fun p hp => ((hs.2 r hr).2 p hp).1)
      (JoinOK.congr (s := s) (s' := ⟨s.id, some _⟩) rfl (by simp [hr]) h)

theorem join_flat : ∀ (l : List (Str × Sel)) (s : Sel), OKTail l → JoinOK s l →
    JoinOK s (flatTail l) := by
  intro l
  induction l with
  | nil => intro s _ _; trivial
  | cons p ps ih =>
    intro s hl h
    obtain ⟨d, t⟩ := p
    refine ⟨fun hm => h.1 ?_, ?_⟩
    · unfold Mergeable at hm ⊢
      rw [split_fst_id, split_fst_range] at hm
      simpa using hm
    · exact join_prefix (hl (d, t) (by simp)).2 (ih t hl.tail h.2)

theorem Expr.merge_ok {e : Expr} (h : e.WF) : e.merge.OK := mergeTail_ok _ _ h.1.1 h.1.2 h.2

theorem Expr.merge_isMerged {e : Expr} (h : e.WF) : e.merge.IsMerged :=
  mergeTail_merged _ _ h.2

theorem Expr.merge_wf {e : Expr} (h : e.WF) : e.merge.WF :=
  ⟨e.merge_ok h, JoinOK.of_merged _ _ (e.merge_isMerged h)⟩

theorem Expr.split_wf {e : Expr} (h : e.WF) : e.split.WF :=
  ⟨e.split_ok h.1, join_prefix h.1.1 (join_flat _ _ h.1.2 h.2)⟩

theorem Expr.merge_simple {e : Expr} (h : e.Simple) : e.merge.Simple :=
  mergeTail_simple _ _ h.1 h.2 h.join

theorem Expr.merge_split {e : Expr} (h : e.WF) : e.merge.split = e.split :=
  mergeTail_split _ _ h.2

theorem Expr.split_merge {e : Expr} (h : e.WF) : e.split.merge = e.merge := by
  rw [Expr.split_eq, Expr.merge, Expr.merge]
  simp only
  rw [mergeTail_prefix, mergeTail_flat _ _ h.2]

theorem Expr.merge_merge {e : Expr} (h : e.WF) : e.merge.merge = e.merge :=
  mergeTail_of_merged _ _ (Expr.merge_isMerged h)

/-! ### resolve -/

omit [Uni] in
theorem delimText_eq (d : Str) : delimText d = sepText d := by
  unfold delimText sepText; split
  · rfl
  · simp

theorem resolveSpans_tail (v : Str) : ∀ (l : List (Char × SpanE)), (∀ p ∈ l, DelimOK p.1 ∧ p.2.OK) →
    resolveSpans v (l.map fun p => ([p.1], p.2.a.render, p.2.b.render)) =
      .ok (l.flatMap fun p => sepText [p.1] ++ p.2.select v) := by
  intro l
  induction l with
  | nil => intro _; rfl
  | cons p ps ih =>
    intro h
    have hp := h p (by simp)
    have ha : p.2.a.render ≠ [] := by
      obtain ⟨c, cs, e, _⟩ := num_head hp.2.1; simp [e]
    have hb : p.2.b.render ≠ [] := by
      obtain ⟨c, cs, e, _⟩ := num_head hp.2.2; simp [e]
    rw [List.map_cons, resolveSpans]
    simp only [if_neg ha, if_neg hb, pyInt_num hp.2.1, pyInt_num hp.2.2,
      ih (fun q hq => h q (by simp [hq]))]
    simp [Except.map, bind, Except.bind, SpanE.select, delimText_eq]

theorem resolveSpans_range (v : Str) {r : RangeE} (h : r.OK) :
    resolveSpans v (findTriples spanRe r.render) =
      .ok (r.head.select v ++ r.tail.flatMap fun p => sepText [p.1] ++ p.2.select v) := by
  have ha : r.head.a.render ≠ [] := by
    obtain ⟨c, cs, e, _⟩ := num_head h.1.1; simp [e]
  have hb : r.head.b.render ≠ [] := by
    obtain ⟨c, cs, e, _⟩ := num_head h.1.2; simp [e]
  rw [triples_span h, resolveSpans]
  simp only [if_neg ha, if_neg hb, pyInt_num h.1.1, pyInt_num h.1.2, resolveSpans_tail v _ h.2]
  simp [Except.map, bind, Except.bind, SpanE.select, delimText]

theorem resolve_one (get : Str → Option (Py (Option Str))) {s : Sel} (h : s.OK) (d : Str)
    (ts : List (Str × Str × Str)) :
    resolveSels get ((d, s.id, s.rangeText) :: ts) = (do
      let a ← s.denote get
      let b ← resolveSels get ts
      .ok (sepText d ++ a ++ b)) := by
  have hd := delimText_eq d
  unfold Sel.denote
  conv => lhs; rw [resolveSels]
  cases hg : get s.id with
  | none => rfl
  | some v =>
    cases v with
    | error e => rfl
    | ok w =>
      simp only [bind, Except.bind]
      unfold Sel.rangeText Sel.select
      cases hr : s.range with
      | none => simp [pure, Except.pure, hd]
      | some r =>
        simp only [ne_eq, RangeE.render_ne, not_false_eq_true, if_true]
        rw [resolveSpans_range _ (h.2 r hr)]
        simp only [hd]

theorem resolve_tail (get : Str → Option (Py (Option Str))) : ∀ (l : List (Str × Sel)),
    SimpleTail l →
    resolveSels get (l.map fun p => (p.1, p.2.id, p.2.rangeText)) = denoteTail get l := by
  intro l
  induction l with
  | nil => intro _; rfl
  | cons p ps ih =>
    intro h
    rw [List.map_cons, resolve_one get (h p (by simp)).2, ih h.tail, denoteTail]

theorem resolve_render (get : Str → Option (Py (Option Str))) {e : Expr} (h : e.Simple) :
    resolve get e.render = e.denote get := by
  rw [resolve, strip_render h.ok, triples_selection h, resolve_one get h.1, resolve_tail get _ h.2]
  simp [Expr.denote, sepText]

/-! ### denotation of split and merge -/

omit [Uni] in
theorem except_assoc {α β γ : Type} (x : Py α) (f : α → Py β) (g : β → Py γ) :
    (x >>= f >>= g) = x >>= fun a => f a >>= g := by
  cases x <;> rfl

theorem denoteTail_append (get) : ∀ (l m : List (Str × Sel)), denoteTail get (l ++ m) = (do
      let a ← denoteTail get l
      let b ← denoteTail get m
      .ok (a ++ b)) := by
  intro l m
  induction l with
  | nil =>
    simp only [List.nil_append, denoteTail, bind, Except.bind]
    cases denoteTail get m <;> simp
  | cons p ps ih =>
    simp only [List.cons_append, denoteTail, ih]
    cases p.2.denote get with
    | error e => rfl
    | ok a =>
      simp only [bind, Except.bind]
      cases denoteTail get ps with
      | error e => rfl
      | ok b =>
        simp only
        cases denoteTail get m <;> simp

/-- a selection and its split form denote the same -/
theorem denote_split_sel (get) (s : Sel) : (do
      let a ← s.split.1.denote get
      let b ← denoteTail get s.split.2
      .ok (a ++ b)) = s.denote get := by
  unfold Sel.split
  cases hr : s.range with
  | none =>
    simp only [denoteTail, bind, Except.bind]
    cases s.denote get <;> simp
  | some r =>
    have key : ∀ (l : List (Char × SpanE)) (v : Option Str), get s.id = some (.ok v) →
        denoteTail get (l.map fun p => ([p.1], (⟨s.id, some ⟨p.2, []⟩⟩ : Sel))) =
          .ok (l.flatMap fun p => sepText [p.1] ++ p.2.select (v.getD [])) := by
      intro l v hv
      induction l with
      | nil => rfl
      | cons p ps ih =>
        simp only [List.map_cons, denoteTail, ih, Sel.denote, hv, Sel.select, bind, Except.bind]
        simp
    simp only
    cases hg : get s.id with
    | none => simp [Sel.denote, hg, bind, Except.bind]
    | some w =>
      cases w with
      | error e => simp [Sel.denote, hg, bind, Except.bind]
      | ok v =>
        rw [key r.tail v hg]
        simp [Sel.denote, hg, bind, Except.bind, Sel.select, hr]

theorem denote_flatTail (get) : ∀ l : List (Str × Sel),
    denoteTail get (flatTail l) = denoteTail get l := by
  intro l
  induction l with
  | nil => rfl
  | cons p ps ih =>
    have e1 : flatTail (p :: ps) = (p.1, p.2.split.1) :: (p.2.split.2 ++ flatTail ps) := rfl
    rw [e1, denoteTail, denoteTail_append, ih]
    conv => rhs; rw [denoteTail, ← denote_split_sel]
    cases p.2.split.1.denote get with
    | error e => rfl
    | ok a =>
      simp only [bind, Except.bind]
      cases denoteTail get p.2.split.2 with
      | error e => rfl
      | ok b =>
        simp only
        cases denoteTail get ps <;> simp

theorem denote_split (get) (e : Expr) : e.split.denote get = e.denote get := by
  rw [Expr.split_eq, Expr.denote]
  simp only
  rw [denoteTail_append, denote_flatTail, Expr.denote, ← denote_split_sel get e.head]
  cases e.head.split.1.denote get with
  | error e => rfl
  | ok a =>
    simp only [bind, Except.bind]
    cases denoteTail get e.head.split.2 with
    | error e => rfl
    | ok b =>
      simp only
      cases denoteTail get e.tail <;> simp

theorem denote_merge (get) {e : Expr} (h : e.Simple) : e.merge.denote get = e.denote get := by
  rw [← denote_split get e.merge, Expr.merge_split h.wf, denote_split]

/-! ### IdSplit of expressions with liberal separators -/

theorem IdSplit.skips {s l} (h : IdSplit s l) : ∀ {a : Str}, (∀ c ∈ a, isLetter c = false) →
    IdSplit (a ++ s) l := by
  intro a
  induction a with
  | nil => intro _; exact h
  | cons c cs ih => intro hc; exact .skip (hc c (by simp)) (ih fun x hx => hc x (by simp [hx]))

theorem num_no_letter {n : Num} (h : n.OK) : ∀ c ∈ n.render, isLetter c = false := by
  intro c hc
  unfold Num.render at hc
  have hd : ∀ c, (Uni.digit c).isSome = true → isLetter c = false := by
    intro c h
    cases hl : isLetter c with
    | false => rfl
    | true =>
      have hlt : c.toNat < 128 := by
        simp only [isLetter, Bool.or_eq_true, Bool.and_eq_true, decide_eq_true_eq] at hl; omega
      rw [Uni.ascii_digit c hlt] at h
      simp only [isLetter, Bool.or_eq_true, Bool.and_eq_true, decide_eq_true_eq] at hl
      rw [if_neg (by omega)] at h
      simp at h
  cases hneg : n.neg <;> simp [hneg] at hc
  · exact hd c (h.2 c hc)
  · rcases hc with rfl | hc
    · decide
    · exact hd c (h.2 c hc)

theorem span_no_letter {n : SpanE} (h : n.OK) : ∀ c ∈ n.render, isLetter c = false := by
  intro c hc
  simp only [SpanE.render, List.mem_append, List.mem_cons] at hc
  rcases hc with hc | rfl | hc
  · exact num_no_letter h.1 c hc
  · decide
  · exact num_no_letter h.2 c hc

theorem delim_no_letter {c : Char} (h : DelimOK c) : isLetter c = false := by
  cases hl : isLetter c with
  | false => rfl
  | true => have := isLetter_idChar hl; rw [← idChar_eq, h.1] at this; cases this

theorem rangeStr_no_letter {s : Sel} (h : s.OK) : ∀ c ∈ s.rangeStr, isLetter c = false := by
  intro c hc
  unfold Sel.rangeStr at hc
  cases hr : s.range with
  | none => rw [hr] at hc; cases hc
  | some r =>
    have ho := h.2 r hr
    rw [hr] at hc
    simp only [RangeE.render, List.mem_append, List.mem_cons, List.mem_flatMap,
      List.not_mem_nil, or_false] at hc
    rcases hc with rfl | (hc | ⟨p, hp, rfl | hc⟩) | rfl
    · decide
    · exact span_no_letter ho.1 c hc
    · exact delim_no_letter (ho.2 p hp).1
    · exact span_no_letter (ho.2 p hp).2 c hc
    · decide

theorem lbrack_not_idChar : isIdChar '[' = false := by
  unfold isIdChar
  rw [Uni.ascii_word _ (by decide)]; decide

theorem idSplit_sel {s : Sel} (h : s.OK) {a l} (ha : s.range = none → ∀ c cs, a = c :: cs →
    isIdChar c = false) (hl : IdSplit a l) : IdSplit (s.render ++ a) (s.id :: l) := by
  rw [Sel.render, List.append_assoc]
  refine .take h.1 ?_ (hl.skips (rangeStr_no_letter h))
  intro c cs e
  unfold Sel.rangeStr at e
  cases hr : s.range with
  | none => rw [hr] at e; exact ha hr c cs e
  | some r =>
    rw [hr] at e
    simp at e
    rw [← e.1]; exact lbrack_not_idChar

theorem idSplit_tail : ∀ (l : List (Str × Sel)), (∀ p ∈ l, IdSepOK p.1 ∧ p.2.OK) →
    IdSplit (renderTail l) (l.map fun p => p.2.id) ∧
      ∀ c cs, renderTail l = c :: cs → isIdChar c = false := by
  intro l
  induction l with
  | nil => intro _; exact ⟨.nil, by simp [renderTail]⟩
  | cons p ps ih =>
    intro h
    obtain ⟨hd, hp⟩ := h p (by simp)
    have ih := ih (fun q hq => h q (by simp [hq]))
    have e : renderTail (p :: ps) = p.1 ++ (p.2.render ++ renderTail ps) := by simp [renderTail]
    rw [e]
    refine ⟨(idSplit_sel hp (fun _ => ih.2) ih.1).skips hd.2, ?_⟩
    intro c cs e
    obtain ⟨⟨x, xs, hx, hxc⟩, _⟩ := hd
    rw [hx] at e
    simp at e
    rw [← e.1]; exact hxc

theorem idSplit_expr {e : Expr} (h : e.head.OK ∧ ∀ p ∈ e.tail, IdSepOK p.1 ∧ p.2.OK) :
    IdSplit e.render e.ids := by
  have e1 : e.render = e.head.render ++ renderTail e.tail := rfl
  have := idSplit_tail e.tail h.2
  rw [e1]
  have h2 := idSplit_sel h.1 (fun _ => this.2) this.1
  simpa [Expr.ids, Expr.sels, Function.comp_def] using h2

/-! ### selections of well-formed expressions -/

theorem sel_token (s : Sel) :
    (if s.rangeText ≠ [] then s.id ++ '[' :: (s.rangeText ++ [']']) else s.id) = s.render := by
  unfold Sel.rangeText Sel.render Sel.rangeStr
  cases s.range with
  | none => simp
  | some r => simp [RangeE.render_ne]

theorem selections_render {e : Expr} (h : e.OK) : selections e.render = e.tokens := by
  rw [selections, triples_robust h, List.flatMap_cons, List.flatMap_map]
  have hid := idOK_ne h.1.1
  simp only [ne_eq, not_true_eq_false, and_false, if_false, hid, not_false_eq_true, if_true,
    List.nil_append]
  rw [show (if ¬ e.head.rangeText = [] then e.head.id ++ '[' :: (e.head.rangeText ++ [']'])
    else e.head.id) = e.head.render from sel_token e.head]
  have ht := h.2
  unfold Expr.tokens
  simp only [List.singleton_append]
  congr 1
  generalize e.tail = l at ht
  clear hid h
  induction l with
  | nil => rfl
  | cons p ps ih =>
    rw [List.flatMap_cons, List.flatMap_cons, ih fun q hq => ht q (by simp [hq])]
    congr 1
    obtain ⟨⟨⟨x, xs, hx, _⟩, _⟩, hp⟩ := ht p (by simp)
    have hid := idOK_ne hp.1
    have hne : p.1 ≠ [] := by simp [hx]
    simp only [hne, hid, ne_eq, not_false_eq_true, and_self, if_true]
    rw [show (if ¬ p.2.rangeText = [] then p.2.id ++ '[' :: (p.2.rangeText ++ [']'])
      else p.2.id) = p.2.render from sel_token p.2]
    rfl

theorem selections_render_nodelim {e : Expr} (h : e.OK) :
    selections e.render false = e.sels.map Sel.render := by
  rw [selections, triples_robust h, List.flatMap_cons, List.flatMap_map]
  have hid := idOK_ne h.1.1
  simp only [ne_eq, Bool.false_eq_true, false_and, if_false, hid, not_false_eq_true, if_true,
    List.nil_append]
  rw [show (if ¬ e.head.rangeText = [] then e.head.id ++ '[' :: (e.head.rangeText ++ [']'])
    else e.head.id) = e.head.render from sel_token e.head]
  have ht := h.2
  unfold Expr.sels
  simp only [List.singleton_append, List.map_cons, List.map_map]
  congr 1
  generalize e.tail = l at ht
  clear hid h
  induction l with
  | nil => rfl
  | cons p ps ih =>
    rw [List.flatMap_cons, List.map_cons, ih fun q hq => ht q (by simp [hq])]
    obtain ⟨_, hp⟩ := ht p (by simp)
    have hid := idOK_ne hp.1
    simp only [hid, ne_eq, not_false_eq_true, if_true]
    rw [show (if ¬ p.2.rangeText = [] then p.2.id ++ '[' :: (p.2.rangeText ++ [']'])
      else p.2.id) = p.2.render from sel_token p.2]
    rfl

/-! ### acceptance of ids -/

omit [Uni] in
theorem brk_dropWhile (p : Char → Bool) : ∀ s : Str, Brk p (s.dropWhile p) := by
  intro s
  induction s with
  | nil => exact brk_nil p
  | cons c cs ih =>
    rw [List.dropWhile_cons]
    cases h : p c with
    | true => simpa using ih
    | false => simpa using brk_cons h

theorem idAccepted_iff (s : Str) : idAccepted s = true ↔ ∃ c cs, s = c :: cs ∧ isLetter c = true := by
  have e : idAccepted s = (first idRe ⟨true, s, []⟩).isSome := rfl
  rw [e]
  cases s with
  | nil => rw [first_idRe_none (s := []) (by intro c cs e; cases e)]; simp
  | cons c cs =>
    cases hc : isLetter c with
    | false => rw [first_idRe_none (s := c :: cs) (brk_cons hc)]; simp [hc]
    | true =>
      have h0 := first_idRe (i := c :: cs.takeWhile isIdChar) (more := cs.dropWhile isIdChar)
          ⟨c, _, rfl, hc, fun x hx => mem_takeWhile_imp hx⟩ (brk_dropWhile _ _) true []
      rw [List.cons_append, List.takeWhile_append_dropWhile] at h0
      rw [h0]
      simp [hc]

end Xigt
