import Verif.Scripts.ValidateProps
/- Properties of xigt_validate.py about spans: C53, C69. -/

set_option linter.unusedSectionVars false
set_option linter.unusedVariables false

namespace Xigt.Vld
open Re

section
variable [Uni]

/-! ### Vocabulary -/

/-- selections joined by `+` or `,`, as are the spans in them -/
structure Std (e : Expr) : Prop where
  ok : e.OK
  seps : ∀ p ∈ e.tail, p.1 = ['+'] ∨ p.1 = [',']
  delims : ∀ s ∈ e.sels, ∀ r, s.range = some r → ∀ p ∈ r.tail, p.1 = '+' ∨ p.1 = ','

/-- the first item with an ID -/
def itemWith (u : Obj) (i : Str) (y : Obj) : Prop := u.kids.find? (fun z => z.data.id == some i) = some y

/-- a selection with one span that ends or begins beyond the end of the value of the selected item -/
def Beyond (depth : Nat) (g u : Obj) (s : Sel) : Prop :=
  ∃ r y v, s.range = some r ∧ itemWith u s.id y ∧ value depth (some g) (some u) y = .ok (some v) ∧
    ((v.length : Int) < r.head.a.value ∨ (v.length : Int) < r.head.b.value)

/-! ### Single selections -/

theorem afterSel_nil : AfterSel [] := by intro c cs h; cases h

theorem match_sel {s : Sel} (h : s.OK) : ∃ m, selectionRe.match? s.render = some m ∧ m.2.group 2 = s.id ∧ m.2.group 3 = s.rangeText := by
  have h1 := first_selection_start h afterSel_nil
  rw [List.append_nil] at h1
  refine ⟨_, (match?_eq _ _).trans h1, ?_⟩
  have := Sel.caps_groups [] s false []
  simp only [Prod.mk.injEq] at this
  exact this.2

theorem match_span {s : SpanE} (h : s.OK) : ∃ m, spanRe.match? s.render = some m ∧ m.2.group 2 = s.a.render ∧ m.2.group 3 = s.b.render := by
  have h1 := first_spanRe h (brk_nil _) true
  rw [List.append_nil] at h1
  exact ⟨_, (match?_eq _ _).trans h1, rfl, rfl⟩

theorem sel_head {s : Sel} (h : s.OK) : ∃ c cs, s.render = c :: cs ∧ isLetter c = true := by
  obtain ⟨c, cs, hi, hc, _⟩ := h.1
  exact ⟨c, cs ++ s.rangeStr, by rw [Sel.render, hi]; rfl, hc⟩

theorem not_delim {s : Sel} (h : s.OK) : isDelim s.render = false := by
  obtain ⟨c, cs, e, hc⟩ := sel_head h
  rw [e]
  have h1 : c ≠ '+' := by rintro rfl; revert hc; decide
  have h2 : c ≠ ',' := by rintro rfl; revert hc; decide
  simp [isDelim, h1, h2]

theorem contGet_itemWith {u : Obj} {i : Str} (h : IdOK i) : ∀ y, contGet u.kids i = some y ↔ itemWith u i y := by
  intro y
  rw [contGet_id (idAccepted_of h), find_beq]
  rfl

/-! ### Expressions -/

theorem split_parts (s : Sel) : (∀ r, s.split.1.range = some r → r.tail = []) ∧
    ∀ p ∈ s.split.2, ∃ r, p.2.range = some r ∧ r.tail = [] := by
  unfold Sel.split
  cases hr : s.range with
  | none => simp [hr]
  | some r =>
    refine ⟨by rintro _ ⟨⟩; rfl, ?_⟩
    intro p hp
    obtain ⟨q, hq, rfl⟩ := List.mem_map.1 hp
    exact ⟨_, rfl, rfl⟩

theorem split_sels (e : Expr) : e.split.sels = e.sels.flatMap fun s => s.split.1 :: s.split.2.map Prod.snd := by
  obtain ⟨hd, tl⟩ := e
  simp only [Expr.split, Expr.sels, List.map_append, List.flatMap_cons, List.cons_append, List.cons.injEq, true_and]
  congr 1
  induction tl with
  | nil => rfl
  | cons p tl ih => simp [ih]

theorem split_single {e : Expr} : ∀ s ∈ e.split.sels, ∀ r, s.range = some r → r.tail = [] := by
  intro s hs r hr
  rw [split_sels, List.mem_flatMap] at hs
  obtain ⟨s', _, h⟩ := hs
  rcases List.mem_cons.1 h with rfl | h
  · exact (split_parts s').1 r hr
  · obtain ⟨p, hp, rfl⟩ := List.mem_map.1 h
    obtain ⟨r', h1, h2⟩ := (split_parts s').2 p hp
    rw [h1] at hr; cases hr; exact h2

theorem split_seps {e : Expr} (h : Std e) : ∀ p ∈ e.split.tail, isDelim p.1 = true := by
  have hsel : ∀ s ∈ e.sels, ∀ p ∈ s.split.2, isDelim p.1 = true := by
    intro s hs p hp
    unfold Sel.split at hp
    cases hr : s.range with
    | none => simp [hr] at hp
    | some r =>
      simp only [hr, List.mem_map] at hp
      obtain ⟨q, hq, rfl⟩ := hp
      rcases h.delims s hs r hr q hq with h | h <;> simp [isDelim, h]
  intro p hp
  simp only [Expr.split, List.mem_append, List.mem_flatMap, List.mem_cons] at hp
  rcases hp with hp | ⟨q, hq, rfl | hp⟩
  · exact hsel _ (by simp [Expr.sels]) p hp
  · rcases h.seps q hq with h | h <;> simp [isDelim, h]
  · exact hsel _ (by simp only [Expr.sels, List.mem_cons, List.mem_map]; exact .inr ⟨q, hq, rfl⟩) p hp

theorem split_plain (e : Expr) : e.split.sels.filter (fun s => s.range.isNone) = e.sels.filter (fun s => s.range.isNone) := by
  rw [split_sels]
  induction e.sels with
  | nil => rfl
  | cons s l ih =>
    rw [List.flatMap_cons, List.filter_append, ih, List.filter_cons (x := s)]
    cases hr : s.range with
    | none => simp [Sel.split, hr]
    | some r =>
      have : (s.split.1 :: s.split.2.map Prod.snd).filter (fun s => s.range.isNone) = [] := by
        rw [List.filter_eq_nil_iff]
        intro x hx
        simp only [Sel.split, hr, List.mem_cons, List.mem_map] at hx
        rcases hx with rfl | ⟨p, ⟨q, _, rfl⟩, rfl⟩ <;> simp
      rw [this]; simp

/-! ### C69 -/

/-- what is found in a list of tokens -/
theorem spansOut_tokens {depth : Nat} {g u : Obj} {B : Sel → Bool} :
    ∀ (l : List Sel), (∀ s ∈ l, s.OK ∧ (∀ r, s.range = some r → r.tail = []) ∧ (B s = true ↔ Beyond depth g u s) ∧
      (s.range ≠ none → ∀ y, itemWith u s.id y → ∃ v, value depth (some g) (some u) y = .ok (some v))) →
    ∀ toks, toks.filter (fun t => !isDelim t) = l.map Sel.render →
      spansOutLoop depth g u toks = .ok ((l.filter B).map Sel.render) := by
  intro l hl toks
  induction toks generalizing l with
  | nil =>
    intro h
    cases l with
    | nil => rfl
    | cons s l => cases h
  | cons tok toks ih =>
    intro h
    rw [List.filter_cons] at h
    cases hd : isDelim tok with
    | true =>
      simp only [hd, Bool.not_true] at h
      simp only [spansOutLoop, hd, if_true]
      exact ih l hl h
    | false =>
      simp only [hd, Bool.not_false, if_true] at h
      cases l with
      | nil => cases h
      | cons s l =>
        simp only [List.map_cons, List.cons.injEq] at h
        obtain ⟨h1, h2⟩ := h
        obtain ⟨hok, hone, hB, hv⟩ := hl s (by simp)
        have ih' := ih l (fun s hs => hl s (List.mem_cons_of_mem _ hs)) h2
        obtain ⟨m, hm1, hm2, hm3⟩ := match_sel hok
        subst h1
        simp only [spansOutLoop, hd, hm1, hm2, hm3]
        cases hr : s.range with
        | none =>
          have hb : B s = false := by
            rw [← Bool.not_eq_true, hB]
            rintro ⟨r, y, v, e, _⟩
            rw [hr] at e; cases e
          have : s.rangeText = [] := by simp [Sel.rangeText, hr]
          simp [this, ih', List.filter_cons, hb]
        | some r =>
          have htl := hone r hr
          have hren : r.render = r.head.render := by simp [RangeE.render, htl]
          have hrt : s.rangeText = r.head.render := by simp [Sel.rangeText, hr, hren]
          have hrok := hok.2 r hr
          obtain ⟨q, hq1, hq2, hq3⟩ := match_span hrok.1
          rw [hrt]
          simp only [SpanE.render_ne, if_false, hq1, hq2, hq3, pyInt_num hrok.1.1, pyInt_num hrok.1.2, bind, Except.bind]
          cases hc : contGet u.kids s.id with
          | none =>
            have hb : B s = false := by
              rw [← Bool.not_eq_true, hB]
              rintro ⟨_, y, v, _, e, _⟩
              rw [← contGet_itemWith hok.1, hc] at e; cases e
            simp [ih', List.filter_cons, hb]
          | some y =>
            have hy := (contGet_itemWith hok.1 y).1 hc
            obtain ⟨v, hv⟩ := hv (by rw [hr]; simp) y hy
            simp only [hv, ih']
            have hB' : B s = true ↔ r.head.a.value > v.length ∨ r.head.b.value > v.length := by
              rw [hB]
              constructor
              · rintro ⟨r', y', v', e1, e2, e3, e4⟩
                rw [hr] at e1; cases e1
                unfold itemWith at hy e2
                rw [hy] at e2; cases e2
                rw [hv] at e3; cases e3
                exact e4
              · intro e; exact ⟨r, y, v, hr, hy, hv, e⟩
            by_cases hb : r.head.a.value > v.length ∨ r.head.b.value > v.length
            · simp [List.filter_cons, hB'.2 hb, if_pos hb]
            · have : B s = false := by rw [← Bool.not_eq_true, hB']; exact hb
              simp [List.filter_cons, this, if_neg hb]

/-- the tokens of a list of selections that are not delimiters -/
theorem tokens_filter {e : Expr} (ho : e.OK) (h : ∀ p ∈ e.tail, isDelim p.1 = true) :
    e.tokens.filter (fun t => !isDelim t) = e.sels.map Sel.render := by
  obtain ⟨hd, tl⟩ := e
  simp only [Expr.tokens, Expr.sels, List.filter_cons, not_delim ho.1, Bool.not_false, if_true, List.map_cons, List.cons.injEq, true_and]
  have h2 := ho.2
  clear ho
  induction tl with
  | nil => rfl
  | cons p tl ih =>
    rw [List.flatMap_cons, List.filter_append, ih (fun q hq => h q (List.mem_cons_of_mem _ hq)) (fun q hq => h2 q (List.mem_cons_of_mem _ hq))]
    simp [List.filter_cons, h p (by simp), not_delim (h2 p (by simp)).2]

theorem spans_filter {e : Expr} (h : Std e) : (spans e.render).filter (fun t => !isDelim t) = e.split.sels.map Sel.render := by
  rw [(C16_spans e h.ok).1]
  exact tokens_filter (e.split_ok h.ok) (split_seps h)

theorem sels_ok {e : Expr} (h : e.OK) : ∀ s ∈ e.sels, s.OK := by
  intro s hs
  simp only [Expr.sels, List.mem_cons, List.mem_map] at hs
  rcases hs with rfl | ⟨p, hp, rfl⟩
  · exact h.1
  · exact (h.2 p hp).2

open Classical in
/-- C69: for a reference made of selections joined by `+` or `,`, whose selected items have values, the
spans beyond the end of the selected item are reported, in order, and nothing else is. -/
theorem C69_spans (depth : Nat) (g t x : Obj) (ra : Str) (u : Obj) (e : Expr) (h : Std e)
    (he : itemRef g t x ra = some (e.render, u))
    (hv : ∀ s ∈ e.split.sels, s.range ≠ none → ∀ y, itemWith u s.id y → ∃ v, value depth (some g) (some u) y = .ok (some v)) :
    spansInItem depth g t x ra = .ok (if ∃ s ∈ e.split.sels, Beyond depth g u s
      then some (.spansOut ((e.split.sels.filter fun s => decide (Beyond depth g u s)).map Sel.render)) else none) := by
  have h1 := spansOut_tokens (B := fun s => decide (Beyond depth g u s)) e.split.sels
    (fun s hs => ⟨sels_ok (e.split_ok h.ok) s hs, split_single s hs, by simp, hv s hs⟩) _ (spans_filter h)
  simp only [spansInItem, he, h1, bind, Except.bind]
  by_cases hb : ∃ s ∈ e.split.sels, Beyond depth g u s
  · rw [if_pos hb, if_pos]
    obtain ⟨s, hs, hb⟩ := hb
    rw [ne_eq, List.map_eq_nil_iff, List.filter_eq_nil_iff]
    intro hn
    exact hn s hs (by simpa using hb)
  · rw [if_neg hb, if_neg]
    rw [ne_eq, not_not, List.map_eq_nil_iff, List.filter_eq_nil_iff]
    intro s hs hb'
    exact hb ⟨s, hs, by simpa using hb'⟩

/-! ### C53 -/

/-- length of the value of the item a token selects, if there is one -/
def vlen (depth : Nat) (g u : Obj) (s : Str) : Option Nat :=
  match contGet u.kids s with
  | none => none
  | some y => match value depth (some g) (some u) y with
    | .ok (some v) => some v.length
    | _ => none

/-- what has been counted after the tokens `w` -/
structure Counted (len : Str → Option Nat) (w : List Str) (d : Dict Str (Dict Nat Nat)) : Prop where
  wf : Dict.WF d
  has : ∀ s c, Dict.get? d s = some c → s ∈ w ∧ Dict.WF c ∧ ∃ n, len s = some n ∧
    ∀ k, (Dict.get? c k).getD 0 = if k < n then w.count s else 0
  lacks : ∀ s ∈ w, len s ≠ none → Dict.get? d s ≠ none

theorem count_range (n k : Nat) : (List.range n).count k = if k < n then 1 else 0 := by
  rw [List.nodup_range.count]; simp

theorem Counted.step {len : Str → Option Nat} {w d} (h : Counted len w d) (s : Str) :
    Counted len (w ++ [s]) (match len s with
      | none => d
      | some n => Dict.set d s (addRange ((Dict.get? d s).getD []) n)) := by
  cases hs : len s with
  | none =>
    refine ⟨h.wf, ?_, ?_⟩
    · intro t c ht
      obtain ⟨h1, h2, n, h3, h4⟩ := h.has t c ht
      refine ⟨List.mem_append_left _ h1, h2, n, h3, ?_⟩
      have : s ≠ t := by rintro rfl; rw [hs] at h3; cases h3
      intro k
      rw [h4, List.count_append, List.count_cons]
      simp [this]
    · intro t ht hn
      rcases List.mem_append.1 ht with ht | ht
      · exact h.lacks t ht hn
      · simp only [List.mem_singleton] at ht
        subst ht; exact absurd hs hn
  | some n =>
    refine ⟨h.wf.set _ _, ?_, ?_⟩
    · intro t c ht
      simp only [Dict.get?_set] at ht
      by_cases e : s = t
      · subst e
        simp only [if_true, Option.some.injEq] at ht
        subst ht
        refine ⟨by simp, ?_, n, hs, ?_⟩
        · apply Qry.foldl_bump_wf
          cases hg : Dict.get? d s with
          | none => exact Dict.wf_nil
          | some c => exact (h.has s c hg).2.1
        · intro k
          rw [addRange, Qry.foldl_bump, count_range, List.count_append]
          cases hg : Dict.get? d s with
          | none =>
            have : s ∉ w := fun hm => h.lacks s hm (by rw [hs]; simp) hg
            simp [List.count_eq_zero.2 this, Dict.get?]
          | some c =>
            obtain ⟨_, _, n', e1, e2⟩ := h.has s c hg
            rw [hs] at e1; cases e1
            simp only [Option.getD_some, e2]
            split <;> simp
      · simp only [e, if_false] at ht
        obtain ⟨h1, h2, n, h3, h4⟩ := h.has t c ht
        refine ⟨List.mem_append_left _ h1, h2, n, h3, ?_⟩
        intro k
        rw [h4, List.count_append, List.count_cons]
        simp [e]
    · intro t ht hn
      simp only [Dict.get?_set]
      by_cases e : s = t
      · simp [e]
      · simp only [e, if_false]
        rcases List.mem_append.1 ht with ht | ht
        · exact h.lacks t ht hn
        · simp only [List.mem_singleton] at ht
          exact absurd ht.symm e

theorem overlapLoop_counted {depth : Nat} {g u : Obj} : ∀ (toks : List Str),
    (∀ s ∈ toks, isDelim s = false → ∀ y, contGet u.kids s = some y → ∃ o, value depth (some g) (some u) y = .ok o) →
    ∀ w d, Counted (vlen depth g u) w d →
      ∃ d', overlapLoop depth g u toks d = .ok d' ∧ Counted (vlen depth g u) (w ++ toks.filter fun s => !isDelim s) d'
  | [], _, w, d, h => ⟨d, rfl, by simpa using h⟩
  | s :: toks, hv, w, d, h => by
    have hv' := fun t ht => hv t (List.mem_cons_of_mem _ ht)
    cases hd : isDelim s with
    | true =>
      simp only [overlapLoop, hd, if_true]
      simpa [List.filter_cons, hd] using overlapLoop_counted toks hv' w d h
    | false =>
      have hst := h.step s
      simp only [overlapLoop, hd]
      have e : w ++ (s :: toks).filter (fun s => !isDelim s) = (w ++ [s]) ++ toks.filter fun s => !isDelim s := by
        simp [List.filter_cons, hd]
      rw [e]
      cases hc : contGet u.kids s with
      | none =>
        have hl : vlen depth g u s = none := by simp [vlen, hc]
        rw [hl] at hst
        exact overlapLoop_counted toks hv' _ _ hst
      | some y =>
        obtain ⟨o, ho⟩ := hv s (by simp) hd y hc
        simp only [ho, bind, Except.bind]
        cases o with
        | none =>
          have hl : vlen depth g u s = none := by simp [vlen, hc, ho]
          rw [hl] at hst
          exact overlapLoop_counted toks hv' _ _ hst
        | some v =>
          have hl : vlen depth g u s = some v.length := by simp [vlen, hc, ho]
          rw [hl] at hst
          exact overlapLoop_counted toks hv' _ _ hst

theorem Counted.twice {len : Str → Option Nat} {w d} (h : Counted len w d) (s : Str) :
    s ∈ (d.filter fun p => p.2.any fun c => decide (c.2 > 1)).map Prod.fst ↔ 2 ≤ w.count s ∧ ∃ n, len s = some (n + 1) := by
  simp only [List.mem_map, List.mem_filter, List.any_eq_true, decide_eq_true_eq]
  constructor
  · rintro ⟨⟨t, c⟩, ⟨hm, ⟨k, v⟩, hk, hgt⟩, rfl⟩
    obtain ⟨h1, h2, n, h3, h4⟩ := h.has t c (Dict.get?_of_mem h.wf hm)
    have hkv := h4 k
    rw [Dict.get?_of_mem h2 hk, Option.getD_some] at hkv
    simp only at hgt
    split at hkv
    · next hlt =>
      refine ⟨by simp only; omega, n - 1, ?_⟩
      simp only
      rw [h3]; congr 1; omega
    · omega
  · rintro ⟨h1, n, h2⟩
    have hmem : s ∈ w := List.count_pos_iff.1 (by omega)
    have hne := h.lacks s hmem (by rw [h2]; simp)
    cases hg : Dict.get? d s with
    | none => exact absurd hg hne
    | some c =>
      obtain ⟨_, hwf, n', e1, e2⟩ := h.has s c hg
      rw [h2] at e1; cases e1
      have hk := e2 0
      rw [if_pos (by omega)] at hk
      cases hc : Dict.get? c 0 with
      | none => rw [hc] at hk; simp at hk; omega
      | some v =>
        rw [hc, Option.getD_some] at hk
        exact ⟨(s, c), ⟨Dict.get?_mem hg, (0, v), Dict.get?_mem hc, by simp only; omega⟩, rfl⟩

theorem rangeStr_bracket {s : Sel} {r} (h : s.range = some r) : '[' ∈ s.render := by
  simp [Sel.render, Sel.rangeStr, h]

theorem sel_accepted {s : Sel} (h : s.OK) : idAccepted s.render = true := by
  obtain ⟨c, cs, e, hc⟩ := sel_head h
  exact (idAccepted_iff _).2 ⟨c, cs, e, hc⟩

/-- C53 (what holds): for a reference made of selections joined by `+` or `,`, an item is reported as
overlapping exactly if it is selected as a whole at least twice and its value is not empty.  Characters
selected twice by spans are not noticed (`C53_refuted`). -/
theorem C53_partial (depth : Nat) (g t x : Obj) (ra : Str) (u : Obj) (e : Expr) (h : Std e)
    (he : itemRef g t x ra = some (e.render, u)) (hid : ∀ y ∈ u.kids, ∀ i, y.data.id = some i → IdOK i)
    (hv : ∀ s ∈ e.sels, s.range = none → ∀ y, itemWith u s.id y → ∃ o, value depth (some g) (some u) y = .ok o) :
    ∃ o, spansOverlap depth g t x ra = .ok o ∧ (o = none ∨ ∃ l, l ≠ [] ∧ o = some (.overlap l)) ∧
      ∀ i, (∃ l, o = some (.overlap l) ∧ i ∈ l) ↔ 2 ≤ ((e.sels.filter fun s => s.range.isNone).map Sel.id).count i ∧
        ∃ y v, itemWith u i y ∧ value depth (some g) (some u) y = .ok (some v) ∧ v ≠ [] := by
  have hf := spans_filter h
  have hok := sels_ok (e.split_ok h.ok)
  have hmem : ∀ s ∈ spans e.render, isDelim s = false → ∃ s' ∈ e.split.sels, s = s'.render := by
    intro s hs hd
    have : s ∈ (spans e.render).filter (fun t => !isDelim t) := List.mem_filter.2 ⟨hs, by simp [hd]⟩
    rw [hf] at this
    obtain ⟨s', h1, h2⟩ := List.mem_map.1 this
    exact ⟨s', h1, h2.symm⟩
  -- selections with spans are not found
  have hspan : ∀ s ∈ e.split.sels, s.range ≠ none → contGet u.kids s.render = none := by
    intro s hs hr
    rw [contGet_id (sel_accepted (hok s hs)), find_beq, find_none]
    intro y hy hi
    obtain ⟨r, hr⟩ := Option.ne_none_iff_exists'.1 hr
    have := idOK_chars (hid y hy _ hi) '[' (rangeStr_bracket hr)
    rw [idChar_lbrack] at this; cases this
  have hplain : ∀ s : Sel, s.range = none → s.render = s.id := by
    intro s hs; simp [Sel.render, Sel.rangeStr, hs]
  have hval : ∀ s ∈ spans e.render, isDelim s = false → ∀ y, contGet u.kids s = some y → ∃ o, value depth (some g) (some u) y = .ok o := by
    intro s hs hd y hy
    obtain ⟨s', h1, rfl⟩ := hmem s hs hd
    by_cases hr : s'.range = none
    · have h2 : s' ∈ e.sels := by
        have : s' ∈ e.split.sels.filter (fun s => s.range.isNone) := List.mem_filter.2 ⟨h1, by simp [hr]⟩
        rw [split_plain] at this
        exact (List.mem_filter.1 this).1
      rw [hplain s' hr, contGet_itemWith (hok s' h1).1] at hy
      exact hv s' h2 hr y hy
    · rw [hspan s' h1 hr] at hy; cases hy
  obtain ⟨d, hd1, hd2⟩ := overlapLoop_counted (spans e.render) hval [] []
    ⟨Dict.wf_nil, by intro s c h; simp [Dict.get?] at h, by intro s h; cases h⟩
  rw [List.nil_append, hf] at hd2
  have htw : ∀ i, i ∈ (d.filter fun p => p.2.any fun c => decide (c.2 > 1)).map Prod.fst ↔
      2 ≤ ((e.sels.filter fun s => s.range.isNone).map Sel.id).count i ∧
        ∃ y v, itemWith u i y ∧ value depth (some g) (some u) y = .ok (some v) ∧ v ≠ [] := by
    intro i
    rw [hd2.twice, ← split_plain]
    have hcount : ∀ l : List Sel, (∀ s ∈ l, s ∈ e.split.sels) → contGet u.kids i ≠ none →
        (l.map Sel.render).count i = ((l.filter fun s => s.range.isNone).map Sel.id).count i := by
      intro l hl hc
      induction l with
      | nil => rfl
      | cons s l ih =>
        have ih := ih fun s hs => hl s (List.mem_cons_of_mem _ hs)
        rw [List.map_cons, List.count_cons, ih, List.filter_cons]
        cases hr : s.range with
        | none => rw [hplain s hr]; simp [List.count_cons]
        | some r =>
          have : s.render ≠ i := by
            rintro rfl
            exact hc (hspan s (hl s (by simp)) (by rw [hr]; simp))
          simp [this]
    constructor
    · rintro ⟨h1, n, h2⟩
      have hc : contGet u.kids i ≠ none := by
        intro hc; simp [vlen, hc] at h2
      rw [hcount _ (fun s hs => hs) hc] at h1
      refine ⟨h1, ?_⟩
      have : i ∈ (e.split.sels.filter fun s => s.range.isNone).map Sel.id := List.count_pos_iff.1 (by omega)
      obtain ⟨s, hs, rfl⟩ := List.mem_map.1 this
      have hid := (hok s (List.mem_filter.1 hs).1).1
      cases hc' : contGet u.kids s.id with
      | none => exact absurd hc' hc
      | some y =>
        simp only [vlen, hc'] at h2
        split at h2
        · next v hv =>
          refine ⟨y, v, (contGet_itemWith hid y).1 hc', hv, ?_⟩
          rintro rfl
          simp at h2
        · cases h2
    · rintro ⟨h1, y, v, h2, h3, h4⟩
      have : i ∈ (e.split.sels.filter fun s => s.range.isNone).map Sel.id := List.count_pos_iff.1 (by omega)
      obtain ⟨s, hs, rfl⟩ := List.mem_map.1 this
      have hid := (hok s (List.mem_filter.1 hs).1).1
      have hc' := (contGet_itemWith hid y).2 h2
      rw [hcount _ (fun s hs => hs) (by rw [hc']; simp)]
      refine ⟨h1, v.length - 1, ?_⟩
      have hne : v.length ≠ 0 := fun h0 => h4 (List.length_eq_zero_iff.1 h0)
      have hlen : vlen depth g u s.id = some v.length := by rw [vlen, hc']; simp only [h3]
      rw [hlen, Nat.sub_add_cancel (Nat.one_le_iff_ne_zero.2 hne)]
  simp only [spansOverlap, he, hd1, bind, Except.bind]
  by_cases hn : (d.filter fun p => p.2.any fun c => decide (c.2 > 1)).map Prod.fst = []
  · refine ⟨none, by simp [hn], .inl rfl, ?_⟩
    intro i
    rw [← htw, hn]
    simp
  · refine ⟨_, by rw [if_pos hn], .inr ⟨_, hn, rfl⟩, ?_⟩
    intro i
    rw [← htw]
    constructor
    · rintro ⟨l, hl, hi⟩; cases hl; exact hi
    · intro hi; exact ⟨_, rfl, hi⟩

/-! ### When the validator finishes -/

/-- format strings with known fields only -/
inductive Fmt : Str → Prop
  | nil : Fmt []
  | plain {c s} : c ≠ '{' → c ≠ '}' → Fmt s → Fmt (c :: s)
  | field {k s} : k ∈ fmtKeys → Fmt s → Fmt ('{' :: (k ++ '}' :: s))

theorem Fmt.check {s : Str} (h : Fmt s) : ∀ n, fmtCheckN n s = .ok () := by
  induction h with
  | nil => intro n; cases n <;> rfl
  | @plain c s h1 h2 _ ih =>
    intro n
    cases n with
    | zero => rfl
    | succ n =>
      rw [fmtCheckN.eq_def]
      split
      · rfl
      · rfl
      · next he => cases he; exact absurd rfl h1
      · next he => cases he; exact absurd rfl h2
      · next he => cases he; exact absurd rfl h2
      · next he => cases he; exact absurd rfl h1
      · next he => cases he; next hn _ _ _ _ => cases hn; exact ih _
  | @field k s hk _ ih =>
    intro n
    cases n with
    | zero => rfl
    | succ n =>
      simp only [fmtKeys, List.mem_cons, List.not_mem_nil, or_false] at hk
      rcases hk with rfl | rfl | rfl | rfl | rfl <;> exact (by
        simp [fmtCheckN, List.takeWhile_cons, List.dropWhile_cons, fmtKeys]
        exact ih n)

theorem Fmt.append {a b : Str} (ha : Fmt a) (hb : Fmt b) : Fmt (a ++ b) := by
  induction ha with
  | nil => exact hb
  | plain h1 h2 _ ih => exact .plain h1 h2 ih
  | @field k s hk _ ih =>
    have : '{' :: (k ++ '}' :: s) ++ b = '{' :: (k ++ '}' :: (s ++ b)) := by simp
    rw [this]
    exact .field hk ih

/-- no braces -/
def Plain (s : Str) : Prop := ∀ c ∈ s, c ≠ '{' ∧ c ≠ '}'

theorem Plain.fmt {s : Str} (h : Plain s) : Fmt s := by
  induction s with
  | nil => exact .nil
  | cons c s ih =>
    have := h c (by simp)
    exact .plain this.1 this.2 (ih fun x hx => h x (List.mem_cons_of_mem _ hx))

theorem Plain.append {a b : Str} (ha : Plain a) (hb : Plain b) : Plain (a ++ b) := by
  intro c hc
  rcases List.mem_append.1 hc with h | h
  · exact ha c h
  · exact hb c h

theorem plain_join {l : List Str} (h : ∀ s ∈ l, Plain s) : Plain (joinWith (lit! ", ") l) := by
  induction l with
  | nil => intro c hc; cases hc
  | cons a l ih =>
    have ih := ih fun s hs => h s (List.mem_cons_of_mem _ hs)
    cases l with
    | nil => exact h a (by simp)
    | cons b l =>
      rw [joinWith]
      exact ((h a (by simp)).append (by intro c hc; revert c; decide)).append ih

/-- deciding `Fmt` -/
def fmtB : Nat → Str → Bool
  | _, [] => true
  | 0, _ :: _ => false
  | n + 1, c :: cs =>
    if c = '{' then
      decide (cs.takeWhile (· ≠ '}') ∈ fmtKeys) && decide ('}' ∈ cs) && fmtB n ((cs.dropWhile (· ≠ '}')).drop 1)
    else decide (c ≠ '}') && fmtB n cs

theorem takeDrop_brace : ∀ {cs : Str}, '}' ∈ cs → cs = cs.takeWhile (· ≠ '}') ++ '}' :: (cs.dropWhile (· ≠ '}')).drop 1
  | [], h => by cases h
  | c :: cs, h => by
    by_cases hc : c = '}'
    · subst hc; simp [List.takeWhile_cons, List.dropWhile_cons]
    · have : '}' ∈ cs := by
        rcases List.mem_cons.1 h with h | h
        · exact absurd h.symm hc
        · exact h
      have ih := takeDrop_brace this
      simp only [List.takeWhile_cons, List.dropWhile_cons]
      simp only [ne_eq, hc, not_false_eq_true, decide_true, if_true, List.cons_append]
      rw [← ih]

theorem fmtB_fmt : ∀ {n s}, fmtB n s = true → Fmt s
  | _, [], _ => .nil
  | 0, _ :: _, h => by cases h
  | n + 1, c :: cs, h => by
    simp only [fmtB] at h
    split at h
    · next hc =>
      subst hc
      simp only [Bool.and_eq_true, decide_eq_true_eq] at h
      rw [takeDrop_brace h.1.2]
      exact .field h.1.1 (fmtB_fmt h.2)
    · next hc =>
      simp only [Bool.and_eq_true, decide_eq_true_eq] at h
      exact .plain hc h.1 (fmtB_fmt h.2)

theorem cond_some {lvl o} (h : ∀ m, o = some m → Fmt m.template) : ∃ a, cond lvl (.ok o) = .ok a := by
  cases o with
  | none => exact ⟨_, rfl⟩
  | some m =>
    refine ⟨[⟨lvl, m⟩], ?_⟩
    simp only [cond, bind, Except.bind, fmtCheck, (h m rfl).check]

theorem conds_some : ∀ {l : List (Py (List Rec))}, (∀ r ∈ l, ∃ a, r = .ok a) → ∃ a, conds l = .ok a
  | [], _ => ⟨_, rfl⟩
  | r :: l, h => by
    obtain ⟨a, ha⟩ := h r (by simp)
    obtain ⟨b, hb⟩ := conds_some fun r hr => h r (List.mem_cons_of_mem _ hr)
    exact ⟨a ++ b, by simp only [conds, ha, hb, bind, Except.bind]⟩

theorem plain_char {c : Char} (h : isIdChar c = true) : c ≠ '{' ∧ c ≠ '}' := by
  have h1 : isIdChar '{' = false := by
    simp [isIdChar, word_ascii (c := '{') false (by decide) (by decide)]
  have h2 : isIdChar '}' = false := by
    simp [isIdChar, word_ascii (c := '}') false (by decide) (by decide)]
  constructor
  · rintro rfl; rw [h1] at h; cases h
  · rintro rfl; rw [h2] at h; cases h

theorem plain_id {i : Str} (h : IdOK i) : Plain i := fun c hc => plain_char (idOK_chars h c hc)

theorem plain_num {n : Num} (h : n.OK) : Plain n.render := by
  intro c hc
  apply plain_char
  rw [Num.render] at hc
  rcases List.mem_append.1 hc with hc | hc
  · split at hc
    · simp only [List.mem_singleton] at hc; subst hc; exact idChar_dash
    · cases hc
  · exact digit_idChar (h.2 c hc)

theorem plain_sel {s : Sel} (h : s.OK) (h1 : ∀ r, s.range = some r → r.tail = []) : Plain s.render := by
  rw [Sel.render]
  refine (plain_id h.1).append ?_
  unfold Sel.rangeStr
  cases hr : s.range with
  | none => intro c hc; cases hc
  | some r =>
    have hok := h.2 r hr
    have : r.render = r.head.render := by simp [RangeE.render, h1 r hr]
    simp only [this, SpanE.render]
    have h3 := plain_num hok.1.1
    have h4 := plain_num hok.1.2
    intro c hc
    simp only [List.mem_cons, List.mem_append, List.not_mem_nil, or_false] at hc
    rcases hc with rfl | (hc | rfl | hc) | rfl
    · decide
    · exact h3 c hc
    · decide
    · exact h4 c hc
    · decide

/-- what the validator can check: IDs are plain, references are selections joined by `+` or `,`, values can
be computed, and items of which spans are selected have one -/
structure Checkable (depth : Nat) (g : Obj) : Prop where
  tierIds : ∀ t ∈ g.kids, ∀ i, t.data.id = some i → IdOK i
  itemIds : ∀ t ∈ g.kids, ∀ x ∈ t.kids, ∀ i, x.data.id = some i → IdOK i
  refs : ∀ t ∈ g.kids, ∀ x ∈ t.kids, ∀ ra ∈ refAttrs, ∀ e, Dict.get? x.data.attrs ra = some e → e ≠ [] →
    ∃ E, Std E ∧ e = E.render
  values : ∀ t ∈ g.kids, ∀ x ∈ t.kids, ∃ o, value depth (some g) (some t) x = .ok o
  spanned : ∀ t ∈ g.kids, ∀ x ∈ t.kids, ∀ ra E u, itemRef g t x ra = some (E.render, u) → Std E →
    ∀ s ∈ E.split.sels, s.range ≠ none → ∀ y, itemWith u s.id y → value depth (some g) (some u) y ≠ .ok none

theorem itemRef_mem {g t x : Obj} {ra e u} (h : itemRef g t x ra = some (e, u)) : u ∈ g.kids ∧ e ≠ [] ∧
    Dict.get? x.data.attrs ra = some e := by
  obtain ⟨h1, h2, h3⟩ := itemRef_iff.1 h
  refine ⟨?_, h2, h1⟩
  unfold referredTier at h3
  split at h3
  · split at h3
    · cases h3
    · split at h3
      · next hc =>
        split at h3
        · cases h3
        · cases h3; exact contGet_mem hc
      · cases h3
  · cases h3

theorem fmt_notUnique : Fmt (Msg.template .notUnique) := fmtB_fmt (n := 200) (by decide)
theorem fmt_noId : Fmt (Msg.template .noId) := fmtB_fmt (n := 200) (by decide)
theorem fmt_noType : Fmt (Msg.template .noType) := fmtB_fmt (n := 200) (by decide)
theorem plain_refAttr {ra : Str} (h : ra ∈ refAttrs) : Plain ra := by
  simp only [refAttrs, List.mem_cons, List.not_mem_nil, or_false] at h
  rcases h with rfl | rfl | rfl <;> (intro c hc; revert c; decide)

theorem cond_unique (seen : List Str) (x : Obj) : ∃ a, cond ERROR (.ok (idIsUnique seen x)) = .ok a := by
  apply cond_some
  intro m hm
  obtain ⟨rfl, _⟩ := idIsUnique_iff.1 hm
  exact fmt_notUnique

theorem cond_hasId (lvl : Nat) (x : Obj) : ∃ a, cond lvl (.ok (hasId x)) = .ok a := by
  apply cond_some
  intro m hm
  obtain ⟨rfl, _⟩ := hasId_iff.1 hm
  exact fmt_noId

theorem item_finishes {depth : Nat} {g : Obj} (h : Checkable depth g) {t x : Obj} (ht : t ∈ g.kids) (hx : x ∈ t.kids) :
    ∃ a, validateItem depth g t x = .ok a := by
  apply conds_some
  intro r hr
  rcases List.mem_cons.1 hr with rfl | hr
  · exact cond_hasId _ _
  · obtain ⟨ra, hra, hr⟩ := List.mem_flatMap.1 hr
    simp only [List.mem_cons, List.not_mem_nil, or_false] at hr
    rcases hr with rfl | rfl | rfl
    · apply cond_some
      intro m hm
      unfold idsInTier at hm
      split at hm
      · cases hm
      · next e u he =>
        simp only at hm
        split at hm
        · cases hm
          obtain ⟨hu, _, _⟩ := itemRef_mem he
          have h1 : Plain (strId u.data.id) := by
            cases hi : u.data.id with
            | none => intro c hc; revert c; decide
            | some i => exact plain_id (h.tierIds u hu i hi)
          have h2 : Plain (joinWith (lit! ", ") ((ids e).filter fun i => (contGet u.kids i).isNone)) :=
            plain_join fun i hi => plain_id (C13_ids_occur e i (List.mem_filter.1 hi).1).1
          rw [Msg.template]
          exact (((((fmtB_fmt (n := 200) (by decide) : Fmt (lit! "The \"")).append (plain_refAttr hra).fmt).append
            (fmtB_fmt (n := 200) (by decide))).append h1.fmt).append (fmtB_fmt (n := 200) (by decide))).append h2.fmt
        · cases hm
    · unfold spansInItem
      split
      · exact ⟨_, rfl⟩
      · next e u he =>
        obtain ⟨hu, hne, hge⟩ := itemRef_mem he
        obtain ⟨E, hE, rfl⟩ := h.refs t ht x hx ra hra e hge hne
        have hv : ∀ s ∈ E.split.sels, s.range ≠ none → ∀ y, itemWith u s.id y → ∃ v, value depth (some g) (some u) y = .ok (some v) := by
          intro s hs hr y hy
          obtain ⟨o, ho⟩ := h.values u hu y (List.mem_of_find?_eq_some hy)
          have := h.spanned t ht x hx ra E u he hE s hs hr y hy
          cases o with
          | none => exact absurd ho this
          | some v => exact ⟨v, ho⟩
        open Classical in
        have h1 := spansOut_tokens (B := fun s => decide (Beyond depth g u s)) E.split.sels
          (fun s hs => ⟨sels_ok (E.split_ok hE.ok) s hs, split_single s hs, by simp, hv s hs⟩) _ (spans_filter hE)
        simp only [h1, bind, Except.bind]
        apply cond_some
        intro m hm
        split at hm
        · cases hm
          rw [Msg.template]
          refine (fmtB_fmt (n := 200) (by decide)).append (Plain.fmt (plain_join ?_))
          intro w hw
          obtain ⟨s, hs, rfl⟩ := List.mem_map.1 hw
          have hs := (List.mem_filter.1 hs).1
          exact plain_sel (sels_ok (E.split_ok hE.ok) s hs) (split_single s hs)
        · cases hm
    · cases he : itemRef g t x ra with
      | none =>
        refine cond_some (lvl := WARNING) (o := none) (by simp) |>.imp fun a ha => ?_
        rw [← ha]; simp only [spansOverlap, he]
      | some p =>
        obtain ⟨e, u⟩ := p
        obtain ⟨hu, hne, hge⟩ := itemRef_mem he
        obtain ⟨E, hE, rfl⟩ := h.refs t ht x hx ra hra e hge hne
        obtain ⟨o, h1, h2, h3⟩ := C53_partial depth g t x ra u E hE he (h.itemIds u hu)
          fun s hs hr y hy => h.values u hu y (List.mem_of_find?_eq_some hy)
        rw [h1]
        apply cond_some
        rintro m rfl
        rcases h2 with h2 | ⟨l, _, h2⟩
        · cases h2
        · cases h2
          rw [Msg.template]
          refine (fmtB_fmt (n := 200) (by decide)).append (Plain.fmt (plain_join ?_))
          intro i hi
          obtain ⟨_, y, v, hy, _⟩ := (h3 i).1 ⟨l, rfl, hi⟩
          exact plain_id (h.itemIds u hu y (List.mem_of_find?_eq_some hy) i (by simpa using List.find?_some hy))

theorem items_finish {depth : Nat} {g : Obj} (h : Checkable depth g) {t : Obj} (ht : t ∈ g.kids) : ∀ (xs : List Obj) seen,
    (∀ x ∈ xs, x ∈ t.kids) → ∃ a, validateItems depth g t xs seen = .ok a
  | [], _, _ => ⟨_, rfl⟩
  | x :: xs, seen, hx => by
    obtain ⟨a, ha⟩ := item_finishes h ht (hx x (by simp))
    obtain ⟨b, hb⟩ := cond_unique seen x
    obtain ⟨c, hc⟩ := items_finish h ht xs (addId seen x) fun y hy => hx y (List.mem_cons_of_mem _ hy)
    exact ⟨_, by simp only [validateItems, ha, hb, hc, bind, Except.bind]; rfl⟩

theorem tier_finishes {depth : Nat} {g : Obj} (h : Checkable depth g) {t : Obj} (ht : t ∈ g.kids) :
    ∃ a, validateTier depth g t = .ok a := by
  have h1 : ∃ a, conds ([cond WARNING (.ok (hasId t)), cond WARNING (.ok (hasType t)),
      cond ERROR (.ok (itemRefattrs t))] ++ refAttrs.map fun ra => cond ERROR (.ok (refIdInIgt g t ra))) = .ok a := by
    apply conds_some
    intro r hr
    simp only [List.cons_append, List.nil_append, List.mem_cons, List.mem_map] at hr
    rcases hr with rfl | rfl | rfl | ⟨ra, hra, rfl⟩
    · exact cond_hasId _ _
    · apply cond_some
      intro m hm
      obtain ⟨rfl, _⟩ := hasType_iff.1 hm
      exact fmt_noType
    · apply cond_some
      intro m hm
      obtain ⟨l, rfl, _, _, hl⟩ := itemRefattrs_iff.1 hm
      rw [Msg.template]
      exact (fmtB_fmt (n := 200) (by decide)).append (plain_join fun s hs => plain_refAttr ((hl s).1 hs).1).fmt
    · apply cond_some
      intro m hm
      unfold refIdInIgt at hm
      split at hm
      · split at hm
        · cases hm
          rw [Msg.template]
          exact ((fmtB_fmt (n := 200) (by decide) : Fmt (lit! "The reference attribute \"")).append (plain_refAttr hra).fmt).append
            (fmtB_fmt (n := 200) (by decide))
        · cases hm
      · cases hm
  obtain ⟨a, ha⟩ := h1
  obtain ⟨b, hb⟩ := items_finish h ht t.kids [] fun x hx => hx
  exact ⟨_, by simp only [validateTier, ha, hb, bind, Except.bind]; rfl⟩

theorem igtItems_finish : ∀ (xs : List (Obj × Report)) seen, ∃ a, igtItems xs seen = .ok a
  | [], _ => ⟨_, rfl⟩
  | (x, r) :: xs, seen => by
    obtain ⟨b, hb⟩ := cond_unique seen x
    obtain ⟨c, hc⟩ := igtItems_finish xs (addId seen x)
    exact ⟨_, by simp only [igtItems, hb, hc, bind, Except.bind]; rfl⟩

theorem tiers_finish {depth : Nat} {g : Obj} (h : Checkable depth g) : ∀ (ts : List Obj) tseen iseen, (∀ t ∈ ts, t ∈ g.kids) →
    ∃ a, validateTiers depth g ts tseen iseen = .ok a
  | [], _, _, _ => ⟨_, rfl⟩
  | t :: ts, tseen, iseen, ht => by
    obtain ⟨a, ha⟩ := tier_finishes h (ht t (by simp))
    obtain ⟨b, hb⟩ := cond_unique tseen t
    obtain ⟨p, hp⟩ := igtItems_finish (t.kids.zip a.children) iseen
    obtain ⟨c, hc⟩ := tiers_finish h ts (addId tseen t) p.2 fun y hy => ht y (List.mem_cons_of_mem _ hy)
    exact ⟨_, by simp only [validateTiers, ha, hb, hp, hc, bind, Except.bind]; rfl⟩

theorem igts_finish {depth : Nat} : ∀ (igts : List Obj) seen, (∀ g ∈ igts, Checkable depth g) →
    ∃ a, validateIgts depth (igts.map .ok) seen = .ok a
  | [], _, _ => ⟨_, rfl⟩
  | g :: igts, seen, h => by
    obtain ⟨a, ha⟩ := conds_some (l := [cond WARNING (.ok (hasId g))]) (by
      intro r hr; simp only [List.mem_singleton] at hr; subst hr; exact cond_hasId _ _)
    obtain ⟨b, hb⟩ := tiers_finish (h g (by simp)) g.kids [] [] fun x hx => hx
    obtain ⟨c, hc⟩ := cond_unique seen g
    obtain ⟨d, hd⟩ := igts_finish igts (addId seen g) fun y hy => h y (List.mem_cons_of_mem _ hy)
    exact ⟨_, by simp only [List.map_cons, validateIgts, validateIgt, ha, hb, hc, hd, bind, Except.bind]; rfl⟩

/-- C70: the validator finishes for every corpus it can check. -/
theorem C70_finishes (depth : Nat) (seen : List Str) (xc : Obj) (igts : List Obj) (h : ∀ g ∈ igts, Checkable depth g) :
    ∃ r, validateCorpus depth seen ⟨xc, igts.map .ok⟩ = .ok r := by
  obtain ⟨a, ha⟩ := conds_some (l := [cond INFO (.ok (hasId xc)), cond ERROR (.ok (idIsUnique seen xc))]) (by
    intro r hr
    simp only [List.mem_cons, List.not_mem_nil, or_false] at hr
    rcases hr with rfl | rfl
    · exact cond_hasId _ _
    · exact cond_unique _ _)
  obtain ⟨b, hb⟩ := igts_finish igts [] h
  exact ⟨_, by simp only [validateCorpus, ha, hb, bind, Except.bind]; rfl⟩

end
end Xigt.Vld
