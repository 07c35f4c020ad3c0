import Verif.Scripts.ValidateExamples
import Verif.Igt.ValueProps
/-
C135: the validator (/repo/xigt/scripts/xigt_validate.py) and values of items (/repo/xigt/model.py:373-396).
-/

set_option linter.unusedSectionVars false

namespace Xigt.Vld

section
variable [Uni]

/-! ### What is not reported -/

theorem no_record {lvl : Nat} {rs cs} (h : ¬ Problem lvl (.node rs cs)) {m : Msg} : (⟨lvl, m⟩ : Rec) ∉ rs :=
  fun hm => h (.here hm (Nat.le_refl _))

/-- a condition without message, if there is no record of it -/
theorem cond_silent {lvl : Nat} {o : Option Msg} {l : List (Py (List Rec))} {rs : List Rec} (h : conds l = .ok rs)
    (hm : cond lvl (.ok o) ∈ l) (hn : ∀ m : Msg, (⟨lvl, m⟩ : Rec) ∉ rs) : o = none := by
  obtain ⟨a, ha⟩ := conds_all h _ hm
  cases o with
  | none => rfl
  | some m => exact absurd ((conds_mem h _).2 ⟨_, hm, a, ha, (mem_cond ha).2 ⟨rfl, rfl⟩⟩) (hn m)

/-- what has been looked at in a corpus without errors -/
theorem silent {depth : Nat} {seen : List Str} {xc : Opened} {r : Report} (h : validateCorpus depth seen xc = .ok r)
    (hn : ¬ Problem ERROR r) {igts : List Obj} (hi : xc.igts = igts.map .ok) {g : Obj} (hg : g ∈ igts) {t : Obj} (ht : t ∈ g.kids) :
    itemRefattrs t = none ∧ (∀ ra ∈ refAttrs, refIdInIgt g t ra = none) ∧
    ∀ x ∈ t.kids, ∀ ra ∈ refAttrs, idsInTier g t x ra = none ∧ (∃ o, spansInItem depth g t x ra = .ok o) ∧
      ∃ o, spansOverlap depth g t x ra = .ok o := by
  simp only [validateCorpus, bind, Except.bind] at h
  split at h
  · cases h
  · next rs hrs =>
    split at h
    · cases h
    · next cs hcs =>
      cases h
      obtain ⟨igts', h0, h1, h2⟩ := validateIgts_get hcs
      have : igts' = igts := by
        rw [hi] at h0
        exact (List.map_inj_right (fun a b => by simp)).1 h0.symm
      subst this
      obtain ⟨i, hgi⟩ := List.mem_iff_getElem?.1 hg
      obtain ⟨ri, us, h3, h4, h5⟩ := h2 i g hgi
      have n1 : ¬ Problem ERROR (extend us ri) := fun hp => hn (.within (List.mem_of_getElem? h5) hp)
      simp only [validateIgt, bind, Except.bind] at h3
      split at h3
      · cases h3
      · next gs hgs =>
        split at h3
        · cases h3
        · next ts hts =>
          cases h3
          rw [extend] at n1
          obtain ⟨h6, h7⟩ := validateTiers_get hts
          obtain ⟨j, htj⟩ := List.mem_iff_getElem?.1 ht
          obtain ⟨rt, ut, q, h8, h9, h10, h11⟩ := h7 j t htj
          have n2 : ¬ Problem ERROR (.node (rt.records ++ ut) q.1) := fun hp => n1 (.within (List.mem_of_getElem? h11) hp)
          obtain ⟨rrs, its, rfl, h12, h13⟩ := validateTier_node h8
          rw [Report.children] at h10
          rw [Report.records] at n2
          obtain ⟨h14, h15⟩ := validateItems_get h13
          obtain ⟨h16, h17, h18⟩ := igtItems_get h14 h10
          have n3 : ∀ m : Msg, (⟨ERROR, m⟩ : Rec) ∉ rrs := fun m hm => no_record n2 (List.mem_append_left _ hm)
          refine ⟨cond_silent h12 (by simp) n3, ?_, ?_⟩
          · intro ra hra
            exact cond_silent h12 (List.mem_append_right _ (List.mem_map.2 ⟨ra, hra, rfl⟩)) n3
          · intro x hx ra hra
            obtain ⟨k, hk⟩ := List.mem_iff_getElem?.1 hx
            obtain ⟨rx, ux, h19, h20, h21⟩ := h15 k x hk
            obtain ⟨uy, h22, h23⟩ := h18 k x _ hk h19
            have n4 : ¬ Problem ERROR (extend uy (.node (rx ++ ux) [])) :=
              fun hp => n2 (.within (List.mem_of_getElem? h22) hp)
            rw [extend] at n4
            have n5 : ∀ m : Msg, (⟨ERROR, m⟩ : Rec) ∉ rx :=
              fun m hm => no_record n4 (List.mem_append_left _ (List.mem_append_left _ hm))
            have hmem : ∀ c, c ∈ [cond ERROR (.ok (idsInTier g t x ra)), cond WARNING (spansInItem depth g t x ra),
                cond WARNING (spansOverlap depth g t x ra)] → c ∈ (cond WARNING (.ok (hasId x)) :: refAttrs.flatMap fun ra =>
                [cond ERROR (.ok (idsInTier g t x ra)), cond WARNING (spansInItem depth g t x ra),
                 cond WARNING (spansOverlap depth g t x ra)]) :=
              fun c hc => List.mem_cons_of_mem _ (List.mem_flatMap.2 ⟨ra, hra, hc⟩)
            refine ⟨cond_silent h20 (hmem _ (by simp)) n5, ?_, ?_⟩
            · obtain ⟨a, ha⟩ := conds_all h20 _ (hmem (cond WARNING (spansInItem depth g t x ra)) (by simp))
              obtain ⟨o, ho, -⟩ := cond_ok ha
              exact ⟨o, ho⟩
            · obtain ⟨a, ha⟩ := conds_all h20 _ (hmem (cond WARNING (spansOverlap depth g t x ra)) (by simp))
              obtain ⟨o, ho, -⟩ := cond_ok ha
              exact ⟨o, ho⟩

/-! ### Values that the validator asks for -/

theorem Std.simple {e : Expr} (h : Std e) : e.Simple := by
  refine ⟨h.ok.1, ?_⟩
  intro p hp
  refine ⟨?_, (h.ok.2 p hp).2⟩
  rcases h.seps p hp with h1 | h1
  · exact ⟨'+', h1, delim_plus⟩
  · exact ⟨',', h1, delim_comma⟩

/-- the loop over the spans has the values of the items that spans are of -/
theorem spansOut_values {depth : Nat} {g u : Obj} : ∀ {toks l}, spansOutLoop depth g u toks = .ok l →
    ∀ s : Sel, s.OK → (∃ r, s.range = some r ∧ r.tail = []) → s.render ∈ toks → ∀ y, contGet u.kids s.id = some y →
      ∃ v, value depth (some g) (some u) y = .ok (some v)
  | [], _, _, _, _, _, hm, _, _ => by cases hm
  | tok :: toks, l, h, s, hs, hr, hm, y, hy => by
    unfold spansOutLoop at h
    rcases List.mem_cons.1 hm with rfl | hm'
    · rw [not_delim hs] at h
      obtain ⟨m, e1, e2, e3⟩ := match_sel hs
      obtain ⟨r, hr1, hr2⟩ := hr
      obtain ⟨hd, tl⟩ := r
      simp only at hr2
      subst hr2
      simp only [Bool.false_eq_true, if_false, e1] at h
      have hrt : s.rangeText = hd.render := by simp [Sel.rangeText, hr1, RangeE.render]
      have hsp : hd.OK := (hs.2 _ hr1).1
      rw [e3, hrt] at h
      split at h
      · next h0 =>
        simp [SpanE.render] at h0
      · obtain ⟨m', f1, f2, f3⟩ := match_span hsp
        rw [f1] at h
        simp only [bind, Except.bind] at h
        split at h
        · cases h
        · split at h
          · cases h
          · rw [e2, hy] at h
            simp only at h
            split at h
            · cases h
            · next o ho =>
              split at h
              · cases h
              · next v => exact ⟨v, ho⟩
    · split at h
      · exact spansOut_values h s hs hr hm' y hy
      · split at h
        · cases h
        · split at h
          · exact spansOut_values h s hs hr hm' y hy
          · split at h
            · cases h
            · simp only [bind, Except.bind] at h
              split at h
              · cases h
              · split at h
                · cases h
                · split at h
                  · exact spansOut_values h s hs hr hm' y hy
                  · split at h
                    · cases h
                    · split at h
                      · cases h
                      · split at h
                        · cases h
                        · next l' hl => exact spansOut_values hl s hs hr hm' y hy

/-- the other loop has the values of the items that are selected as a whole -/
theorem overlap_values {depth : Nat} {g u : Obj} : ∀ {toks d d'}, overlapLoop depth g u toks d = .ok d' →
    ∀ s ∈ toks, isDelim s = false → ∀ y, contGet u.kids s = some y → ∃ v, value depth (some g) (some u) y = .ok v
  | [], _, _, _, _, hm, _, _, _ => by cases hm
  | tok :: toks, d, d', h, s, hm, hs, y, hy => by
    unfold overlapLoop at h
    rcases List.mem_cons.1 hm with rfl | hm'
    · rw [hs, hy] at h
      simp only [Bool.false_eq_true, if_false, bind, Except.bind] at h
      split at h
      · cases h
      · next v hv => exact ⟨v, hv⟩
    · split at h
      · exact overlap_values h s hm' hs y hy
      · split at h
        · exact overlap_values h s hm' hs y hy
        · simp only [bind, Except.bind] at h
          split at h
          · cases h
          · split at h
            · exact overlap_values h s hm' hs y hy
            · exact overlap_values h s hm' hs y hy

/-- a selection gives rise to a token with the same ID -/
theorem split_id {e : Expr} : ∀ s ∈ e.sels, ∃ s' ∈ e.split.sels, s'.id = s.id := by
  intro s hs
  refine ⟨s.split.1, ?_, ?_⟩
  · rw [split_sels, List.mem_flatMap]
    exact ⟨s, hs, List.mem_cons_self ..⟩
  · unfold Sel.split
    cases s.range <;> rfl

theorem denote_ok {get : Str → Option (Py (Option Str))} {e : Expr} (h : ∀ s ∈ e.sels, ∃ v, get s.id = some (.ok v)) :
    ∃ s, e.denote get = .ok s := by
  have one : ∀ s ∈ e.sels, ∃ a, s.denote get = .ok a := by
    intro s hs
    obtain ⟨v, hv⟩ := h s hs
    exact ⟨s.select (v.getD []), by simp only [Sel.denote, hv]⟩
  have tail : ∀ l : List (Str × Sel), (∀ p ∈ l, p.2 ∈ e.sels) → ∃ b, denoteTail get l = .ok b := by
    intro l
    induction l with
    | nil => exact fun _ => ⟨_, rfl⟩
    | cons p l ih =>
      intro hl
      obtain ⟨b, hb⟩ := ih fun q hq => hl q (List.mem_cons_of_mem _ hq)
      obtain ⟨a, ha⟩ := one p.2 (hl p (List.mem_cons_self ..))
      obtain ⟨d, s⟩ := p
      exact ⟨sepText d ++ a ++ b, by simp only [denoteTail, ha, hb, bind, Except.bind]⟩
  obtain ⟨a, ha⟩ := one e.head (by simp [Expr.sels])
  obtain ⟨b, hb⟩ := tail e.tail fun p hp => by
    simp only [Expr.sels, List.mem_cons, List.mem_map]
    exact .inr ⟨p, hp, rfl⟩
  exact ⟨a ++ b, by simp only [Expr.denote, ha, hb, bind, Except.bind]⟩

/-! ### C135 -/

/-- the reference that gives an item its value is made of selections joined by `+` or `,`; what the tier refers to with the
same attribute is not the empty text, and a tier with items -/
def GoodRef (g t x : Obj) : Prop :=
  ∀ ra e, ValueAttr x ra → Dict.get? x.data.attrs ra = some e → (∃ ex : Expr, Std ex ∧ e = ex.render) ∧
    ∀ tid, Dict.get? t.data.attrs ra = some tid → tid ≠ [] ∧ ∀ u, contGet g.kids tid = some u → u.kids ≠ []

/-- **C135** (what holds): if the validator reports no error, value() does not fail for an item, given that its reference is
made of selections joined by `+` or `,`, and that the reference of its tier is neither empty nor to a tier without items.
Chains of references are then finite too: the validator itself would fail on circular ones. -/
theorem C135_partial (depth : Nat) (seen : List Str) (xc : Opened) (r : Report) (h : validateCorpus depth seen xc = .ok r)
    (hn : ¬ Problem ERROR r) (igts : List Obj) (hi : xc.igts = igts.map .ok) (g : Obj) (hg : g ∈ igts) (t : Obj) (ht : t ∈ g.kids)
    (x : Obj) (hx : x ∈ t.kids) (hgood : GoodRef g t x) : ∃ v, value (depth + 1) (some g) (some t) x = .ok v := by
  obtain ⟨s1, s2, s3⟩ := silent h hn hi hg ht
  rcases value_cases x with ⟨s, hs⟩ | ⟨ra, ha⟩ | ⟨h0, h1, h2⟩
  · exact ⟨_, value_text hs ..⟩
  · obtain ⟨e, he⟩ : ∃ v, Dict.get? x.data.attrs ra = some v := by
      rw [← Dict.has_true_iff, ← exists_mem_iff]
      rcases ha.2 with ⟨rfl, h⟩ | ⟨rfl, h, _⟩ <;> exact h
    have hra : ra ∈ refAttrs := by
      rcases ha.2 with ⟨rfl, _⟩ | ⟨rfl, _⟩ <;> simp [refAttrs]
    obtain ⟨⟨ex, hstd, rfl⟩, g2⟩ := hgood ra e ha he
    obtain ⟨tid, htid⟩ : ∃ tid, Dict.get? t.data.attrs ra = some tid := by
      cases htt : Dict.get? t.data.attrs ra with
      | some tid => exact ⟨tid, rfl⟩
      | none =>
        exfalso
        have hhas : Dict.has t.data.attrs ra = false := (Dict.has_false_iff ..).2 htt
        have hxh : Dict.has x.data.attrs ra = true := (Dict.has_true_iff ..).2 ⟨_, he⟩
        unfold itemRefattrs at s1
        simp only at s1
        split at s1
        · cases s1
        · next hne =>
          apply hne
          apply List.ne_nil_of_mem (a := ra)
          rw [List.mem_filter]
          refine ⟨by simp only [refAttrs, List.mem_cons, List.not_mem_nil, or_false] at hra ⊢; grind, ?_⟩
          simp only [hhas, Bool.not_false, Bool.and_true, List.any_eq_true]
          exact ⟨x, hx, hxh⟩
    obtain ⟨g3, g4⟩ := g2 tid htid
    obtain ⟨u, hu⟩ : ∃ u, contGet g.kids tid = some u := by
      cases hc : contGet g.kids tid with
      | some u => exact ⟨u, rfl⟩
      | none =>
        exfalso
        have := s2 ra hra
        simp only [refIdInIgt, htid, hc] at this
        simp [g3] at this
    have hne : ex.render ≠ [] := by
      obtain ⟨c, cs, e1, -⟩ := sel_head hstd.ok.1
      simp [Expr.render, e1]
    have hrt : referredTier g t ra = some u := by
      simp only [referredTier, htid, hu, if_neg g3, if_neg (g4 u hu)]
    have hir : itemRef g t x ra = some (ex.render, u) := itemRef_iff.2 ⟨he, hne, hrt⟩
    obtain ⟨q1, ⟨o1, q2⟩, ⟨o2, q3⟩⟩ := s3 x hx ra hra
    have hids : ids ex.render = ex.ids := C13_ids_of_expression ex ⟨hstd.ok.1, fun p hp =>
      ⟨by
        rcases hstd.seps p hp with h | h <;> rw [h]
        · exact ⟨⟨'+', [], rfl, idChar_plus⟩, by decide⟩
        · exact ⟨⟨',', [], rfl, idChar_comma⟩, by decide⟩, (hstd.ok.2 p hp).2⟩⟩
    have hfound : ∀ s ∈ ex.sels, ∃ y, contGet u.kids s.id = some y := by
      intro s hs
      cases hc : contGet u.kids s.id with
      | some y => exact ⟨y, rfl⟩
      | none =>
        exfalso
        simp only [idsInTier, hir, hids] at q1
        split at q1
        · cases q1
        · next hnn =>
          apply hnn
          apply List.ne_nil_of_mem (a := s.id)
          rw [List.mem_filter]
          exact ⟨List.mem_map.2 ⟨s, hs, rfl⟩, by rw [hc]; rfl⟩
    have hvals : ∀ s ∈ ex.sels, ∃ y v, contGet u.kids s.id = some y ∧ value depth (some g) (some u) y = .ok v := by
      intro s hs
      obtain ⟨y, hy⟩ := hfound s hs
      obtain ⟨s', hs', hid⟩ := split_id s hs
      have hok' : s'.OK := sels_ok (ex.split_ok hstd.ok) s' hs'
      have htok : s'.render ∈ spans ex.render := by
        have : s'.render ∈ (spans ex.render).filter (fun t => !isDelim t) := by
          rw [spans_filter hstd]; exact List.mem_map.2 ⟨s', hs', rfl⟩
        exact (List.mem_filter.1 this).1
      cases hr : s'.range with
      | some rr =>
        simp only [spansInItem, hir, bind, Except.bind] at q2
        split at q2
        · cases q2
        · next l hl =>
          obtain ⟨v, hv⟩ := spansOut_values hl s' hok' ⟨rr, hr, split_single s' hs' rr hr⟩ htok y (by rw [hid]; exact hy)
          exact ⟨y, _, hy, hv⟩
      | none =>
        have hren : s'.render = s.id := by simp [Sel.render, Sel.rangeStr, hr, hid]
        simp only [spansOverlap, hir, bind, Except.bind] at q3
        split at q3
        · cases q3
        · next d hd =>
          obtain ⟨v, hv⟩ := overlap_values hd s'.render htok (not_delim hok') y (by rw [hren]; exact hy)
          exact ⟨y, v, hy, hv⟩
    rw [value_of_attr ha, resolveRef_def he htid hu, C17_resolve _ _ hstd.simple]
    obtain ⟨txt, htxt⟩ := denote_ok (e := ex) (get := fun j => (contGet u.kids j).map fun i => value depth (some g) (some u) i) (by
      intro s hs
      obtain ⟨y, v, hy, hv⟩ := hvals s hs
      exact ⟨v, by simp only [hy, Option.map_some, hv]⟩)
    exact ⟨some txt, by rw [htxt]; rfl⟩
  · exact ⟨_, value_none h0 h1 h2 ..⟩

/-- **C135**: circular references are never passed over: for an igt in which the value of an item depends on itself, the validator
reports an error or fails. -/
theorem C135_circular (depth : Nat) (seen : List Str) (xc : Opened) (igts : List Obj) (hi : xc.igts = igts.map .ok) (g : Obj)
    (hg : g ∈ igts) (t x : Obj) (ht : t ∈ g.kids) (hx : x ∈ t.kids) (hgood : GoodRef g t x) (k : Nat) (y : Node)
    (hc : Chain (Needs g) k (t, x) y) (hy : OnCycle g y) :
    (∃ r, validateCorpus depth seen xc = .ok r ∧ Problem ERROR r) ∨ ∃ e, validateCorpus depth seen xc = .error e := by
  cases h : validateCorpus depth seen xc with
  | error e => exact .inr ⟨e, rfl⟩
  | ok r =>
    refine .inl ⟨r, rfl, ?_⟩
    apply Classical.byContradiction
    intro hn
    obtain ⟨v, hv⟩ := C135_partial depth seen xc r h hn igts hi g hg t ht x hx hgood
    exact (C21_cyclic g (t, x) ⟨k, y, hc, hy⟩ (depth + 1)).1 v hv

end

section
attribute [local instance] asciiUni

/-- words without text, of which the tier they come from has no items -/
def vEmpty : Obj := vIgt (lit! "i1") [vTier (lit! "p") [] [],
  vTier (lit! "w") [(SEGMENTATION, lit! "p")] [vItem (lit! "w1") none [(SEGMENTATION, lit! "p1[0:2]")]]]

/-- **C135** is false as stated: a reference to an item of a tier without items is not noticed; nothing is reported, not even a
warning, but the value of the item cannot be had. -/
theorem C135_refuted : ∃ (g t x : Obj) (r : Report), t ∈ g.kids ∧ x ∈ t.kids ∧
    validateCorpus 9 [] ⟨vCorpus, [.ok g]⟩ = .ok r ∧ (∀ lvl, ¬ Problem lvl r) ∧
    ∀ n, value (n + 1) (some g) (some t) x = .error .xigtStructureError := by
  have hr : validateCorpus 9 [] ⟨vCorpus, [.ok vEmpty]⟩ =
      .ok (.node [] [.node [] [.node [] [], .node [] [.node [] []]]]) := by rfl
  refine ⟨vEmpty, _, _, _, List.mem_cons_of_mem _ (List.mem_cons_self ..), List.mem_cons_self .., hr, ?_, ?_⟩
  · intro lvl
    have e0 : ¬ Problem lvl (.node [] []) := by
      intro h
      cases h with
      | here hm => cases hm
      | within hc => cases hc
    intro h
    cases h with
    | here hm => cases hm
    | within hc h =>
      simp only [List.mem_cons, List.not_mem_nil, or_false] at hc
      subst hc
      cases h with
      | here hm => cases hm
      | within hc h =>
        simp only [List.mem_cons, List.not_mem_nil, or_false] at hc
        rcases hc with rfl | rfl
        · exact e0 h
        · cases h with
          | here hm => cases hm
          | within hc h =>
            simp only [List.mem_cons, List.not_mem_nil, or_false] at hc
            subst hc
            exact e0 h
  · intro n
    rfl

/-- a phrase and its words -/
def vPhrase : Obj := vTier (lit! "p") [] [vItem (lit! "w1") (some (lit! "the dog")) [], vItem (lit! "w2") (some (lit! "barks")) []]
def vWord : Obj := vItem (lit! "x1") none [(SEGMENTATION, vE.render)]
def vPart : Obj := vTier (lit! "x") [(SEGMENTATION, lit! "p")] [vWord]
def vWhole : Obj := vIgt (lit! "i1") [vPhrase, vPart]

/-- the hypotheses of `C135_partial` are met, and the value is composed of values -/
example : GoodRef vWhole vPart vWord ∧ (∃ r, validateCorpus 9 [] ⟨vCorpus, [.ok vWhole]⟩ = .ok r ∧
      isEmpty none (filterEmpty ERROR r) = true) ∧
    value 10 (some vWhole) (some vPart) vWord = .ok (some (lit! "thbarks")) := by
  refine ⟨?_, ?_, by decide +kernel⟩
  · intro ra e ha he
    have hra : ra = SEGMENTATION := by
      rcases ha.2 with ⟨rfl, v, hv⟩ | ⟨rfl, _⟩
      · simp only [vWord, vItem, Obj.data, List.mem_singleton, Prod.mk.injEq] at hv
        exact absurd hv.1 content_ne_segmentation
      · rfl
    subst hra
    have : e = vE.render := by
      have : some vE.render = some e := he
      cases this; rfl
    subst this
    refine ⟨⟨vE, vE_std, rfl⟩, ?_⟩
    intro tid ht
    have : tid = lit! "p" := by
      have : some (lit! "p") = some tid := ht
      cases this; rfl
    subst this
    refine ⟨by decide, ?_⟩
    intro u hu
    have : u = vPhrase := by
      have : some vPhrase = some u := hu
      cases this; rfl
    subst this
    exact fun h => by cases h
  · exact ⟨_, rfl, by decide +kernel⟩

/-- an item that is a segment of itself -/
def vSelf : Obj := vItem (lit! "w1") none [(SEGMENTATION, lit! "w1")]
def vSelfTier : Obj := vTier (lit! "w") [(SEGMENTATION, lit! "w")] [vSelf]

/-- the hypotheses of `C135_circular` are met, and the validator fails -/
example : OnCycle (vIgt (lit! "i1") [vSelfTier]) (vSelfTier, vSelf) ∧
    GoodRef (vIgt (lit! "i1") [vSelfTier]) vSelfTier vSelf ∧
    failure (check [vIgt (lit! "i1") [vSelfTier]]) = some .recursionError := by
  refine ⟨⟨0, .step (y := (vSelfTier, vSelf)) ?_ (.zero _)⟩, ?_, by decide +kernel⟩
  · refine ⟨SEGMENTATION, lit! "w1", lit! "w", ⟨rfl, .inr ⟨rfl, ⟨lit! "w1", by simp [vSelf, vItem, Obj.data]⟩, ?_⟩⟩, rfl, rfl, rfl,
      lit! "w1", by decide +kernel, rfl⟩
    intro v hv
    simp only [vSelf, vItem, Obj.data, List.mem_singleton, Prod.mk.injEq] at hv
    exact absurd hv.1 content_ne_segmentation
  · intro ra e ha he
    have hra : ra = SEGMENTATION := by
      rcases ha.2 with ⟨rfl, v, hv⟩ | ⟨rfl, _⟩
      · simp only [vSelf, vItem, Obj.data, List.mem_singleton, Prod.mk.injEq] at hv
        exact absurd hv.1 content_ne_segmentation
      · rfl
    subst hra
    have : e = lit! "w1" := by
      have : some (lit! "w1") = some e := he
      cases this; rfl
    subst this
    refine ⟨⟨⟨⟨lit! "w1", none⟩, []⟩, ⟨⟨⟨vId 'w' ['1'] rfl (by decide) (by decide), by simp⟩, by simp⟩, by simp, ?_⟩, by decide +kernel⟩, ?_⟩
    · intro s hs r hr
      simp only [Expr.sels, List.map_nil, List.mem_singleton] at hs
      subst hs; cases hr
    · intro tid ht
      have : tid = lit! "w" := by
        have : some (lit! "w") = some tid := ht
        cases this; rfl
      subst this
      refine ⟨by decide, ?_⟩
      intro u hu
      have : u = vSelfTier := by
        have : some vSelfTier = some u := hu
        cases this; rfl
      subst this
      exact fun h => by cases h

end

end Xigt.Vld
