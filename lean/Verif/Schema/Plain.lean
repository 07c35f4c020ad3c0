import Verif.Schema.Lemmas
/- What xigt-structure.rnc says about documents, without patterns. -/

set_option linter.unusedSectionVars false

namespace Xigt.Rng
section
variable [Uni] [Xsd]

/-! ### Regular expressions -/

theorem star_cls {p : Char → Bool} {s : Str} : (Rx.star (.cls p)).Mem s ↔ ∀ c ∈ s, p c = true := by
  constructor
  · intro h
    generalize hr : Rx.star (.cls p) = r at h
    induction h with
    | nil => simp
    | cons h1 _ _ ih =>
      cases hr
      cases h1 with
      | cls hc =>
        intro c hc'
        rcases List.mem_append.1 hc' with h | h
        · simp only [List.mem_singleton] at h; rw [h]; exact hc
        · exact ih rfl c h
    | _ => cases hr
  · intro h
    induction s with
    | nil => exact .nil
    | cons c s ih => exact .cons (s := [c]) (.cls (h c (by simp))) (ih fun x hx => h x (by simp [hx]))

theorem seq_iff {a b : Rx} {s : Str} : (Rx.seq a b).Mem s ↔ ∃ u v, s = u ++ v ∧ a.Mem u ∧ b.Mem v := by
  constructor
  · intro h; cases h with
    | seq h1 h2 => exact ⟨_, _, rfl, h1, h2⟩
  · rintro ⟨u, v, rfl, h1, h2⟩; exact .seq h1 h2

theorem cls_iff {p : Char → Bool} {s : Str} : (Rx.cls p).Mem s ↔ ∃ c, s = [c] ∧ p c = true := by
  constructor
  · intro h; cases h with
    | cls h => exact ⟨_, rfl, h⟩
  · rintro ⟨c, rfl, h⟩; exact .cls h

theorem idRx_iff {i : Str} : idRx.Mem i ↔ IdFits i := by
  rw [idRx, seq_iff]
  constructor
  · rintro ⟨u, v, rfl, h1, h2⟩
    obtain ⟨c, rfl, hc⟩ := cls_iff.1 h1
    exact ⟨c, v, rfl, hc, star_cls.1 h2⟩
  · rintro ⟨c, r, rfl, hc, hr⟩
    exact ⟨[c], r, rfl, cls_iff.2 ⟨c, rfl, hc⟩, star_cls.2 hr⟩

/-! ### Attributes -/

variable {env : Str → Pat}

theorem mem_without_ne {a : List (Str × Str)} {k k' v : Str} (h : k' ≠ k) : (k', v) ∈ without a k ↔ (k', v) ∈ a := by
  rw [mem_without]
  exact ⟨fun h => h.1, fun hm => ⟨hm, h⟩⟩

theorem avoids_attr_ne {k k' : Str} {p : Pat} (h : k ≠ k') : Avoids env (.attr (.name k') p) k := .attr h

theorem avoids_type : Avoids env TypeAttr (lit! "id") := avoids_attr_ne (by decide)

theorem avoids_any {k : Str} (h : k ∈ reserved) : Avoids env (.star AnyAttr) k := .star (.attr (by simpa [NameClass.Has] using h))

theorem avoids_refs {k : Str} (h1 : k ≠ ALN) (h2 : k ≠ CNT) (h3 : k ≠ SEG) : Avoids env RefAttrs k :=
  .choice (.group (.opt (avoids_attr_ne h1)) (.opt (avoids_attr_ne h2))) (.opt (avoids_attr_ne h3))

/-- what is left after `id`, `type` and the references is no reference -/
theorem any_iff {a : List (Str × Str)} : (∀ x ∈ without (without a (lit! "id")) (lit! "type"), (NameClass.except reserved).Has x.1 ∧ Val env .text x.2) ↔
    NoRefs a := by
  constructor
  · intro h
    have key : ∀ k ∈ reserved, k ≠ lit! "id" → k ≠ lit! "type" → Lacks a k := by
      intro k hk h1 h2 v hv
      have := (h (k, v) (by rw [mem_without, mem_without]; exact ⟨⟨hv, h1⟩, h2⟩)).1
      exact this hk
    exact ⟨key ALN (by decide) (by decide) (by decide), key CNT (by decide) (by decide) (by decide), key SEG (by decide) (by decide) (by decide)⟩
  · rintro ⟨h1, h2, h3⟩ x hx
    rw [mem_without, mem_without] at hx
    refine ⟨?_, val_text⟩
    intro hm
    obtain ⟨k, v⟩ := x
    simp only [reserved, List.mem_cons, List.not_mem_nil, or_false] at hm
    rcases hm with h | h | h | h | h
    · exact hx.1.2 h
    · exact hx.2 h
    · exact h1 v (by subst h; exact hx.1.1)
    · exact h2 v (by subst h; exact hx.1.1)
    · exact h3 v (by subst h; exact hx.1.1)

theorem id_val {v : Str} : Val env Id v ↔ IdFits v := by rw [Id, val_data, idRx_iff]

/-- `IdAttr, p` -/
theorem peel_id {q : Pat} {a ns} (h : (a.map Prod.fst).Nodup) (hq : Avoids env q (lit! "id")) :
    Matches env (.group IdAttr q) a ns ↔ HasIdAttr a ∧ Matches env q (without a (lit! "id")) ns := by
  rw [IdAttr, peel h hq]
  simp only [id_val]
  rfl

/-- `IdAttr?, p` -/
theorem peel_optId {q : Pat} {a ns} (h : (a.map Prod.fst).Nodup) (hq : Avoids env q (lit! "id")) :
    Matches env (.group (.opt IdAttr) q) a ns ↔ OptIdAttr a ∧ Matches env q (without a (lit! "id")) ns := by
  rw [IdAttr, peel_opt h hq]
  simp only [id_val]
  rfl

/-- `TypeAttr?, p` -/
theorem peel_optType {q : Pat} {a ns} (h : (a.map Prod.fst).Nodup) (hq : Avoids env q (lit! "type")) :
    Matches env (.group (.opt TypeAttr) q) a ns ↔ Matches env q (without a (lit! "type")) ns := by
  rw [TypeAttr, peel_opt h hq]
  exact ⟨fun h => h.2, fun h => ⟨fun _ _ => val_text, h⟩⟩

theorem lacks_without {a : List (Str × Str)} {k k' : Str} (h : k' ≠ k) : Lacks (without a k) k' ↔ Lacks a k' := by
  simp only [Lacks, mem_without_ne h]

/-- `RefAttrs, AnyAttr*, p` after `id` and `type` -/
theorem peel_refs {q : Pat} {a ns} (h : (a.map Prod.fst).Nodup) (hq : NoAttr env q) :
    Matches env (.group RefAttrs (.group (.star AnyAttr) q)) (without (without a (lit! "id")) (lit! "type")) ns ↔
      RefsFit a ∧ Matches env q [] ns := by
  have hb := without_nodup (without_nodup h (lit! "id")) (lit! "type")
  have hav : ∀ k ∈ reserved, Avoids env (.group (.star AnyAttr) q) k := fun k hk => (avoids_any hk).group (hq.avoids k)
  have hany : ∀ b, Matches env (.group (.star AnyAttr) q) b ns ↔ (∀ x ∈ b, x.1 ∉ reserved) ∧ Matches env q [] ns := by
    intro b
    rw [AnyAttr, peel_star hq]
    exact ⟨fun h => ⟨fun x hx => (h.1 x hx).1, h.2⟩, fun h => ⟨fun x hx => ⟨h.1 x hx, val_text⟩, h.2⟩⟩
  have hval : ∀ v, Val env AlgnExpr v ↔ AlgnFits v := fun v => val_data
  rw [RefAttrs, group_choice, group_assoc, peel_opt hb, peel_opt (without_nodup hb _), peel_opt hb, hany, hany]
  · simp only [hval]
    have e1 : ∀ (k v : Str), k ≠ lit! "id" → k ≠ lit! "type" → ((k, v) ∈ without (without a (lit! "id")) (lit! "type") ↔ (k, v) ∈ a) := by
      intro k v h1 h2
      rw [mem_without_ne h2, mem_without_ne h1]
    have e2 : ∀ v, ((lit! "content", v) ∈ without (without (without a (lit! "id")) (lit! "type")) (lit! "alignment") ↔ (CNT, v) ∈ a) := by
      intro v
      rw [mem_without_ne (by decide), e1 _ _ (by decide) (by decide)]
      rfl
    simp only [e2, e1 (lit! "alignment") _ (by decide) (by decide), e1 (lit! "segmentation") _ (by decide) (by decide)]
    have n1 : (∀ x ∈ without (without (without (without a (lit! "id")) (lit! "type")) (lit! "alignment")) (lit! "content"), x.1 ∉ reserved) ↔
        Lacks a SEG := by
      simp only [mem_without]
      constructor
      · intro h v hv
        exact h (SEG, v) ⟨⟨⟨⟨hv, by show SEG ≠ _; decide⟩, by show SEG ≠ _; decide⟩, by show SEG ≠ _; decide⟩, by show SEG ≠ _; decide⟩ (by show SEG ∈ _; decide)
      · rintro h ⟨k, v⟩ ⟨⟨⟨⟨h0, h1⟩, h2⟩, h3⟩, h4⟩ hm
        simp only [reserved, List.mem_cons, List.not_mem_nil, or_false] at hm
        rcases hm with e | e | e | e | e
        · exact h1 e
        · exact h2 e
        · exact h3 e
        · exact h4 e
        · exact h v (by subst e; exact h0)
    have n2 : (∀ x ∈ without (without (without a (lit! "id")) (lit! "type")) (lit! "segmentation"), x.1 ∉ reserved) ↔
        Lacks a ALN ∧ Lacks a CNT := by
      simp only [mem_without]
      constructor
      · intro h
        exact ⟨fun v hv => h (ALN, v) ⟨⟨⟨hv, by show ALN ≠ _; decide⟩, by show ALN ≠ _; decide⟩, by show ALN ≠ _; decide⟩ (by show ALN ∈ _; decide),
          fun v hv => h (CNT, v) ⟨⟨⟨hv, by show CNT ≠ _; decide⟩, by show CNT ≠ _; decide⟩, by show CNT ≠ _; decide⟩ (by show CNT ∈ _; decide)⟩
      · rintro h ⟨k, v⟩ ⟨⟨⟨h0, h1⟩, h2⟩, h3⟩ hm
        simp only [reserved, List.mem_cons, List.not_mem_nil, or_false] at hm
        rcases hm with e | e | e | e | e
        · exact h1 e
        · exact h2 e
        · exact h.1 v (by subst e; exact h0)
        · exact h.2 v (by subst e; exact h0)
        · exact h3 e
    rw [n1, n2, RefsFit]
    constructor
    · rintro (⟨h1, h2, h3, h4⟩ | ⟨h1, h2, h3⟩)
      · exact ⟨.inl ⟨h1, h2, h3⟩, h4⟩
      · exact ⟨.inr ⟨h1, h2⟩, h3⟩
    · rintro ⟨⟨h1, h2, h3⟩ | ⟨h1, h2⟩, h4⟩
      · exact .inl ⟨h1, h2, h3, h4⟩
      · exact .inr ⟨h1, h2, h4⟩
  · exact hav _ (by decide)
  · exact hav _ (by decide)
  · exact (Avoids.opt (avoids_attr_ne (by decide))).group (hav _ (by decide))

/-! ### Elements -/

theorem Node.ind {P : Node → Prop} (ht : ∀ s, P (.text s)) (he : ∀ tag a ks, (∀ x ∈ ks, P x) → P (.elem tag a ks)) : ∀ n, P n := by
  intro n
  exact Node.rec (motive_1 := P) (motive_2 := fun l => ∀ y ∈ l, P y) ht (fun a b k hk => he a b k hk)
    (by intro y hy; cases hy) (fun a l ha hl y hy => by
      rcases List.mem_cons.1 hy with rfl | hy
      · exact ha
      · exact hl y hy) n

/-- `AnyElement` allows every element -/
theorem anyElement (h : env ANY = AnyElement) : ∀ n : Node, n.isElem = true → Matches env (.ref ANY) [] [n] := by
  refine Node.ind (fun s h => nomatch h) fun tag a ks ih _ => ?_
  refine ref_iff.2 ?_
  rw [h, AnyElement, elem_single]
  refine ⟨tag, a, ks, rfl, trivial, .inl ?_⟩
  have step : ∀ (a : List (Str × Str)) (ns : List Node), (∀ n ∈ ns, n.isElem = true → Matches env (.ref ANY) [] [n]) →
      Matches env (.star (.choice (.attr .any .text) (.choice .text (.ref ANY)))) a ns := by
    intro a ns hns
    refine star_iff.2 ?_
    induction a with
    | nil =>
      induction ns with
      | nil => exact .inr ⟨rfl, rfl⟩
      | cons n ns ih =>
        have hn : Matches env (.choice (.attr .any .text) (.choice .text (.ref ANY))) [] [n] := by
          refine .right ?_
          cases n with
          | text s => exact .left (.text (by simp))
          | elem t b k => exact .right (hns _ (by simp) rfl)
        rcases ih fun m hm => hns m (by simp [hm]) with h | ⟨-, rfl⟩
        · exact .inl (.more (a₁ := []) (n₁ := [n]) (.refl _) hn h)
        · exact .inl (.one hn)
    | cons x a ih =>
      have hx : Matches env (.choice (.attr .any .text) (.choice .text (.ref ANY))) [x] [] := .left (attr_iff.2 ⟨rfl, x.1, x.2, rfl, trivial, val_text⟩)
      rcases ih with h | ⟨rfl, rfl⟩
      · exact .inl (.more (n₁ := []) (.refl _) hx h)
      · exact .inl (.one hx)
  exact step a ks ih

theorem elemLike_any (h : env ANY = AnyElement) : ElemLike env (.ref ANY) := .ref (by rw [h]; exact elemLike_elem _ _)

theorem text_noAttr : NoAttr env .text := fun _ _ h => (text_iff.1 h).1

theorem metaContent_noAttr (h : env ANY = AnyElement) : NoAttr env MetaContent := by
  intro a ns hm
  rcases choice_iff.1 hm with hm | hm
  · exact text_noAttr _ _ hm
  · exact star_noAttr (elemLike_any h).noAttr _ _ hm

theorem metaContent_iff (h : env ANY = AnyElement) {ns} : Content env MetaContent [] ns ↔ elems ns = [] ∨ WsOnly ns := by
  rw [MetaContent, content_choice, content_text, content_star (elemLike_any h)]
  constructor
  · rintro (h | h)
    · exact .inl h
    · exact .inr h.1
  · rintro (h' | h')
    · exact .inl h'
    · exact .inr ⟨h', fun n hn => anyElement h n (List.mem_filter.1 hn).2⟩

/-- elements with optional identifier and type and any attributes -/
theorem attrs_opt {q : Pat} {a ns} (h : (a.map Prod.fst).Nodup) (hq : NoAttr env q) :
    Content env (.group (.opt IdAttr) (.group (.opt TypeAttr) (.group (.star AnyAttr) q))) a ns ↔
      (OptIdAttr a ∧ NoRefs a) ∧ Content env q [] ns := by
  refine content_and (fun ns => ?_) ns
  have hany : ∀ k ∈ reserved, Avoids env (.group (.star AnyAttr) q) k := fun k hk => (avoids_any hk).group (hq.avoids k)
  rw [peel_optId h (Avoids.group (.opt avoids_type) (hany _ (by decide))),
    peel_optType (without_nodup h _) (hany _ (by decide)), AnyAttr, peel_star hq, any_iff, and_assoc]

/-- elements with an identifier, optional type and any attributes -/
theorem attrs_id {q : Pat} {a ns} (h : (a.map Prod.fst).Nodup) (hq : NoAttr env q) :
    Content env (.group IdAttr (.group (.opt TypeAttr) (.group (.star AnyAttr) q))) a ns ↔
      (HasIdAttr a ∧ NoRefs a) ∧ Content env q [] ns := by
  refine content_and (fun ns => ?_) ns
  have hany : ∀ k ∈ reserved, Avoids env (.group (.star AnyAttr) q) k := fun k hk => (avoids_any hk).group (hq.avoids k)
  rw [peel_id h (Avoids.group (.opt avoids_type) (hany _ (by decide))),
    peel_optType (without_nodup h _) (hany _ (by decide)), AnyAttr, peel_star hq, any_iff, and_assoc]

theorem Distinct.nodup {tag a ns} (h : Distinct (.elem tag a ns)) : (a.map Prod.fst).Nodup := by cases h; assumption
theorem Distinct.kids {tag a ns} (h : Distinct (.elem tag a ns)) : ∀ n ∈ ns, Distinct n := by cases h; assumption
theorem Distinct.elems {tag a ns} (h : Distinct (.elem tag a ns)) : ∀ n ∈ elems ns, Distinct n :=
  fun n hn => h.kids n (List.mem_filter.1 hn).1

theorem meta_iff (he : env ANY = AnyElement) {n : Node} (h : Distinct n) : Matches env Meta [] [n] ↔ MetaDoc n := by
  rw [Meta, elem_single]
  cases n with
  | text s => exact ⟨fun ⟨_, _, _, h, _⟩ => (nomatch h), fun h => False.elim h⟩
  | elem tag a ns =>
    have key := attrs_opt h.nodup (metaContent_noAttr he) (ns := ns)
    rw [metaContent_iff he] at key
    constructor
    · rintro ⟨t, b, m, e, h1, h2⟩
      cases e
      obtain ⟨⟨g1, g2⟩, g3⟩ := key.1 h2
      exact ⟨h1, g1, g2, g3⟩
    · rintro ⟨h1, g1, g2, g3⟩
      exact ⟨tag, a, ns, rfl, h1, key.2 ⟨⟨g1, g2⟩, g3⟩⟩

theorem metadata_iff (he : env ANY = AnyElement) {n : Node} (h : Distinct n) : Matches env Metadata [] [n] ↔ MdDoc n := by
  rw [Metadata, elem_single]
  cases n with
  | text s => exact ⟨fun ⟨_, _, _, h, _⟩ => (nomatch h), fun h => False.elim h⟩
  | elem tag a ns =>
    have hm : ElemLike env Meta := elemLike_elem _ _
    have key := attrs_opt h.nodup (star_noAttr hm.noAttr) (ns := ns)
    rw [content_star hm] at key
    constructor
    · rintro ⟨t, b, m, e, h1, h2⟩
      cases e
      obtain ⟨⟨g1, g2⟩, g3, g4⟩ := key.1 h2
      exact ⟨h1, g1, g2, g3, fun n hn => (meta_iff he (h.elems n hn)).1 (g4 n hn)⟩
    · rintro ⟨h1, g1, g2, g3, g4⟩
      exact ⟨tag, a, ns, rfl, h1, key.2 ⟨⟨g1, g2⟩, g3, fun n hn => (meta_iff he (h.elems n hn)).2 (g4 n hn)⟩⟩

theorem item_iff {n : Node} (h : Distinct n) : Matches env Item [] [n] ↔ ItemDoc n := by
  rw [Item, elem_single]
  cases n with
  | text s => exact ⟨fun ⟨_, _, _, h, _⟩ => (nomatch h), fun h => False.elim h⟩
  | elem tag a ns =>
    have key : Content env (.group IdAttr (.group (.opt TypeAttr) (.group RefAttrs (.group (.star AnyAttr) .text)))) a ns ↔
        (HasIdAttr a ∧ RefsFit a) ∧ Content env .text [] ns := by
      refine content_and (fun ns => ?_) ns
      have hany : ∀ k ∈ reserved, Avoids env (.group (.star AnyAttr) .text) k := fun k hk => (avoids_any hk).group (text_noAttr.avoids k)
      have hrefs : ∀ k ∈ [lit! "id", lit! "type"], Avoids env (.group RefAttrs (.group (.star AnyAttr) .text)) k := by
        intro k hk
        simp only [List.mem_cons, List.not_mem_nil, or_false] at hk
        rcases hk with rfl | rfl
        · exact (avoids_refs (by decide) (by decide) (by decide)).group (hany _ (by decide))
        · exact (avoids_refs (by decide) (by decide) (by decide)).group (hany _ (by decide))
      rw [peel_id h.nodup (Avoids.group (.opt avoids_type) (hrefs _ (by decide))),
        peel_optType (without_nodup h.nodup _) (hrefs _ (by decide)), peel_refs h.nodup text_noAttr, and_assoc]
    rw [content_text] at key
    constructor
    · rintro ⟨t, b, m, e, h1, h2⟩
      cases e
      obtain ⟨⟨g1, g2⟩, g3⟩ := key.1 h2
      exact ⟨h1, g1, g2, g3⟩
    · rintro ⟨h1, g1, g2, g3⟩
      exact ⟨tag, a, ns, rfl, h1, key.2 ⟨⟨g1, g2⟩, g3⟩⟩

/-- two kinds of children, by pattern and by predicate -/
theorem twoKinds_iff {A B : Pat} (hA : ElemLike env A) (hB : ElemLike env B) {P Q : Node → Prop} {ns : List Node}
    (hP : ∀ n ∈ elems ns, (Matches env A [] [n] ↔ P n)) (hQ : ∀ n ∈ elems ns, (Matches env B [] [n] ↔ Q n)) :
    Content env (.group (.star A) (.star B)) [] ns ↔ TwoKinds P Q ns := by
  rw [content_two_stars hA hB, TwoKinds]
  constructor
  · rintro ⟨h1, l, r, h2, h3, h4⟩
    exact ⟨h1, l, r, h2, fun n hn => (hP n (by rw [h2]; simp [hn])).1 (h3 n hn), fun n hn => (hQ n (by rw [h2]; simp [hn])).1 (h4 n hn)⟩
  · rintro ⟨h1, l, r, h2, h3, h4⟩
    exact ⟨h1, l, r, h2, fun n hn => (hP n (by rw [h2]; simp [hn])).2 (h3 n hn), fun n hn => (hQ n (by rw [h2]; simp [hn])).2 (h4 n hn)⟩

theorem tier_iff (he : env ANY = AnyElement) {n : Node} (h : Distinct n) : Matches env Tier [] [n] ↔ TierDoc n := by
  rw [Tier, elem_single]
  cases n with
  | text s => exact ⟨fun ⟨_, _, _, h, _⟩ => (nomatch h), fun h => False.elim h⟩
  | elem tag a ns =>
    have hA : ElemLike env Metadata := elemLike_elem _ _
    have hB : ElemLike env Item := elemLike_elem _ _
    have hq : NoAttr env (.group (.star Metadata) (.star Item)) := group_noAttr (star_noAttr hA.noAttr) (star_noAttr hB.noAttr)
    have key : Content env (.group IdAttr (.group TypeAttr (.group RefAttrs (.group (.star AnyAttr) (.group (.star Metadata) (.star Item)))))) a ns ↔
        (HasIdAttr a ∧ (∃ v, (lit! "type", v) ∈ a) ∧ RefsFit a) ∧ Content env (.group (.star Metadata) (.star Item)) [] ns := by
      refine content_and (fun ns => ?_) ns
      have hany : ∀ k ∈ reserved, Avoids env (.group (.star AnyAttr) (.group (.star Metadata) (.star Item))) k :=
        fun k hk => (avoids_any hk).group (hq.avoids k)
      have hrefs : ∀ k ∈ [lit! "id", lit! "type"], Avoids env (.group RefAttrs (.group (.star AnyAttr) (.group (.star Metadata) (.star Item)))) k := by
        intro k hk
        simp only [List.mem_cons, List.not_mem_nil, or_false] at hk
        rcases hk with rfl | rfl
        · exact (avoids_refs (by decide) (by decide) (by decide)).group (hany _ (by decide))
        · exact (avoids_refs (by decide) (by decide) (by decide)).group (hany _ (by decide))
      rw [peel_id h.nodup (Avoids.group avoids_type (hrefs _ (by decide))), TypeAttr,
        peel (without_nodup h.nodup _) (hrefs _ (by decide)), peel_refs h.nodup hq]
      have : (∃ v, (lit! "type", v) ∈ without a (lit! "id") ∧ Val env .text v) ↔ ∃ v, (lit! "type", v) ∈ a := by
        constructor
        · rintro ⟨v, hv, -⟩; exact ⟨v, (mem_without.1 hv).1⟩
        · rintro ⟨v, hv⟩; exact ⟨v, (mem_without_ne (by decide)).2 hv, val_text⟩
      rw [this, and_assoc, and_assoc]
    rw [twoKinds_iff hA hB (fun n hn => metadata_iff he (h.elems n hn)) (fun n hn => item_iff (h.elems n hn))] at key
    constructor
    · rintro ⟨t, b, m, e, h1, h2⟩
      cases e
      obtain ⟨⟨g1, g2, g3⟩, g4⟩ := key.1 h2
      exact ⟨h1, g1, g2, g3, g4⟩
    · rintro ⟨h1, g1, g2, g3, g4⟩
      exact ⟨tag, a, ns, rfl, h1, key.2 ⟨⟨g1, g2, g3⟩, g4⟩⟩

theorem igt_iff (he : env ANY = AnyElement) {n : Node} (h : Distinct n) : Matches env Igt [] [n] ↔ IgtDoc n := by
  rw [Igt, elem_single]
  cases n with
  | text s => exact ⟨fun ⟨_, _, _, h, _⟩ => (nomatch h), fun h => False.elim h⟩
  | elem tag a ns =>
    have hA : ElemLike env Metadata := elemLike_elem _ _
    have hB : ElemLike env Tier := elemLike_elem _ _
    have hq : NoAttr env (.group (.star Metadata) (.star Tier)) := group_noAttr (star_noAttr hA.noAttr) (star_noAttr hB.noAttr)
    have key := attrs_id h.nodup hq (ns := ns)
    rw [twoKinds_iff hA hB (fun n hn => metadata_iff he (h.elems n hn)) (fun n hn => tier_iff he (h.elems n hn))] at key
    constructor
    · rintro ⟨t, b, m, e, h1, h2⟩
      cases e
      obtain ⟨⟨g1, g2⟩, g3⟩ := key.1 h2
      exact ⟨h1, g1, g2, g3⟩
    · rintro ⟨h1, g1, g2, g3⟩
      exact ⟨tag, a, ns, rfl, h1, key.2 ⟨⟨g1, g2⟩, g3⟩⟩

theorem corpus_iff (he : env ANY = AnyElement) {n : Node} (h : Distinct n) : Matches env XigtCorpus [] [n] ↔ CorpusDoc n := by
  rw [XigtCorpus, elem_single]
  cases n with
  | text s => exact ⟨fun ⟨_, _, _, h, _⟩ => (nomatch h), fun h => False.elim h⟩
  | elem tag a ns =>
    have hA : ElemLike env Metadata := elemLike_elem _ _
    have hB : ElemLike env Igt := elemLike_elem _ _
    have hq : NoAttr env (.group (.star Metadata) (.star Igt)) := group_noAttr (star_noAttr hA.noAttr) (star_noAttr hB.noAttr)
    have key : Content env (.group (.opt IdAttr) (.group (.opt TypeAttr) (.group (.star Metadata) (.star Igt)))) a ns ↔
        (OptIdAttr a ∧ ∀ x ∈ a, x.1 = lit! "id" ∨ x.1 = lit! "type") ∧ Content env (.group (.star Metadata) (.star Igt)) [] ns := by
      refine content_and (fun ns => ?_) ns
      rw [peel_optId h.nodup (Avoids.group (.opt avoids_type) (hq.avoids _)),
        peel_optType (without_nodup h.nodup _) (hq.avoids _), and_assoc]
      refine and_congr_right fun _ => ?_
      constructor
      · intro hm
        have := hq _ _ hm
        rw [this] at hm
        refine ⟨fun x hx => ?_, hm⟩
        by_cases h1 : x.1 = lit! "id"
        · exact .inl h1
        · by_cases h2 : x.1 = lit! "type"
          · exact .inr h2
          · have hx' : x ∈ without (without a (lit! "id")) (lit! "type") := mem_without.2 ⟨mem_without.2 ⟨hx, h1⟩, h2⟩
            rw [this] at hx'; cases hx'
      · rintro ⟨h1, hm⟩
        have : without (without a (lit! "id")) (lit! "type") = [] := by
          rw [List.eq_nil_iff_forall_not_mem]
          intro x hx
          rw [mem_without, mem_without] at hx
          rcases h1 x hx.1.1 with h | h
          · exact hx.1.2 h
          · exact hx.2 h
        rw [this]; exact hm
    rw [twoKinds_iff hA hB (fun n hn => metadata_iff he (h.elems n hn)) (fun n hn => igt_iff he (h.elems n hn))] at key
    constructor
    · rintro ⟨t, b, m, e, h1, h2⟩
      cases e
      obtain ⟨⟨g1, g2⟩, g3⟩ := key.1 h2
      exact ⟨h1, g1, g2, g3⟩
    · rintro ⟨h1, g1, g2, g3⟩
      exact ⟨tag, a, ns, rfl, h1, key.2 ⟨⟨g1, g2⟩, g3⟩⟩

/-- what the schema says about documents -/
theorem valid_iff {doc : Node} (h : Distinct doc) : Valid structure_rnc doc ↔ CorpusDoc doc :=
  corpus_iff (by simp [structure_rnc]) h

end
end Xigt.Rng
