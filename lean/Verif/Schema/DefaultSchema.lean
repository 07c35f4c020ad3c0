import Verif.Schema.DefaultMeta
import Verif.Schema.Imported
/- C105, C120: which corpora are written as documents valid against default-xigt.rnc. -/

set_option linter.unusedSectionVars false

namespace Xigt.Rng

section
variable [Uni] [Xsd]

/-! ### The condition -/

/-- the types of tiers, and for each the types of its items (besides no type at all) -/
def tierTable : List ((Str → Prop) × (Str → Prop)) :=
  [(OneOf [lit! "phrases"], OneOf [lit! "original", lit! "transliteration"]), (OneOf [lit! "words"], Ws),
    (OneOf [lit! "morphemes"], OneOf [lit! "affix", lit! "clitic"]), (OneOf [lit! "glosses"], OneOf [lit! "leipzig", lit! "lexeme"]),
    (OneOf [lit! "translations"], Ws), (fun _ => False, Ws)]

def ItemFitsD (T : Str → Prop) (x : Obj) : Prop := HasId x.data ∧ (∀ v, x.data.type = some v → T v) ∧ RefsX AlgnFits x.data.attrs
/-- there is a type of tiers the tier is not in conflict with -/
def TierFitsD (x : Obj) : Prop :=
  HasId x.data ∧ RefsX IdFits x.data.attrs ∧ (∀ m ∈ x.md, MdFitsD m) ∧
    ∃ t ∈ tierTable, (∀ v, x.data.type = some v → t.1 v) ∧ ∀ i ∈ x.kids, ItemFitsD t.2 i
def IgtFitsD (x : Obj) : Prop :=
  HasId x.data ∧ BlankType x.data ∧ OnlyBase x.data.attrs ∧ (∀ m ∈ x.md, MdFitsD m) ∧ ∀ t ∈ x.kids, TierFitsD t
def CorpusFitsD (x : Obj) : Prop := OptId x.data ∧ OnlyBase x.data.attrs ∧ (∀ m ∈ x.md, MdFitsD m) ∧ ∀ t ∈ x.kids, IgtFitsD t

end

section
variable [Uni] [XmlLex] [Xsd] {env : Str → Pat}

/-- the names that concern tiers are as in xigt.rnc, but for the types of items -/
structure PlainTier (p : Names) : Prop where
  base : p.baseAttrs = BaseAttrs
  itemId : p.itemId = Id
  itemAln : p.itemAln = AlgnExpr
  itemCnt : p.itemCnt = AlgnExpr
  itemSeg : p.itemSeg = AlgnExpr
  itemAttrs : p.itemAttrs = .empty
  item : p.item = .notAllowed
  tierId : p.tierId = Id
  tierAln : p.tierAln = Id
  tierCnt : p.tierCnt = Id
  tierSeg : p.tierSeg = Id
  tierAttrs : p.tierAttrs = .empty
  tierMetadata : p.tierMetadata = .star .notAllowed
  metadata : p.metadata = .notAllowed
  md : DefaultMd p

theorem itemD_iff {p : Names} (hp : PlainTier p) {T : Str → Prop} (hT : ∀ v, Val env p.itemType v ↔ T v) {eff d md kids} (n : XNode eff .item d md kids) {nd : Node}
    (h : Wrote (.mk d md kids) nd) : Matches env (itemFile p) [] [nd] ↔ ItemFitsD T (.mk d md kids) := by
  obtain ⟨t, ns, rfl, hn, ht, hws, ha⟩ := h.inv (by rw [n.cls_eq]; decide)
  rw [n.cls_eq]
  have hmd : md = [] := n.md_nil rfl
  have hkd : kids = [] := List.eq_nil_iff_forall_not_mem.2 fun x hx => nomatch n.kids_cls x hx
  subst hmd hkd
  rw [itemFile, show clsTag .item = lit! "item" from rfl, elem_wrote]
  simp only [hp.base, hp.itemId, hp.itemAln, hp.itemCnt, hp.itemSeg, hp.itemAttrs]
  rw [refs_content n.kept text_noAttr hn (fun _ => algn_val), content_text, elems_text_append, ItemFitsD]
  simp only [hT, Obj.data_mk]
  exact and_iff_left (List.length_eq_zero_iff.1 (all2_length ha).symm)

theorem tierD_iff (he : env ANY = AnyElement) {p : Names} (hp : PlainTier p) {T : Str → Prop} (hT : ∀ v, Val env p.itemType v ↔ T v) {ty : Pat} {S : Str → Prop} (hS : ∀ v, Val env ty v ↔ S v)
    {eff d md kids} (n : XNode eff .tier d md kids) {nd : Node} (h : Wrote (.mk d md kids) nd) : Matches env (tierFile p ty) [] [nd] ↔
      (HasId d ∧ RefsX IdFits d.attrs ∧ ∀ m ∈ md, MdFitsD m) ∧ (∀ v, d.type = some v → S v) ∧ ∀ i ∈ kids, ItemFitsD T i := by
  obtain ⟨t, ns, rfl, hn, ht, hws, ha⟩ := h.inv (by rw [n.cls_eq]; decide)
  rw [n.cls_eq, tierFile, show clsTag .tier = lit! "tier" from rfl, elem_wrote]
  simp only [hp.base, hp.tierId, hp.tierAln, hp.tierCnt, hp.tierSeg, hp.tierAttrs, hp.tierMetadata, hp.metadata, hp.item]
  have eA : ElemLike env (metadataFile p) := elemLike_elem _ _
  have eB : ElemLike env (itemFile p) := elemLike_elem _ _
  have hkc : ∀ x ∈ kids, x.cls = .item := fun x hx => by
    have := n.kids_cls x hx
    injection this
  rw [refs_content n.kept (outer_noAttr eA eB) hn (fun _ => id_val), outer_same.content,
    two_wrote eA eB ha (wrote_ws (n.text_none rfl) ht hws) n.md_cls hkc (by decide) (by decide) (fun _ h => elem_tag h) (fun _ h => elem_tag h)
      (P := MdFitsD) (Q := ItemFitsD T) (fun x hx nd hw => by
        have nx := XNode.of (x := x) (n.md_cls x hx) (n.md_wf x hx) (n.md_valid x hx) (n.kept_md x hx)
        obtain ⟨d', md', kids'⟩ := x
        exact md_default he hp.md nx hw) (fun x hx nd hw => by
        have nx := XNode.of (x := x) (hkc x hx) (n.kids_wf x hx) (n.kids_valid x hx) (n.kept_kids x hx)
        obtain ⟨d', md', kids'⟩ := x
        exact itemD_iff hp hT nx hw)]
  simp only [hS]
  constructor
  · exact fun ⟨⟨h1, h2, h3⟩, h5, h4⟩ => ⟨⟨h1, h3, h5⟩, h2, h4⟩
  · exact fun ⟨⟨h1, h3, h5⟩, h2, h4⟩ => ⟨⟨h1, h2, h3⟩, h5, h4⟩

theorem tier_default (he : env ANY = AnyElement) {eff d md kids} (n : XNode eff .tier d md kids) {nd : Node} (h : Wrote (.mk d md kids) nd) :
    Matches env (.choice defaultNames.tier (tierFile defaultNames)) [] [nd] ↔ TierFitsD (.mk d md kids) := by
  simp only [defaultNames, defaultTier, choice_iff]
  have e1 : PlainTier { defaultNames₂ with itemType := .choice (value (lit! "original")) (value (lit! "transliteration")) } :=
    ⟨rfl, rfl, rfl, rfl, rfl, rfl, rfl, rfl, rfl, rfl, rfl, rfl, rfl, rfl, ⟨rfl, rfl, rfl, rfl, rfl, rfl⟩⟩
  have e2 : PlainTier defaultNames₂ := ⟨rfl, rfl, rfl, rfl, rfl, rfl, rfl, rfl, rfl, rfl, rfl, rfl, rfl, rfl, ⟨rfl, rfl, rfl, rfl, rfl, rfl⟩⟩
  have e3 : PlainTier { defaultNames₂ with itemType := .choice (value (lit! "affix")) (value (lit! "clitic")) } :=
    ⟨rfl, rfl, rfl, rfl, rfl, rfl, rfl, rfl, rfl, rfl, rfl, rfl, rfl, rfl, ⟨rfl, rfl, rfl, rfl, rfl, rfl⟩⟩
  have e4 : PlainTier { defaultNames₂ with itemType := .choice (value (lit! "leipzig")) (value (lit! "lexeme")) } :=
    ⟨rfl, rfl, rfl, rfl, rfl, rfl, rfl, rfl, rfl, rfl, rfl, rfl, rfl, rfl, ⟨rfl, rfl, rfl, rfl, rfl, rfl⟩⟩
  have e5 : PlainTier defaultNames := ⟨rfl, rfl, rfl, rfl, rfl, rfl, rfl, rfl, rfl, rfl, rfl, rfl, rfl, rfl, ⟨rfl, rfl, rfl, rfl, rfl, rfl⟩⟩
  have hE : ∀ v, Val env defaultNames₂.itemType v ↔ Ws v := fun v => val_empty
  have hN : ∀ v, Val env .notAllowed v ↔ False := fun v => ⟨val_none, False.elim⟩
  rw [tierD_iff he e1 (fun v => oneOf_two (by decide) (by decide)) (fun v => oneOf_one (by decide)) n h,
    tierD_iff he e2 hE (fun v => oneOf_one (w := lit! "words") (by decide)) n h,
    tierD_iff he e3 (fun v => oneOf_two (by decide) (by decide)) (fun v => oneOf_one (by decide)) n h,
    tierD_iff he e4 (fun v => oneOf_two (by decide) (by decide)) (fun v => oneOf_one (by decide)) n h,
    tierD_iff he e2 hE (fun v => oneOf_one (w := lit! "translations") (by decide)) n h]
  have h5 := tierD_iff he e5 hE hN n h
  simp only [defaultNames, defaultTier] at h5
  rw [h5, TierFitsD]
  simp only [tierTable, List.mem_cons, List.not_mem_nil, or_false, exists_eq_or_imp, exists_eq_left, Obj.data_mk, Obj.kids_mk, Obj.md_mk]
  constructor
  · rintro ((h | h | h | h | h | h) | h)
    · cases h
    · exact ⟨h.1.1, h.1.2.1, h.1.2.2, .inl h.2⟩
    · exact ⟨h.1.1, h.1.2.1, h.1.2.2, .inr (.inl h.2)⟩
    · exact ⟨h.1.1, h.1.2.1, h.1.2.2, .inr (.inr (.inl h.2))⟩
    · exact ⟨h.1.1, h.1.2.1, h.1.2.2, .inr (.inr (.inr (.inl h.2)))⟩
    · exact ⟨h.1.1, h.1.2.1, h.1.2.2, .inr (.inr (.inr (.inr (.inl h.2))))⟩
    · exact ⟨h.1.1, h.1.2.1, h.1.2.2, .inr (.inr (.inr (.inr (.inr h.2))))⟩
  · rintro ⟨h1, h1', h2, h | h | h | h | h | h⟩
    · exact .inl (.inr (.inl ⟨⟨h1, h1', h2⟩, h⟩))
    · exact .inl (.inr (.inr (.inl ⟨⟨h1, h1', h2⟩, h⟩)))
    · exact .inl (.inr (.inr (.inr (.inl ⟨⟨h1, h1', h2⟩, h⟩))))
    · exact .inl (.inr (.inr (.inr (.inr (.inl ⟨⟨h1, h1', h2⟩, h⟩)))))
    · exact .inl (.inr (.inr (.inr (.inr (.inr ⟨⟨h1, h1', h2⟩, h⟩)))))
    · exact .inr ⟨⟨h1, h1', h2⟩, h⟩

theorem igt_default (he : env ANY = AnyElement) {eff d md kids} (n : XNode eff .igt d md kids) {nd : Node} (h : Wrote (.mk d md kids) nd) :
    Matches env (igtFile defaultNames) [] [nd] ↔ IgtFitsD (.mk d md kids) := by
  obtain ⟨t, ns, rfl, hn, ht, hws, ha⟩ := h.inv (by rw [n.cls_eq]; decide)
  rw [n.cls_eq, igtFile, show clsTag .igt = lit! "igt" from rfl, elem_wrote]
  have eA : ElemLike env (metadataFile defaultNames) := elemLike_elem _ _
  have eT : ElemLike env defaultNames.tier := elemLike_not.choice ((elemLike_elem _ _).choice ((elemLike_elem _ _).choice ((elemLike_elem _ _).choice
    ((elemLike_elem _ _).choice (elemLike_elem _ _)))))
  have eB : ElemLike env (.choice defaultNames.tier (tierFile defaultNames)) := eT.choice (elemLike_elem _ _)
  have tB : ∀ n, Matches env (.choice defaultNames.tier (tierFile defaultNames)) [] [n] → tagOf n = lit! "tier" := by
    refine choice_tag ?_ fun _ h => elem_tag h
    refine choice_tag not_tag ?_
    iterate 4 refine choice_tag (fun _ h => elem_tag h) ?_
    exact fun _ h => elem_tag h
  have hkc : ∀ x ∈ kids, x.cls = .tier := fun x hx => by
    have := n.kids_cls x hx
    injection this
  have hs : Same env (.group (.star (.choice (.star .notAllowed) (.choice .notAllowed (metadataFile defaultNames)))) (.star (.choice defaultNames.tier (tierFile defaultNames))))
      (.group (.star (metadataFile defaultNames)) (.star (.choice defaultNames.tier (tierFile defaultNames)))) := .group absorb (.refl _)
  have hq : NoAttr env (.group (.star (.choice (.star .notAllowed) (.choice .notAllowed (metadataFile defaultNames)))) (.star (.choice defaultNames.tier (tierFile defaultNames)))) :=
    fun a ns h => group_noAttr (star_noAttr eA.noAttr) (star_noAttr eB.noAttr) a ns ((hs a ns).1 h)
  refine igt_same.content.trans ?_
  refine (attsPat_content hq nodup_base' hn).trans ?_
  rw [has_atts n.kept, hs.content,
    two_wrote (c := .tier) eA eB ha (wrote_ws (n.text_none rfl) ht hws) n.md_cls hkc (by decide) (by decide) (fun _ h => elem_tag h) tB
      (P := MdFitsD) (Q := TierFitsD) (fun x hx nd hw => by
        have nx := XNode.of (x := x) (n.md_cls x hx) (n.md_wf x hx) (n.md_valid x hx) (n.kept_md x hx)
        obtain ⟨d', md', kids'⟩ := x
        exact md_default he ⟨rfl, rfl, rfl, rfl, rfl, rfl⟩ nx hw) (fun x hx nd hw => by
        have nx := XNode.of (x := x) (hkc x hx) (n.kids_wf x hx) (n.kids_valid x hx) (n.kept_kids x hx)
        obtain ⟨d', md', kids'⟩ := x
        exact tier_default he nx hw), IgtFitsD, and_assoc, and_assoc]
  rfl

/-- documents that were written for a corpus -/
theorem core_default {eff d md kids} (n : XNode eff .corpus d md kids) {doc : Node} (h4 : Wrote (.mk d md kids) doc) :
    Valid default_rnc doc ↔ CorpusFitsD (.mk d md kids) := by
  have he : default_rnc.defs ANY = AnyElement := by simp [default_rnc, grammar]
  obtain ⟨t, ns, rfl, hn, ht, hws, ha⟩ := h4.inv (by rw [show d.cls = .corpus from n.cls_eq]; decide)
  have eA : ElemLike default_rnc.defs (metadataFile defaultNames) := elemLike_elem _ _
  have eB : ElemLike default_rnc.defs (igtFile defaultNames) := elemLike_elem _ _
  have hkc : ∀ x ∈ kids, x.cls = .igt := fun x hx => by
    have := n.kids_cls x hx
    injection this
  rw [show d.cls = .corpus from n.cls_eq]
  show Matches _ (.elem (.name (lit! "xigt-corpus")) _) [] [.elem (lit! "xigt-corpus") _ _] ↔ _
  rw [elem_wrote]
  refine meta_same.content.trans ?_
  refine (attsPat_content (outer_noAttr eA eB) nodup_base hn).trans ?_
  rw [outer_same.content, two_wrote (c := .igt) eA eB ha (wrote_ws (n.text_none rfl) ht hws) n.md_cls hkc (by decide) (by decide) (fun _ h => elem_tag h)
      (fun _ h => elem_tag h) (P := MdFitsD) (Q := IgtFitsD) (fun x hx nd hw => by
        have nx := XNode.of (x := x) (n.md_cls x hx) (n.md_wf x hx) (n.md_valid x hx) (n.kept_md x hx)
        obtain ⟨d', md', kids'⟩ := x
        exact md_default he ⟨rfl, rfl, rfl, rfl, rfl, rfl⟩ nx hw) (fun x hx nd hw => by
        have nx := XNode.of (x := x) (hkc x hx) (n.kids_wf x hx) (n.kids_valid x hx) (n.kept_kids x hx)
        obtain ⟨d', md', kids'⟩ := x
        exact igt_default he nx hw)]
  refine (and_congr_left' (opt_atts (d := d) n.kept)).trans ?_
  have hb : BlankType d := fun v hv => by
    have := n.kept.corpus n.cls_eq
    rw [show d.type = none from this] at hv; cases hv
  rw [CorpusFitsD]
  constructor
  · exact fun ⟨⟨h1, _, h2⟩, h4, h3⟩ => ⟨h1, h2, h4, h3⟩
  · exact fun ⟨h1, h2, h4, h3⟩ => ⟨⟨h1, hb, h2⟩, h4, h3⟩

/-- **C120**: what is written of a corpus is valid against default-xigt.rnc just in case the corpus fits it:
only the types of tiers, of items and of notes that are listed, notes with the attributes listed for their
type, and no further attributes. -/
theorem C120_iff (x : Obj) (hc : x.cls = .corpus) (hw : x.WF) (hv : x.Valid) (hk : XmlKept [] x) (ind : Option Int) :
    ∃ s doc, dumpsXml ind x = .ok s ∧ docText s = .ok doc ∧ (Valid default_rnc doc ↔ CorpusFitsD x) := by
  obtain ⟨s, doc, h1, h2, -, h4⟩ := wrote_corpus x hc hw hv hk ind
  refine ⟨s, doc, h1, h2, ?_⟩
  obtain ⟨d, md, kids⟩ := x
  exact core_default (XNode.of hc hw hv hk) h4

end

section
attribute [local instance] asciiUni asciiXml asciiXsd

/-- a corpus with a note in its metadata -/
def noted (d : Data) : Obj := .mk { cls := .corpus } [.mk { cls := .metadata, type := some (lit! "xigt-meta") } [] [.mk d [] []]] []

theorem noted_ok {d : Data} (hc : d.cls = .metaC) (hn : d.name = none) (hm : d.nsmap = none) (hi : d.id = none) (ha : d.attrs.WF) (hk : XmlDataKept [] d) :
    (noted d).cls = .corpus ∧ (noted d).WF ∧ (noted d).Valid ∧ XmlKept [] (noted d) := by
  refine ⟨rfl, ?_, ?_, ?_⟩
  · refine .mk Dict.wf_nil (fun _ => rfl) (by decide) (by simp [Cls.hasMd]) ?_ (by simp) ?_ (by simp)
    · intro x hx; cases List.mem_singleton.1 hx; rfl
    · intro x hx
      cases List.mem_singleton.1 hx
      refine simple_wf Dict.wf_nil rfl rfl (by decide) fun x hx => ?_
      cases List.mem_singleton.1 hx
      refine ⟨congrArg some hc, .mk ha (fun h => ?_) ⟨fun h => ?_, fun h => ?_⟩ (by simp) (by simp) (by simp) (by simp) (by simp)⟩
      · rw [hc] at h; cases h
      · rw [hn] at h; cases h
      · rw [hc] at h; cases h
  · refine .mk (by simp) (by simp) (show ([] : List Str).Nodup from List.nodup_nil) (by simp) (by simp) ?_ (by simp)
    intro x hx
    cases List.mem_singleton.1 hx
    refine simple_valid (by simp) rfl rfl (by simp [Obj.data_mk, hi]) fun x hx => ?_
    cases List.mem_singleton.1 hx
    exact simple_valid (by rw [hi]; simp) hn hm (by simp) (by simp)
  · refine .mk (by constructor <;> simp) (fun x hx => ?_) (by simp)
    cases List.mem_singleton.1 hx
    refine .mk ?_ (by simp) fun x hx => ?_
    · constructor <;> first | (simp; done) | skip
      intro i hi; cases hi; exact chars_of (by decide)
    cases List.mem_singleton.1 hx
    exact .mk (by rw [hm]; exact hk) (by simp) (by simp)

/-- the language of two tiers -/
def lang : Data := { cls := .metaC, type := some (lit! "language"), attrs := [(lit! "iso-639-3", lit! "eng"), (lit! "tiers", lit! "p w")] }
/-- the language, without telling of which tiers -/
def langAll : Data := { cls := .metaC, type := some (lit! "language"), attrs := [(lit! "iso-639-3", lit! "eng")] }
/-- a note without a type -/
def untyped : Data := { cls := .metaC, text := some (lit! "seen") }

theorem lang_ok : (noted lang).cls = .corpus ∧ (noted lang).WF ∧ (noted lang).Valid ∧ XmlKept [] (noted lang) := by
  refine noted_ok rfl rfl rfl rfl (by unfold Dict.WF; decide) ?_
  constructor <;> first | (simp [lang]; done) | skip
  · intro i hi; cases hi; exact chars_of (by decide)
  · intro k v hv
    rcases List.mem_cons.1 hv with e | hv
    · cases e; exact ⟨chars_of (by decide), plain_attr (by decide) (by decide) (by decide) (by decide)⟩
    · cases List.mem_singleton.1 hv; exact ⟨chars_of (by decide), plain_attr (by decide) (by decide) (by decide) (by decide)⟩

theorem langAll_ok : (noted langAll).cls = .corpus ∧ (noted langAll).WF ∧ (noted langAll).Valid ∧ XmlKept [] (noted langAll) := by
  refine noted_ok rfl rfl rfl rfl (by unfold Dict.WF; decide) ?_
  constructor <;> first | (simp [langAll]; done) | skip
  · intro i hi; cases hi; exact chars_of (by decide)
  · intro k v hv
    cases List.mem_singleton.1 hv; exact ⟨chars_of (by decide), plain_attr (by decide) (by decide) (by decide) (by decide)⟩

theorem untyped_ok : (noted untyped).cls = .corpus ∧ (noted untyped).WF ∧ (noted untyped).Valid ∧ XmlKept [] (noted untyped) := by
  refine noted_ok rfl rfl rfl rfl (by unfold Dict.WF; decide) ?_
  constructor <;> first | (simp [untyped]; done) | skip
  · rintro - t ⟨⟩
    exact ⟨'s', by decide, by decide +kernel⟩
  · rintro t ⟨⟩
    exact ⟨chars_of (by decide), by decide⟩

theorem noted_iff {d : Data} : CorpusFitsD (noted d) ↔ MetaFitsD (.mk d [] []) := by
  constructor
  · exact fun h => (h.2.2.1 _ (List.mem_singleton.2 rfl)).2.2.2 _ (List.mem_singleton.2 rfl)
  · intro h
    refine ⟨(by rintro i ⟨⟩), (by intro k v hv; cases hv), fun m hm => ?_, by simp [noted]⟩
    cases List.mem_singleton.1 hm
    refine ⟨(by rintro i ⟨⟩), (by rintro v ⟨⟩; exact .inr (word_self _)), (by intro k v hv; cases hv), fun m hm => ?_⟩
    cases List.mem_singleton.1 hm
    exact h

/-- a corpus that tells the language of two tiers is written as a valid document -/
example (ind : Option Int) : ∃ s doc, dumpsXml ind (noted lang) = .ok s ∧ docText s = .ok doc ∧ Valid default_rnc doc := by
  obtain ⟨hc, hw, hv, hk⟩ := lang_ok
  obtain ⟨s, doc, h1, h2, h3⟩ := C120_iff (noted lang) hc hw hv hk ind
  refine ⟨s, doc, h1, h2, h3.2 (noted_iff.2 ⟨(by rintro i ⟨⟩), _, .head _, (by rintro v ⟨⟩; exact ⟨_, .head _, word_self _⟩), ⟨?_, .inr ?_, ?_⟩, .inl rfl⟩)⟩
  · intro k v hv
    rcases List.mem_cons.1 hv with e | hv
    · cases e; exact .inr (.inr (.inl rfl))
    · cases List.mem_singleton.1 hv
      refine .inr (.inr (.inr ⟨rfl, ?_⟩))
      exact .more (i := lit! "p") (w := lit! " ") (r := lit! "w") ⟨'p', [], rfl, by decide, by decide⟩ (by decide) (by unfold Ws; decide) (.one ⟨'w', [], rfl, by decide, by decide⟩)
  · exact lacks_iff.2 ⟨_, .head _⟩
  · exact lacks_iff.2 ⟨_, .tail _ (.head _)⟩

/-- one that does not tell of which tiers it is the language is not -/
theorem C120_tiers (ind : Option Int) : ∃ s doc, dumpsXml ind (noted langAll) = .ok s ∧ docText s = .ok doc ∧ ¬ Valid default_rnc doc := by
  obtain ⟨hc, hw, hv, hk⟩ := langAll_ok
  obtain ⟨s, doc, h1, h2, h3⟩ := C120_iff (noted langAll) hc hw hv hk ind
  refine ⟨s, doc, h1, h2, fun h => ?_⟩
  obtain ⟨-, t, ht, h, h', -⟩ := noted_iff.1 (h3.1 h)
  have hb : ¬ OnlyBase langAll.attrs := fun h => by
    rcases h _ _ (.head _) with e | ⟨e, -⟩ <;> exact absurd e (by decide)
  simp only [metaTable, List.mem_cons, List.not_mem_nil, or_false] at ht
  rcases ht with rfl | rfl | rfl | rfl | rfl | rfl | rfl
  · obtain ⟨v, hv⟩ := lacks_iff.1 h'.2.2
    cases List.mem_singleton.1 hv
  · exact hb h'
  · exact hb h'
  · exact hb h'
  · obtain ⟨v, hv⟩ := lacks_iff.1 h'.2
    cases List.mem_singleton.1 hv
  · exact hb h'
  · exact hb h'

/-- a mere text without a type, which xigt.rnc does not allow (C103), is allowed: the types of notes need
not be given -/
theorem C120_text (ind : Option Int) : ∃ s doc, dumpsXml ind (noted untyped) = .ok s ∧ docText s = .ok doc ∧ Valid default_rnc doc ∧ ¬ Valid xigt_rnc doc := by
  obtain ⟨hc, hw, hv, hk⟩ := untyped_ok
  obtain ⟨s, doc, h1, h2, h3⟩ := C120_iff (noted untyped) hc hw hv hk ind
  obtain ⟨s', doc', g1, g2, g3⟩ := C103_iff (noted untyped) hc hw hv hk ind
  rw [h1] at g1; cases g1
  rw [h2] at g2; cases g2
  refine ⟨s, doc, h1, h2, h3.2 (noted_iff.2 ⟨(by rintro i ⟨⟩), _, .tail _ (.head _), (by rintro v ⟨⟩), (by intro k v hv; cases hv), rfl⟩), fun h => ?_⟩
  rcases ((g3.1 h).2.2.1 _ (List.mem_singleton.2 rfl)).2.2.2 _ (List.mem_singleton.2 rfl) |>.2.2.2 with e | e
  · cases e
  · exact e rfl

end
end Xigt.Rng
