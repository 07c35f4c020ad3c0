import Verif.Schema.DefaultSchema
import Verif.Schema.Extensions
import Verif.Tree.WfCheck
/-
C149: which corpora are written as documents valid against examples/abkhaz/abkhaz-xigt.rnc, the schema of the
example in examples/abkhaz.
-/

set_option linter.unusedSectionVars false

namespace Xigt.Rng

section
variable [Uni] [Xsd]

/-! ### The schema -/

/-- abkhaz-xigt.rnc:15 `element phenomenon { text }*` -/
def phenomena : Pat := .star (.elem (.name (lit! "phenomenon")) .text)

/-- abkhaz-xigt.rnc:3-16, together with what default-xigt.rnc has (`Meta |= …`) -/
def abkhazMeta : Pat :=
  let p := defaultNames₁
  .choice defaultMeta
    (.choice (metaFile { p with metaType := value (lit! "vetted"), metaAttrs := att (lit! "value") .text })
    (.choice (metaFile { p with metaType := value (lit! "judgment"), metaAttrs := att (lit! "value") .text })
      (metaFile { p with metaType := value (lit! "phenomena") } phenomena)))

/-- `Meta = parent Meta` in the files that are included is this one, also where default-xigt.rnc includes them. -/
def abkhazNames₂ : Names := { defaultNames₁ with metaP := abkhazMeta }

/-- default-xigt.rnc:7-27, with other names around it -/
def tiersOf (p : Names) : Pat :=
  .choice .notAllowed
    (.choice (tierFile { p with itemType := .choice (value (lit! "original")) (value (lit! "transliteration")) } (value (lit! "phrases")))
    (.choice (tierFile p (value (lit! "words")))
    (.choice (tierFile { p with itemType := .choice (value (lit! "affix")) (value (lit! "clitic")) } (value (lit! "morphemes")))
    (.choice (tierFile { p with itemType := .choice (value (lit! "leipzig")) (value (lit! "lexeme")) } (value (lit! "glosses")))
      (tierFile p (value (lit! "translations")))))))

example : defaultTier = tiersOf defaultNames₂ := rfl

/-- abkhaz-xigt.rnc:22-26 -/
def nodeItem (p : Names) : Pat := .choice (itemFile p) (itemFile { p with itemAttrs := att (lit! "children") AlgnExpr } .empty)

/-- abkhaz-xigt.rnc:19-27; `Item` replaces `Item = parent Item` of xigt-tier.rnc, `LocalItem` stays. -/
def nodeTier (p : Names) : Pat :=
  tierFile { p with tierAttrs := att (lit! "children") Id, item := nodeItem p } (value (lit! "syntax"))

def abkhazNames : Names := { abkhazNames₂ with tier := .choice (tiersOf abkhazNames₂) (nodeTier abkhazNames₂) }

/-- abkhaz-xigt.rnc -/
def abkhaz_rnc : Grammar := grammar abkhazNames

/-! ### The condition, without patterns -/

/-- the attribute of a judgement: a value, of whatever kind -/
def ValueAttrs (a : List (Str × Str)) : Prop :=
  (∀ k v, (k, v) ∈ a → BaseAttr k v ∨ k = lit! "value") ∧ ¬ Lacks a (lit! "value")

/-- the name of a phenomenon -/
def Phenomenon (x : Obj) : Prop := x.data.ns = none ∧ x.data.name = some (lit! "phenomenon") ∧ x.data.attrs = [] ∧ x.kids = []

/-- a note as in default-xigt.rnc, a value, or a list of phenomena -/
def MetaFitsA (x : Obj) : Prop :=
  MetaFitsD x ∨
  (OptId x.data ∧ (∀ v, x.data.type = some v → OneOf [lit! "vetted", lit! "judgment"] v) ∧ ValueAttrs x.data.attrs ∧ MetaText false x) ∨
  (OptId x.data ∧ (∀ v, x.data.type = some v → Word (lit! "phenomena") v) ∧ OnlyBase x.data.attrs ∧ x.data.text = none ∧ ∀ c ∈ x.kids, Phenomenon c)

def MdFitsA (x : Obj) : Prop :=
  OptId x.data ∧ (∀ v, x.data.type = some v → Ws v ∨ Word (lit! "xigt-meta") v) ∧ OnlyBase x.data.attrs ∧ ∀ m ∈ x.kids, MetaFitsA m

/-- the references of a tier with a tree: as of other tiers, and the tier the children are in, which is needed -/
def TreeRefs (a : List (Str × Str)) : Prop :=
  (∀ k v, (k, v) ∈ a → BaseAttr k v ∨ ((k = ALN ∨ k = CNT ∨ k = SEG ∨ k = lit! "children") ∧ IdFits v)) ∧
  (Lacks a SEG ∨ (Lacks a ALN ∧ Lacks a CNT)) ∧ ¬ Lacks a (lit! "children")

/-- the references of a node: children, and nothing else -/
def NodeRefs (a : List (Str × Str)) : Prop :=
  (∀ k v, (k, v) ∈ a → BaseAttr k v ∨ (k = lit! "children" ∧ AlgnFits v)) ∧ ¬ Lacks a (lit! "children")

/-- a tree: its items are leaves, which are as items elsewhere, or nodes -/
def TreeTier (x : Obj) : Prop :=
  HasId x.data ∧ (∀ v, x.data.type = some v → Word (lit! "syntax") v) ∧ TreeRefs x.data.attrs ∧ (∀ m ∈ x.md, MdFitsA m) ∧
    ∀ i ∈ x.kids, ItemFitsX i ∨ (HasId i.data ∧ BlankType i.data ∧ NodeRefs i.data.attrs)

def TierFitsA (x : Obj) : Prop :=
  (HasId x.data ∧ RefsX IdFits x.data.attrs ∧ (∀ m ∈ x.md, MdFitsA m) ∧
    ∃ t ∈ tierTable, (∀ v, x.data.type = some v → t.1 v) ∧ ∀ i ∈ x.kids, ItemFitsD t.2 i) ∨ TreeTier x
def IgtFitsA (x : Obj) : Prop :=
  HasId x.data ∧ BlankType x.data ∧ OnlyBase x.data.attrs ∧ (∀ m ∈ x.md, MdFitsA m) ∧ ∀ t ∈ x.kids, TierFitsA t
def CorpusFitsA (x : Obj) : Prop := OptId x.data ∧ OnlyBase x.data.attrs ∧ (∀ m ∈ x.md, MdFitsA m) ∧ ∀ t ∈ x.kids, IgtFitsA t

end

section
variable [Uni] [XmlLex] [Xsd] {env : Str → Pat}

/-! ### Notes -/

/-- a kind of notes, with any condition on the content -/
theorem kindC_iff {p : Names} (hb : p.baseAttrs = BaseAttrs) (hi : p.metaId = Id) {q : Pat} {x : AttSpec} (hs : SameN env (.group p.metaAttrs q) (attsPat x q))
    (hx : Fresh x) (hq : NoAttr env q) {T : Str → Prop} (hT : ∀ v, Val env p.metaType v ↔ T v) {A : List (Str × Str) → Prop}
    (hA : ∀ a, Atts env (baseSpec ++ x) a ↔ A a) {C : Prop} {eff d kids}
    (hc : ∀ {t : Option Str} {ns : List Node}, (t = d.text ∨ (blank d.text = true ∧ Ws (t.getD []))) → WsOnly ns → All2 Wrote ([] ++ kids) (elems ns) →
      (Content env q [] (textNode t ++ ns) ↔ C))
    (n : XNode eff .metaC d [] kids) {nd : Node} (h : Wrote (.mk d [] kids) nd) :
    Matches env (metaFile p q) [] [nd] ↔ OptId d ∧ (∀ v, d.type = some v → T v) ∧ A d.attrs ∧ C := by
  obtain ⟨t, ns, rfl, hn, ht, hws, ha⟩ := h.inv (by rw [n.cls_eq]; decide)
  rw [n.cls_eq]
  simp only [metaFile, hb, hi]
  rw [show clsTag .metaC = lit! "meta" from rfl, elem_wrote, metaG n.kept hs hx hq hn, hA, hc ht hws ha, and_assoc, and_assoc]
  simp only [hT]

def valueSpec : AttSpec := [(lit! "value", true, .text)]

theorem fresh_value : Fresh valueSpec := by
  refine ⟨by simp [valueSpec], fun s hs => ?_⟩
  cases List.mem_singleton.1 hs
  show lit! "value" ∉ _
  decide

theorem value_atts {a : List (Str × Str)} : Atts env (baseSpec ++ valueSpec) a ↔ ValueAttrs a := by
  rw [valueSpec, one_atts, ValueAttrs]
  simp only [val_text, and_true]

/-- an element without attributes and elements within -/
theorem phenomenon_iff {eff d md kids} (n : XNode eff .metaChild d md kids) {nd : Node} (h : Wrote (.mk d md kids) nd) :
    Matches env (.elem (.name (lit! "phenomenon")) .text) [] [nd] ↔ Phenomenon (.mk d md kids) := by
  obtain ⟨t, ns, rfl, hn, ht, hws, ha⟩ := h.inv_child n.cls_eq
  have hk : elems ns = [] ↔ kids = [] := by
    rw [← List.length_eq_zero_iff, ← List.length_eq_zero_iff, all2_length ha]
  have htag : childTag d = lit! "phenomenon" ↔ d.ns = none ∧ d.name = some (lit! "phenomenon") := by
    obtain ⟨name, hname⟩ : ∃ m, d.name = some m := by
      have := n.wf
      cases this with
      | mk w1 w2 w3 => exact Option.isSome_iff_exists.1 (w3.2 n.cls_eq)
    rw [childTag, hname]
    cases hns : d.ns with
    | none => simp
    | some u =>
      refine ⟨fun e => ?_, fun e => ?_⟩
      · simp [qual] at e
      · cases e.1
  have hat : Content env .text d.attrs (textNode t ++ ns) ↔ d.attrs = [] ∧ elems ns = [] := by
    constructor
    · intro hc
      have e : d.attrs = [] := by
        rcases hc with hc | ⟨-, hc | hc⟩ <;> exact (text_iff.1 hc).1
      rw [e, content_text, elems_text_append] at hc
      exact ⟨e, hc⟩
    · rintro ⟨e, e'⟩
      rw [e, content_text, elems_text_append]
      exact e'
  rw [elem_single, Phenomenon]
  simp only [Obj.data_mk, Obj.kids_mk]
  constructor
  · rintro ⟨tag, as, ks, e, h1, h2⟩
    cases e
    obtain ⟨g1, g2⟩ := htag.1 h1
    obtain ⟨g3, g4⟩ := hat.1 h2
    exact ⟨g1, g2, g3, hk.1 g4⟩
  · rintro ⟨g1, g2, g3, g4⟩
    exact ⟨_, _, _, rfl, htag.2 ⟨g1, g2⟩, hat.2 ⟨g3, hk.2 g4⟩⟩

/-- a list of phenomena -/
theorem phenomena_content {eff d kids} (n : XNode eff .metaC d [] kids) {t : Option Str} {ns : List Node}
    (ht : t = d.text ∨ (blank d.text = true ∧ Ws (t.getD []))) (hws : WsOnly ns) (ha : All2 Wrote ([] ++ kids) (elems ns)) :
    Content env phenomena [] (textNode t ++ ns) ↔ d.text = none ∧ ∀ c ∈ kids, Phenomenon c := by
  rw [phenomena, content_star (elemLike_elem _ _), elems_text_append]
  rw [List.nil_append] at ha
  refine and_congr ?_ (all2_iff ha fun x hx nd hnd => ?_)
  · constructor
    · intro h
      cases htx : d.text with
      | none => rfl
      | some s =>
        exfalso
        obtain ⟨c, hc, hsp⟩ := n.kept.metas (.inl n.cls_eq) s htx
        rcases ht with rfl | ⟨hb, -⟩
        · have hne : s ≠ [] := by rintro rfl; cases hc
          have := h s (by rw [htx]; simp [textNode, hne])
          rw [ws_blank (this c hc)] at hsp; cases hsp
        · rw [htx] at hb
          rw [blank_iff.1 hb c hc] at hsp; cases hsp
    · intro h s hs
      rcases List.mem_append.1 hs with hs | hs
      · rcases ht with rfl | ⟨-, hw⟩
        · rw [h] at hs; cases hs
        · exact wsOnly_textNode hw s hs
      · exact hws s hs
  · have hcx := n.kids_cls x hx
    have nx := XNode.of (x := x) (by injection hcx) (n.kids_wf x hx) (n.kids_valid x hx) (n.kept_kids x hx)
    obtain ⟨d', md', kids'⟩ := x
    exact phenomenon_iff nx hnd

theorem meta_abkhaz (he : env ANY = AnyElement) {eff d md kids} (n : XNode eff .metaC d md kids) {nd : Node}
    (h : Wrote (.mk d md kids) nd) : Matches env (.choice abkhazMeta (metaFile defaultNames)) [] [nd] ↔ MetaFitsA (.mk d md kids) := by
  have hD := meta_default he n h
  have hmd : md = [] := n.md_nil rfl
  subst hmd
  have hany := fun {t : Option Str} {ns : List Node} => any_content he n (t := t) (ns := ns)
  have kv : ∀ w : Str, Solid w → (Matches env (metaFile { defaultNames₁ with metaType := value w, metaAttrs := att (lit! "value") .text }) [] [nd] ↔
      OptId d ∧ (∀ v, d.type = some v → OneOf [w] v) ∧ ValueAttrs d.attrs ∧ MetaText false (.mk d [] kids)) := fun w hw =>
    kindC_iff rfl rfl (x := valueSpec) (Same.refl _).n fresh_value (anyContent_noAttr he) (fun v => oneOf_one hw) (fun _ => value_atts) hany n h
  have kp : Matches env (metaFile { defaultNames₁ with metaType := value (lit! "phenomena") } phenomena) [] [nd] ↔
      OptId d ∧ (∀ v, d.type = some v → OneOf [lit! "phenomena"] v) ∧ OnlyBase d.attrs ∧ (d.text = none ∧ ∀ c ∈ kids, Phenomenon c) :=
    kindC_iff rfl rfl (x := []) Same.empty_left.n ⟨.nil, by simp⟩ (star_noAttr (elemLike_elem _ _).noAttr) (fun v => oneOf_one (by decide)) (fun _ => plain_atts)
      (phenomena_content n) n h
  rw [choice_iff] at hD ⊢
  rw [abkhazMeta]
  simp only [choice_iff]
  rw [kv _ (by decide), kv _ (by decide), kp, MetaFitsA, ← hD]
  have ho : ∀ v, OneOf [lit! "vetted", lit! "judgment"] v ↔ OneOf [lit! "vetted"] v ∨ OneOf [lit! "judgment"] v := by simp [OneOf]
  have hp : ∀ v, Word (lit! "phenomena") v ↔ OneOf [lit! "phenomena"] v := by simp [OneOf]
  simp only [ho, hp, Obj.data_mk, Obj.kids_mk]
  constructor
  · rintro ((h | h | h | h) | h)
    · exact .inl (.inl h)
    · exact .inr (.inl ⟨h.1, fun v hv => .inl (h.2.1 v hv), h.2.2⟩)
    · exact .inr (.inl ⟨h.1, fun v hv => .inr (h.2.1 v hv), h.2.2⟩)
    · exact .inr (.inr h)
    · exact .inl (.inr h)
  · rintro ((h | h) | ⟨h1, h2, h3⟩ | h)
    · exact .inl (.inl h)
    · exact .inr h
    · cases hty : d.type with
      | none => exact .inl (.inr (.inl ⟨h1, by simp, h3⟩))
      | some v =>
        rcases h2 v hty with g | g
        · exact .inl (.inr (.inl ⟨h1, fun w hw => by cases hw; exact g, h3⟩))
        · exact .inl (.inr (.inr (.inl ⟨h1, fun w hw => by cases hw; exact g, h3⟩)))
    · exact .inl (.inr (.inr (.inr h)))

theorem abkhazMeta_elem : ElemLike env (.choice abkhazMeta (metaFile defaultNames)) := by
  have h : ElemLike env defaultMeta := elemLike_not.choice ((elemLike_elem _ _).choice ((elemLike_elem _ _).choice ((elemLike_elem _ _).choice ((elemLike_elem _ _).choice
    ((elemLike_elem _ _).choice (elemLike_elem _ _))))))
  exact (h.choice ((elemLike_elem _ _).choice ((elemLike_elem _ _).choice (elemLike_elem _ _)))).choice (elemLike_elem _ _)

/-- names that concern metadata are as in the schema -/
structure AbkhazMd (p : Names) : Prop where
  base : p.baseAttrs = BaseAttrs
  mdId : p.metadataId = Id
  mdType : p.metadataType = .choice (value (lit! "xigt-meta")) .empty
  mdAttrs : p.metadataAttrs = .empty
  metaP : p.metaP = abkhazMeta
  plain : metaFile p = metaFile defaultNames

theorem md_abkhaz (he : env ANY = AnyElement) {p : Names} (hp : AbkhazMd p) {eff d md kids} (n : XNode eff .metadata d md kids) {nd : Node}
    (h : Wrote (.mk d md kids) nd) : Matches env (metadataFile p) [] [nd] ↔ MdFitsA (.mk d md kids) := by
  obtain ⟨t, ns, rfl, hn, ht, hws, ha⟩ := h.inv (by rw [n.cls_eq]; decide)
  rw [n.cls_eq]
  have hmd : md = [] := n.md_nil rfl
  subst hmd
  simp only [metadataFile, hp.base, hp.mdId, hp.mdType, hp.mdAttrs, hp.metaP, hp.plain]
  have hs : SameN env (.group .empty (.star (.choice abkhazMeta (metaFile defaultNames)))) (attsPat [] (.star (.choice abkhazMeta (metaFile defaultNames)))) :=
    Same.empty_left.n
  rw [show clsTag .metadata = lit! "metadata" from rfl, elem_wrote, metaG n.kept hs ⟨.nil, by simp⟩ (star_noAttr abkhazMeta_elem.noAttr) hn,
    plain_atts, content_star abkhazMeta_elem, elems_text_append, MdFitsA, and_assoc, and_assoc]
  refine and_congr_right fun _ => and_congr ?_ (and_congr_right fun _ => ?_)
  · have e : ∀ v, Val env (.choice (value (lit! "xigt-meta")) .empty) v ↔ Ws v ∨ Word (lit! "xigt-meta") v := by
      intro v
      rw [val_choice, val_empty, oneOf_one (by decide)]
      simp [OneOf, or_comm]
    simp only [e, Obj.data_mk]
  · have hw := wrote_ws (n.text_none rfl) ht hws
    rw [List.nil_append] at ha
    simp only [Obj.kids_mk]
    rw [and_iff_right hw]
    refine all2_iff ha fun x hx nd hnd => ?_
    have hcx := n.kids_cls x hx
    have nx := XNode.of (x := x) (by injection hcx) (n.kids_wf x hx) (n.kids_valid x hx) (n.kept_kids x hx)
    obtain ⟨d', md', kids'⟩ := x
    exact meta_abkhaz he nx hnd

/-! ### Tiers -/

/-- the names that concern tiers are as in xigt.rnc, but for the types of items -/
structure AbkhazTier (p : Names) : Prop where
  base : p.baseAttrs = BaseAttrs
  itemId : p.itemId = Id
  itemAln : p.itemAln = AlgnExpr
  itemCnt : p.itemCnt = AlgnExpr
  itemSeg : p.itemSeg = AlgnExpr
  itemAttrs : p.itemAttrs = .empty
  item : p.item = .notAllowed
  tierId : p.tierId = Id
  tierAln : p.tierAln = Id
  tierCnt : p.tierCnt = Id
  tierSeg : p.tierSeg = Id
  tierAttrs : p.tierAttrs = .empty
  tierMetadata : p.tierMetadata = .star .notAllowed
  metadata : p.metadata = .notAllowed
  md : AbkhazMd p

theorem itemA_iff {p : Names} (hp : AbkhazTier p) {T : Str → Prop} (hT : ∀ v, Val env p.itemType v ↔ T v) {eff d md kids} (n : XNode eff .item d md kids) {nd : Node}
    (h : Wrote (.mk d md kids) nd) : Matches env (itemFile p) [] [nd] ↔ ItemFitsD T (.mk d md kids) := by
  obtain ⟨t, ns, rfl, hn, ht, hws, ha⟩ := h.inv (by rw [n.cls_eq]; decide)
  rw [n.cls_eq]
  have hmd : md = [] := n.md_nil rfl
  have hkd : kids = [] := List.eq_nil_iff_forall_not_mem.2 fun x hx => nomatch n.kids_cls x hx
  subst hmd hkd
  rw [itemFile, show clsTag .item = lit! "item" from rfl, elem_wrote]
  simp only [hp.base, hp.itemId, hp.itemAln, hp.itemCnt, hp.itemSeg, hp.itemAttrs]
  rw [refs_content n.kept text_noAttr hn (fun _ => algn_val), content_text, elems_text_append, ItemFitsD]
  simp only [hT, Obj.data_mk]
  exact and_iff_left (List.length_eq_zero_iff.1 (all2_length ha).symm)

theorem tierA_iff (he : env ANY = AnyElement) {p : Names} (hp : AbkhazTier p) {T : Str → Prop} (hT : ∀ v, Val env p.itemType v ↔ T v) {ty : Pat} {S : Str → Prop} (hS : ∀ v, Val env ty v ↔ S v)
    {eff d md kids} (n : XNode eff .tier d md kids) {nd : Node} (h : Wrote (.mk d md kids) nd) : Matches env (tierFile p ty) [] [nd] ↔
      (HasId d ∧ RefsX IdFits d.attrs ∧ ∀ m ∈ md, MdFitsA m) ∧ (∀ v, d.type = some v → S v) ∧ ∀ i ∈ kids, ItemFitsD T i := by
  obtain ⟨t, ns, rfl, hn, ht, hws, ha⟩ := h.inv (by rw [n.cls_eq]; decide)
  rw [n.cls_eq, tierFile, show clsTag .tier = lit! "tier" from rfl, elem_wrote]
  simp only [hp.base, hp.tierId, hp.tierAln, hp.tierCnt, hp.tierSeg, hp.tierAttrs, hp.tierMetadata, hp.metadata, hp.item]
  have eA : ElemLike env (metadataFile p) := elemLike_elem _ _
  have eB : ElemLike env (itemFile p) := elemLike_elem _ _
  have hkc : ∀ x ∈ kids, x.cls = .item := fun x hx => by
    have := n.kids_cls x hx
    injection this
  rw [refs_content n.kept (outer_noAttr eA eB) hn (fun _ => id_val), outer_same.content,
    two_wrote eA eB ha (wrote_ws (n.text_none rfl) ht hws) n.md_cls hkc (by decide) (by decide) (fun _ h => elem_tag h) (fun _ h => elem_tag h)
      (P := MdFitsA) (Q := ItemFitsD T) (fun x hx nd hw => by
        have nx := XNode.of (x := x) (n.md_cls x hx) (n.md_wf x hx) (n.md_valid x hx) (n.kept_md x hx)
        obtain ⟨d', md', kids'⟩ := x
        exact md_abkhaz he hp.md nx hw) (fun x hx nd hw => by
        have nx := XNode.of (x := x) (hkc x hx) (n.kids_wf x hx) (n.kids_valid x hx) (n.kept_kids x hx)
        obtain ⟨d', md', kids'⟩ := x
        exact itemA_iff hp hT nx hw)]
  simp only [hS]
  constructor
  · exact fun ⟨⟨h1, h2, h3⟩, h5, h4⟩ => ⟨⟨h1, h3, h5⟩, h2, h4⟩
  · exact fun ⟨⟨h1, h3, h5⟩, h2, h4⟩ => ⟨⟨h1, h2, h3⟩, h5, h4⟩

def childSpec (r : Pat) : AttSpec := [(lit! "children", true, r)]

theorem fresh_child {r : Pat} : Fresh (childSpec r) := by
  refine ⟨by simp [childSpec], fun s hs => ?_⟩
  cases List.mem_singleton.1 hs
  show lit! "children" ∉ _
  decide

theorem tree_atts {a : List (Str × Str)} :
    (Atts env (baseSpec ++ acSpec Id ++ childSpec Id) a ∨ Atts env (baseSpec ++ segSpec Id ++ childSpec Id) a) ↔ TreeRefs a := by
  rw [List.append_assoc, List.append_assoc, atts_base_append, atts_base_append, TreeRefs]
  simp only [acSpec, segSpec, childSpec, List.cons_append, List.nil_append, List.mem_cons, List.not_mem_nil, or_false, forall_eq_or_imp, forall_eq, exists_eq_or_imp,
    exists_eq_left, Bool.false_eq_true, false_imp_iff, true_imp_iff, true_and, id_val, @eq_comm Str _]
  have hb : ∀ {k v : Str}, BaseAttr k v → k ≠ ALN ∧ k ≠ CNT ∧ k ≠ SEG := by
    rintro k v (rfl | ⟨rfl, -⟩) <;> decide
  constructor
  · rintro (⟨h1, h2⟩ | ⟨h1, h2⟩)
    · refine ⟨fun k v hx => ?_, .inl fun v hx => ?_, h1⟩
      · rcases h2 k v hx with h | ⟨h, g⟩ | ⟨h, g⟩ | ⟨h, g⟩
        · exact .inl h
        · exact .inr ⟨.inl h, g⟩
        · exact .inr ⟨.inr (.inl h), g⟩
        · exact .inr ⟨.inr (.inr (.inr h)), g⟩
      · rcases h2 _ v hx with h | ⟨h, g⟩ | ⟨h, g⟩ | ⟨h, g⟩
        · exact (hb h).2.2 rfl
        · exact absurd h (by decide)
        · exact absurd h (by decide)
        · exact absurd h (by decide)
    · refine ⟨fun k v hx => ?_, .inr ⟨fun v hx => ?_, fun v hx => ?_⟩, h1⟩
      · rcases h2 k v hx with h | ⟨h, g⟩ | ⟨h, g⟩
        · exact .inl h
        · exact .inr ⟨.inr (.inr (.inl h)), g⟩
        · exact .inr ⟨.inr (.inr (.inr h)), g⟩
      · rcases h2 _ v hx with h | ⟨h, g⟩ | ⟨h, g⟩
        · exact (hb h).1 rfl
        · exact absurd h (by decide)
        · exact absurd h (by decide)
      · rcases h2 _ v hx with h | ⟨h, g⟩ | ⟨h, g⟩
        · exact (hb h).2.1 rfl
        · exact absurd h (by decide)
        · exact absurd h (by decide)
  · rintro ⟨h1, h2 | ⟨h2, h3⟩, h4⟩
    · refine .inl ⟨h4, fun k v hx => ?_⟩
      rcases h1 k v hx with h | ⟨h | h | h | h, g⟩
      · exact .inl h
      · exact .inr (.inl ⟨h, g⟩)
      · exact .inr (.inr (.inl ⟨h, g⟩))
      · subst h; exact absurd hx (h2 v)
      · exact .inr (.inr (.inr ⟨h, g⟩))
    · refine .inr ⟨h4, fun k v hx => ?_⟩
      rcases h1 k v hx with h | ⟨h | h | h | h, g⟩
      · exact .inl h
      · subst h; exact absurd hx (h2 v)
      · subst h; exact absurd hx (h3 v)
      · exact .inr (.inl ⟨h, g⟩)
      · exact .inr (.inr ⟨h, g⟩)

theorem node_atts {a : List (Str × Str)} : Atts env (baseSpec ++ childSpec AlgnExpr) a ↔ NodeRefs a := by
  rw [childSpec, one_atts, NodeRefs]
  simp only [algn_val]

theorem nodeItem_iff {eff d md kids} (n : XNode eff .item d md kids) {nd : Node} (h : Wrote (.mk d md kids) nd) :
    Matches env (itemFile { abkhazNames₂ with itemAttrs := att (lit! "children") AlgnExpr } .empty) [] [nd] ↔ HasId d ∧ BlankType d ∧ NodeRefs d.attrs := by
  obtain ⟨t, ns, rfl, hn, ht, hws, ha⟩ := h.inv (by rw [n.cls_eq]; decide)
  rw [n.cls_eq]
  have hmd : md = [] := n.md_nil rfl
  have hkd : kids = [] := List.eq_nil_iff_forall_not_mem.2 fun x hx => nomatch n.kids_cls x hx
  subst hmd hkd
  rw [itemFile, show clsTag .item = lit! "item" from rfl, elem_wrote]
  have hs : Same env (.group (att (lit! "id") Id) (.group BaseAttrs (.group .empty (.group (.opt (att (lit! "type") .empty)) (.group (att (lit! "children") AlgnExpr) .text)))))
      (attsPat ((lit! "id", true, Id) :: (baseSpec ++ ([] ++ ((lit! "type", false, .empty) :: childSpec AlgnExpr)))) .text) :=
    .right (.trans (.right .empty_left) base_same)
  have n1 : (((lit! "id", true, Id) :: (baseSpec ++ ([] ++ ((lit! "type", false, .empty) :: childSpec AlgnExpr)))).map (·.1)).Nodup := by
    show [lit! "id", xmlName (lit! "lang"), xmlName (lit! "space"), lit! "type", lit! "children"].Nodup
    decide
  have g : ∀ k ∈ [lit! "id", lit! "type"], k ∉ ((baseSpec ++ [] ++ childSpec AlgnExpr : AttSpec).map (·.1)) := by
    show ∀ k ∈ [lit! "id", lit! "type"], k ∉ [xmlName (lit! "lang"), xmlName (lit! "space"), lit! "children"]
    decide
  refine hs.content.trans ?_
  rw [attsPat_content text_noAttr n1 hn, atts_perm spec_perm', has_type n.kept (g _ (by simp)) (g _ (by simp)), List.append_nil, node_atts, content_text, elems_text_append]
  simp only [val_empty, BlankType]
  exact and_iff_left (List.length_eq_zero_iff.1 (all2_length ha).symm)

theorem plainA : AbkhazTier abkhazNames₂ := ⟨rfl, rfl, rfl, rfl, rfl, rfl, rfl, rfl, rfl, rfl, rfl, rfl, rfl, rfl, ⟨rfl, rfl, rfl, rfl, rfl, rfl⟩⟩

theorem nodeTier_iff (he : env ANY = AnyElement) {eff d md kids} (n : XNode eff .tier d md kids) {nd : Node} (h : Wrote (.mk d md kids) nd) :
    Matches env (nodeTier abkhazNames₂) [] [nd] ↔ TreeTier (.mk d md kids) := by
  obtain ⟨t, ns, rfl, hn, ht, hws, ha⟩ := h.inv (by rw [n.cls_eq]; decide)
  rw [nodeTier, n.cls_eq, tierFile, show clsTag .tier = lit! "tier" from rfl, elem_wrote]
  generalize hp : ({ abkhazNames₂ with tierAttrs := att (lit! "children") Id, item := nodeItem abkhazNames₂ } : Names) = p
  have hmd : AbkhazMd p := by subst hp; exact ⟨rfl, rfl, rfl, rfl, rfl, rfl⟩
  have hi : itemFile p = itemFile abkhazNames₂ := by subst hp; rfl
  have e1 : p.tierId = Id ∧ p.baseAttrs = BaseAttrs ∧ p.tierAln = Id ∧ p.tierCnt = Id ∧ p.tierSeg = Id ∧ p.tierAttrs = att (lit! "children") Id ∧
      p.tierMetadata = .star .notAllowed ∧ p.metadata = .notAllowed ∧ p.item = nodeItem abkhazNames₂ := by
    subst hp; exact ⟨rfl, rfl, rfl, rfl, rfl, rfl, rfl, rfl, rfl⟩
  obtain ⟨e1, e2, e3, e4, e5, e6, e7, e8, e9⟩ := e1
  simp only [e1, e2, e3, e4, e5, e6, e7, e8, e9, hi]
  have eA : ElemLike env (metadataFile p) := elemLike_elem _ _
  have eB : ElemLike env (.choice (nodeItem abkhazNames₂) (itemFile abkhazNames₂)) := ((elemLike_elem _ _).choice (elemLike_elem _ _)).choice (elemLike_elem _ _)
  have hs : Same env (.group (.star (.choice (.star .notAllowed) (.choice .notAllowed (metadataFile p)))) (.star (.choice (nodeItem abkhazNames₂) (itemFile abkhazNames₂))))
      (.group (.star (metadataFile p)) (.star (.choice (nodeItem abkhazNames₂) (itemFile abkhazNames₂)))) := .group absorb (.refl _)
  have hq : NoAttr env (.group (.star (.choice (.star .notAllowed) (.choice .notAllowed (metadataFile p)))) (.star (.choice (nodeItem abkhazNames₂) (itemFile abkhazNames₂)))) :=
    fun a ns h => group_noAttr (star_noAttr eA.noAttr) (star_noAttr eB.noAttr) a ns ((hs a ns).1 h)
  have hkc : ∀ x ∈ kids, x.cls = .item := fun x hx => by
    have := n.kids_cls x hx
    injection this
  have hE : ∀ v, Val env abkhazNames₂.itemType v ↔ Ws v := fun v => val_empty
  refine (refs_content' n.kept (x := childSpec Id) (.refl _) fresh_child hq hn).trans ?_
  rw [hs.content, tree_atts, two_wrote (c := .item) eA eB ha (wrote_ws (n.text_none rfl) ht hws) n.md_cls hkc (by decide) (by decide) (fun _ h => elem_tag h)
      (choice_tag (choice_tag (fun _ h => elem_tag h) fun _ h => elem_tag h) fun _ h => elem_tag h)
      (P := MdFitsA) (Q := fun i => ItemFitsX i ∨ (HasId i.data ∧ BlankType i.data ∧ NodeRefs i.data.attrs)) (fun x hx nd hw => by
        have nx := XNode.of (x := x) (n.md_cls x hx) (n.md_wf x hx) (n.md_valid x hx) (n.kept_md x hx)
        obtain ⟨d', md', kids'⟩ := x
        exact md_abkhaz he hmd nx hw) (fun x hx nd hw => by
        have nx := XNode.of (x := x) (hkc x hx) (n.kids_wf x hx) (n.kids_valid x hx) (n.kept_kids x hx)
        obtain ⟨d', md', kids'⟩ := x
        rw [choice_iff, nodeItem, choice_iff, itemA_iff plainA hE nx hw, nodeItem_iff nx hw]
        constructor
        · rintro ((h | h) | h)
          · exact .inl h
          · exact .inr h
          · exact .inl h
        · rintro (h | h)
          · exact .inr h
          · exact .inl (.inr h)), TreeTier, and_assoc, and_assoc]
  simp only [word_val (w := lit! "syntax") (by decide), Obj.data_mk, Obj.md_mk, Obj.kids_mk]

theorem tier_abkhaz (he : env ANY = AnyElement) {eff d md kids} (n : XNode eff .tier d md kids) {nd : Node} (h : Wrote (.mk d md kids) nd) :
    Matches env (.choice abkhazNames.tier (tierFile abkhazNames)) [] [nd] ↔ TierFitsA (.mk d md kids) := by
  simp only [abkhazNames, tiersOf, choice_iff]
  have e1 : AbkhazTier { abkhazNames₂ with itemType := .choice (value (lit! "original")) (value (lit! "transliteration")) } :=
    ⟨rfl, rfl, rfl, rfl, rfl, rfl, rfl, rfl, rfl, rfl, rfl, rfl, rfl, rfl, ⟨rfl, rfl, rfl, rfl, rfl, rfl⟩⟩
  have e3 : AbkhazTier { abkhazNames₂ with itemType := .choice (value (lit! "affix")) (value (lit! "clitic")) } :=
    ⟨rfl, rfl, rfl, rfl, rfl, rfl, rfl, rfl, rfl, rfl, rfl, rfl, rfl, rfl, ⟨rfl, rfl, rfl, rfl, rfl, rfl⟩⟩
  have e4 : AbkhazTier { abkhazNames₂ with itemType := .choice (value (lit! "leipzig")) (value (lit! "lexeme")) } :=
    ⟨rfl, rfl, rfl, rfl, rfl, rfl, rfl, rfl, rfl, rfl, rfl, rfl, rfl, rfl, ⟨rfl, rfl, rfl, rfl, rfl, rfl⟩⟩
  have e5 : AbkhazTier abkhazNames := ⟨rfl, rfl, rfl, rfl, rfl, rfl, rfl, rfl, rfl, rfl, rfl, rfl, rfl, rfl, ⟨rfl, rfl, rfl, rfl, rfl, rfl⟩⟩
  have hE : ∀ v, Val env abkhazNames₂.itemType v ↔ Ws v := fun v => val_empty
  have hN : ∀ v, Val env .notAllowed v ↔ False := fun v => ⟨val_none, False.elim⟩
  rw [tierA_iff he e1 (fun v => oneOf_two (by decide) (by decide)) (fun v => oneOf_one (by decide)) n h,
    tierA_iff he plainA hE (fun v => oneOf_one (w := lit! "words") (by decide)) n h,
    tierA_iff he e3 (fun v => oneOf_two (by decide) (by decide)) (fun v => oneOf_one (by decide)) n h,
    tierA_iff he e4 (fun v => oneOf_two (by decide) (by decide)) (fun v => oneOf_one (by decide)) n h,
    tierA_iff he plainA hE (fun v => oneOf_one (w := lit! "translations") (by decide)) n h, nodeTier_iff he n h]
  have h5 := tierA_iff he e5 hE hN n h
  simp only [abkhazNames, tiersOf] at h5
  rw [h5, TierFitsA]
  simp only [tierTable, List.mem_cons, List.not_mem_nil, or_false, exists_eq_or_imp, exists_eq_left, Obj.data_mk, Obj.kids_mk, Obj.md_mk]
  constructor
  · rintro (((h | h | h | h | h | h) | h) | h)
    · cases h
    · exact .inl ⟨h.1.1, h.1.2.1, h.1.2.2, .inl h.2⟩
    · exact .inl ⟨h.1.1, h.1.2.1, h.1.2.2, .inr (.inl h.2)⟩
    · exact .inl ⟨h.1.1, h.1.2.1, h.1.2.2, .inr (.inr (.inl h.2))⟩
    · exact .inl ⟨h.1.1, h.1.2.1, h.1.2.2, .inr (.inr (.inr (.inl h.2)))⟩
    · exact .inl ⟨h.1.1, h.1.2.1, h.1.2.2, .inr (.inr (.inr (.inr (.inl h.2))))⟩
    · exact .inr h
    · exact .inl ⟨h.1.1, h.1.2.1, h.1.2.2, .inr (.inr (.inr (.inr (.inr h.2))))⟩
  · rintro (⟨h1, h1', h2, h | h | h | h | h | h⟩ | h)
    · exact .inl (.inl (.inr (.inl ⟨⟨h1, h1', h2⟩, h⟩)))
    · exact .inl (.inl (.inr (.inr (.inl ⟨⟨h1, h1', h2⟩, h⟩))))
    · exact .inl (.inl (.inr (.inr (.inr (.inl ⟨⟨h1, h1', h2⟩, h⟩)))))
    · exact .inl (.inl (.inr (.inr (.inr (.inr (.inl ⟨⟨h1, h1', h2⟩, h⟩))))))
    · exact .inl (.inl (.inr (.inr (.inr (.inr (.inr ⟨⟨h1, h1', h2⟩, h⟩))))))
    · exact .inr ⟨⟨h1, h1', h2⟩, h⟩
    · exact .inl (.inr h)

theorem igt_abkhaz (he : env ANY = AnyElement) {eff d md kids} (n : XNode eff .igt d md kids) {nd : Node} (h : Wrote (.mk d md kids) nd) :
    Matches env (igtFile abkhazNames) [] [nd] ↔ IgtFitsA (.mk d md kids) := by
  obtain ⟨t, ns, rfl, hn, ht, hws, ha⟩ := h.inv (by rw [n.cls_eq]; decide)
  rw [n.cls_eq, igtFile, show clsTag .igt = lit! "igt" from rfl, elem_wrote]
  have eA : ElemLike env (metadataFile abkhazNames) := elemLike_elem _ _
  have eT : ElemLike env abkhazNames.tier := (elemLike_not.choice ((elemLike_elem _ _).choice ((elemLike_elem _ _).choice ((elemLike_elem _ _).choice
    ((elemLike_elem _ _).choice (elemLike_elem _ _)))))).choice (elemLike_elem _ _)
  have eB : ElemLike env (.choice abkhazNames.tier (tierFile abkhazNames)) := eT.choice (elemLike_elem _ _)
  have tB : ∀ n, Matches env (.choice abkhazNames.tier (tierFile abkhazNames)) [] [n] → tagOf n = lit! "tier" := by
    refine choice_tag (choice_tag ?_ fun _ h => elem_tag h) fun _ h => elem_tag h
    refine choice_tag not_tag ?_
    iterate 4 refine choice_tag (fun _ h => elem_tag h) ?_
    exact fun _ h => elem_tag h
  have hkc : ∀ x ∈ kids, x.cls = .tier := fun x hx => by
    have := n.kids_cls x hx
    injection this
  have hs : Same env (.group (.star (.choice (.star .notAllowed) (.choice .notAllowed (metadataFile abkhazNames)))) (.star (.choice abkhazNames.tier (tierFile abkhazNames))))
      (.group (.star (metadataFile abkhazNames)) (.star (.choice abkhazNames.tier (tierFile abkhazNames)))) := .group absorb (.refl _)
  have hq : NoAttr env (.group (.star (.choice (.star .notAllowed) (.choice .notAllowed (metadataFile abkhazNames)))) (.star (.choice abkhazNames.tier (tierFile abkhazNames)))) :=
    fun a ns h => group_noAttr (star_noAttr eA.noAttr) (star_noAttr eB.noAttr) a ns ((hs a ns).1 h)
  refine igt_same.content.trans ?_
  refine (attsPat_content hq nodup_base' hn).trans ?_
  rw [has_atts n.kept, hs.content,
    two_wrote (c := .tier) eA eB ha (wrote_ws (n.text_none rfl) ht hws) n.md_cls hkc (by decide) (by decide) (fun _ h => elem_tag h) tB
      (P := MdFitsA) (Q := TierFitsA) (fun x hx nd hw => by
        have nx := XNode.of (x := x) (n.md_cls x hx) (n.md_wf x hx) (n.md_valid x hx) (n.kept_md x hx)
        obtain ⟨d', md', kids'⟩ := x
        exact md_abkhaz (p := abkhazNames) he ⟨rfl, rfl, rfl, rfl, rfl, rfl⟩ nx hw) (fun x hx nd hw => by
        have nx := XNode.of (x := x) (hkc x hx) (n.kids_wf x hx) (n.kids_valid x hx) (n.kept_kids x hx)
        obtain ⟨d', md', kids'⟩ := x
        exact tier_abkhaz he nx hw), IgtFitsA, and_assoc, and_assoc]
  rfl

/-- documents that were written for a corpus -/
theorem core_abkhaz {eff d md kids} (n : XNode eff .corpus d md kids) {doc : Node} (h4 : Wrote (.mk d md kids) doc) :
    Valid abkhaz_rnc doc ↔ CorpusFitsA (.mk d md kids) := by
  have he : abkhaz_rnc.defs ANY = AnyElement := by simp [abkhaz_rnc, grammar]
  obtain ⟨t, ns, rfl, hn, ht, hws, ha⟩ := h4.inv (by rw [show d.cls = .corpus from n.cls_eq]; decide)
  have eA : ElemLike abkhaz_rnc.defs (metadataFile abkhazNames) := elemLike_elem _ _
  have eB : ElemLike abkhaz_rnc.defs (igtFile abkhazNames) := elemLike_elem _ _
  have hkc : ∀ x ∈ kids, x.cls = .igt := fun x hx => by
    have := n.kids_cls x hx
    injection this
  rw [show d.cls = .corpus from n.cls_eq]
  show Matches _ (.elem (.name (lit! "xigt-corpus")) _) [] [.elem (lit! "xigt-corpus") _ _] ↔ _
  rw [elem_wrote]
  refine meta_same.content.trans ?_
  refine (attsPat_content (outer_noAttr eA eB) nodup_base hn).trans ?_
  rw [outer_same.content, two_wrote (c := .igt) eA eB ha (wrote_ws (n.text_none rfl) ht hws) n.md_cls hkc (by decide) (by decide) (fun _ h => elem_tag h)
      (fun _ h => elem_tag h) (P := MdFitsA) (Q := IgtFitsA) (fun x hx nd hw => by
        have nx := XNode.of (x := x) (n.md_cls x hx) (n.md_wf x hx) (n.md_valid x hx) (n.kept_md x hx)
        obtain ⟨d', md', kids'⟩ := x
        exact md_abkhaz (p := abkhazNames) he ⟨rfl, rfl, rfl, rfl, rfl, rfl⟩ nx hw) (fun x hx nd hw => by
        have nx := XNode.of (x := x) (hkc x hx) (n.kids_wf x hx) (n.kids_valid x hx) (n.kept_kids x hx)
        obtain ⟨d', md', kids'⟩ := x
        exact igt_abkhaz he nx hw)]
  refine (and_congr_left' (opt_atts (d := d) n.kept)).trans ?_
  have hb : BlankType d := fun v hv => by
    have := n.kept.corpus n.cls_eq
    rw [show d.type = none from this] at hv; cases hv
  rw [CorpusFitsA]
  constructor
  · exact fun ⟨⟨h1, _, h2⟩, h4, h3⟩ => ⟨h1, h2, h4, h3⟩
  · exact fun ⟨h1, h2, h4, h3⟩ => ⟨⟨h1, hb, h2⟩, h4, h3⟩

/-- **C149**: what is written of a corpus is valid against abkhaz-xigt.rnc just in case the corpus fits it: it is as
default-xigt.rnc says, but for judgements with a value, lists of phenomena, and tiers with trees. -/
theorem C149_iff (x : Obj) (hc : x.cls = .corpus) (hw : x.WF) (hv : x.Valid) (hk : XmlKept [] x) (ind : Option Int) :
    ∃ s doc, dumpsXml ind x = .ok s ∧ docText s = .ok doc ∧ (Valid abkhaz_rnc doc ↔ CorpusFitsA x) := by
  obtain ⟨s, doc, h1, h2, -, h4⟩ := wrote_corpus x hc hw hv hk ind
  refine ⟨s, doc, h1, h2, ?_⟩
  obtain ⟨d, md, kids⟩ := x
  exact core_abkhaz (XNode.of hc hw hv hk) h4

theorem mdA_of_D {x : Obj} (h : MdFitsD x) : MdFitsA x := ⟨h.1, h.2.1, h.2.2.1, fun m hm => .inl (h.2.2.2 m hm)⟩

theorem fitsA_of_fitsD {x : Obj} (h : CorpusFitsD x) : CorpusFitsA x :=
  ⟨h.1, h.2.1, fun m hm => mdA_of_D (h.2.2.1 m hm), fun g hg =>
    let h := h.2.2.2 g hg
    ⟨h.1, h.2.1, h.2.2.1, fun m hm => mdA_of_D (h.2.2.2.1 m hm), fun t ht =>
      let h := h.2.2.2.2 t ht
      .inl ⟨h.1, h.2.1, fun m hm => mdA_of_D (h.2.2.1 m hm), h.2.2.2⟩⟩⟩

/-- **C149** (extends default-xigt.rnc): what default-xigt.rnc allows, this schema allows. -/
theorem C149_extends (x : Obj) (hc : x.cls = .corpus) (hw : x.WF) (hv : x.Valid) (hk : XmlKept [] x) (ind : Option Int) :
    ∃ s doc, dumpsXml ind x = .ok s ∧ docText s = .ok doc ∧ (Valid default_rnc doc → Valid abkhaz_rnc doc) := by
  obtain ⟨s, doc, h1, h2, h3⟩ := C149_iff x hc hw hv hk ind
  obtain ⟨s', doc', g1, g2, g3⟩ := C120_iff x hc hw hv hk ind
  rw [h1] at g1; cases g1
  rw [h2] at g2; cases g2
  exact ⟨s, doc, h1, h2, fun h => h3.2 (fitsA_of_fitsD (g3.1 h))⟩

/-- **C149** (syntax tiers): in a valid document the tiers of the type `syntax` tell where children are. -/
theorem C149_syntax (x : Obj) (hc : x.cls = .corpus) (hw : x.WF) (hv : x.Valid) (hk : XmlKept [] x) (ind : Option Int) :
    ∃ s doc, dumpsXml ind x = .ok s ∧ docText s = .ok doc ∧ (Valid abkhaz_rnc doc →
      ∀ g ∈ x.kids, ∀ t ∈ g.kids, t.data.type = some (lit! "syntax") → ∃ v, (lit! "children", v) ∈ t.data.attrs ∧ IdFits v) := by
  obtain ⟨s, doc, h1, h2, h3⟩ := C149_iff x hc hw hv hk ind
  refine ⟨s, doc, h1, h2, fun h g hg t ht hty => ?_⟩
  rcases ((h3.1 h).2.2.2 g hg).2.2.2.2 t ht with ⟨-, -, -, u, hu, g1, -⟩ | hT
  · exfalso
    have g1 := g1 _ hty
    have no : ∀ w, Solid w → lit! "syntax" ≠ w → ¬ OneOf [w] (lit! "syntax") := by
      rintro w hs hne ⟨w', hw', e⟩
      cases List.mem_singleton.1 hw'
      rw [← tokens_iff hs.1 hs.2, tokens_one (w := lit! "syntax") (by decide) (by decide)] at e
      injection e with e
      exact hne e
    simp only [tierTable, List.mem_cons, List.not_mem_nil, or_false] at hu
    rcases hu with rfl | rfl | rfl | rfl | rfl | rfl
    · exact no _ (by decide) (by decide) g1
    · exact no _ (by decide) (by decide) g1
    · exact no _ (by decide) (by decide) g1
    · exact no _ (by decide) (by decide) g1
    · exact no _ (by decide) (by decide) g1
    · exact g1
  · obtain ⟨-, -, ⟨r1, -, r3⟩, -, -⟩ := hT
    obtain ⟨v, hv⟩ := lacks_iff.1 r3
    refine ⟨v, hv, ?_⟩
    rcases r1 _ _ hv with (e | ⟨e, -⟩) | ⟨-, e⟩
    · exact absurd e (by decide)
    · exact absurd e (by decide)
    · exact e

end

section
attribute [local instance] asciiUni asciiXml asciiXsd

def childAttrs : List (Str × Str) := [(lit! "alignment", lit! "w"), (lit! "children", lit! "s")]

theorem treeA_fits {a b : List (Str × Str)}
    (h : TreeTier (.mk { cls := .tier, id := some (lit! "s"), type := some (lit! "syntax"), attrs := a } [] [.mk { cls := .item, id := some (lit! "s1"), attrs := b } [] []])) :
    CorpusFitsA (treeWith (lit! "syntax") a b) := by
  have hno : ∀ F, RefsX F ([] : List (Str × Str)) := fun F => ⟨by simp, .inl (by simp [Lacks])⟩
  refine ⟨(by rintro i ⟨⟩), by simp [treeWith, OnlyBase], by simp [treeWith], fun x hx => ?_⟩
  cases List.mem_singleton.1 hx
  refine ⟨⟨_, rfl, 'i', lit! "1", rfl, by decide, by decide⟩, (by rintro v ⟨⟩), by simp [OnlyBase], by simp, fun x hx => ?_⟩
  rcases List.mem_cons.1 hx with rfl | hx
  · refine .inl ⟨⟨_, rfl, fit_small (by decide)⟩, hno _, by simp, _, .tail _ (.head _), (by rintro v ⟨⟩), fun x hx => ?_⟩
    cases List.mem_singleton.1 hx
    exact ⟨⟨_, rfl, 'w', lit! "1", rfl, by decide, by decide⟩, (by rintro v ⟨⟩), hno _⟩
  · cases List.mem_singleton.1 hx
    exact .inr h

theorem childAttrs_ok : TreeRefs childAttrs := by
  refine ⟨fun n v hv => .inr ?_, .inl fun v hv => ?_, lacks_iff.2 ⟨_, .tail _ (.head _)⟩⟩
  · rcases List.mem_cons.1 hv with e | hv
    · cases e; exact ⟨.inl rfl, fit_small (by decide)⟩
    · cases List.mem_singleton.1 hv; exact ⟨.inr (.inr (.inr rfl)), fit_small (by decide)⟩
  · rcases List.mem_cons.1 hv with e | hv
    · exact absurd (congrArg Prod.fst e) (show ¬ SEG = lit! "alignment" by decide)
    · exact absurd (congrArg Prod.fst (List.mem_singleton.1 hv)) (show ¬ SEG = lit! "children" by decide)

/-- a corpus with a tree, which the default schema does not have -/
example (ind : Option Int) : ∃ s doc, dumpsXml ind (treeWith (lit! "syntax") childAttrs [(lit! "children", lit! "w1")]) = .ok s ∧ docText s = .ok doc ∧
    Valid abkhaz_rnc doc ∧ ¬ Valid default_rnc doc := by
  obtain ⟨hw, hv, hk⟩ := treeWith_fine (ty := lit! "syntax") (a := childAttrs) (b := [(lit! "children", lit! "w1")]) (by decide +kernel) (by decide +kernel)
  obtain ⟨s, doc, h1, h2, h3⟩ := C149_iff _ rfl hw hv hk ind
  obtain ⟨s', doc', g1, g2, g3⟩ := C120_iff _ rfl hw hv hk ind
  rw [h1] at g1; cases g1
  rw [h2] at g2; cases g2
  refine ⟨s, doc, h1, h2, h3.2 (treeA_fits ⟨⟨_, rfl, fit_small (by decide)⟩, (by rintro v ⟨⟩; exact word_self _), childAttrs_ok, by simp, fun x hx => ?_⟩), fun h => ?_⟩
  · cases List.mem_singleton.1 hx
    refine .inr ⟨⟨_, rfl, 's', lit! "1", rfl, by decide, by decide⟩, (by rintro v ⟨⟩), fun n v hv => ?_, lacks_iff.2 ⟨_, .head _⟩⟩
    cases List.mem_singleton.1 hv
    exact .inr ⟨rfl, algn_word⟩
  · have := (((g3.1 h).2.2.2 _ (.head _)).2.2.2.2 _ (.tail _ (.head _))).2.1.1 _ _ (.tail _ (.head _))
    rcases this with (e | ⟨e, -⟩) | ⟨e | e | e, -⟩ <;> exact absurd e (by decide)

/-- without `children` the tier is not valid -/
example (ind : Option Int) : ∃ s doc, dumpsXml ind (treeWith (lit! "syntax") [(lit! "alignment", lit! "w")] [(lit! "alignment", lit! "w1")]) = .ok s ∧ docText s = .ok doc ∧
    ¬ Valid abkhaz_rnc doc := by
  obtain ⟨hw, hv, hk⟩ := treeWith_fine (ty := lit! "syntax") (a := [(lit! "alignment", lit! "w")]) (b := [(lit! "alignment", lit! "w1")]) (by decide +kernel) (by decide +kernel)
  obtain ⟨s, doc, h1, h2, h3⟩ := C149_syntax _ rfl hw hv hk ind
  refine ⟨s, doc, h1, h2, fun h => ?_⟩
  obtain ⟨v, hv, -⟩ := h3 h _ (.head _) _ (.tail _ (.head _)) rfl
  exact absurd (congrArg Prod.fst (List.mem_singleton.1 hv)) (show ¬ lit! "children" = lit! "alignment" by decide)

/-- **C149** (what it does not say): the tier is for "Items as nodes, synrefs as edges for a parse tree" (abkhaz-xigt.rnc:18),
but an item may have no edge at all and be a segment of something. -/
theorem C149_loose (ind : Option Int) :
    ∃ s doc, dumpsXml ind (treeWith (lit! "syntax") childAttrs [(lit! "segmentation", lit! "w1")]) = .ok s ∧ docText s = .ok doc ∧ Valid abkhaz_rnc doc := by
  obtain ⟨hw, hv, hk⟩ := treeWith_fine (ty := lit! "syntax") (a := childAttrs) (b := [(lit! "segmentation", lit! "w1")]) (by decide +kernel) (by decide +kernel)
  obtain ⟨s, doc, h1, h2, h3⟩ := C149_iff _ rfl hw hv hk ind
  refine ⟨s, doc, h1, h2, h3.2 (treeA_fits ⟨⟨_, rfl, fit_small (by decide)⟩, (by rintro v ⟨⟩; exact word_self _), childAttrs_ok, by simp, fun x hx => ?_⟩)⟩
  cases List.mem_singleton.1 hx
  refine .inl ⟨⟨_, rfl, 's', lit! "1", rfl, by decide, by decide⟩, (by rintro v ⟨⟩), fun n v hv => ?_, .inr ⟨fun v hv => ?_, fun v hv => ?_⟩⟩
  · cases List.mem_singleton.1 hv
    exact .inr ⟨.inr (.inr rfl), algn_word⟩
  · exact absurd (congrArg Prod.fst (List.mem_singleton.1 hv)) (show ¬ ALN = lit! "segmentation" by decide)
  · exact absurd (congrArg Prod.fst (List.mem_singleton.1 hv)) (show ¬ CNT = lit! "segmentation" by decide)

/-- a corpus about word order -/
def phen (c : Data) : Obj :=
  .mk { cls := .corpus } [.mk { cls := .metadata } [] [.mk { cls := .metaC, type := some (lit! "phenomena") } [] [.mk c [] []]]] []

def wordOrder : Data := { cls := .metaChild, name := some (lit! "phenomenon"), text := some (lit! "word order") }
/-- the same, in an element of another name -/
def wordOrder' : Data := { cls := .metaChild, name := some (lit! "topic"), text := some (lit! "word order") }

theorem phen_ok {n : Str} (hn : XmlLex.ncName n = true) (hm : nameOK n = true) :
    let d : Data := { cls := .metaChild, name := some n, text := some (lit! "word order") }
    (phen d).WF ∧ (phen d).Valid ∧ XmlKept [] (phen d) := by
  refine ⟨wf_of_B (n := 9) (by rfl), ?_, ?_⟩
  · refine .mk (by simp) (by simp) (show ([] : List Str).Nodup from List.nodup_nil) (by simp) (by simp) ?_ (by simp)
    intro x hx
    cases List.mem_singleton.1 hx
    refine simple_valid (by simp) rfl rfl (show ([] : List Str).Nodup from List.nodup_nil) fun x hx => ?_
    cases List.mem_singleton.1 hx
    refine simple_valid (by simp) rfl rfl (show ([] : List Str).Nodup from List.nodup_nil) fun x hx => ?_
    cases List.mem_singleton.1 hx
    exact .mk (by simp) (by simp [hm]) (by simp) (by simp) (by simp) (by simp) (by simp)
  · refine .mk (by constructor <;> simp) (fun x hx => ?_) (by simp)
    cases List.mem_singleton.1 hx
    refine .mk (by constructor <;> simp) (by simp) fun x hx => ?_
    cases List.mem_singleton.1 hx
    refine .mk ?_ (by simp) fun x hx => ?_
    · constructor <;> first | (simp; done) | skip
      intro i hi; cases hi; exact chars_of (by decide)
    cases List.mem_singleton.1 hx
    refine .mk ?_ (by simp) (by simp)
    constructor <;> first | (simp; done) | skip
    · rintro -
      exact ⟨rfl, rfl, fun m hm => by cases hm; exact hn, by simp⟩
    · rintro - t ⟨⟩
      exact ⟨'w', by decide, by decide +kernel⟩
    · rintro t ⟨⟩
      exact ⟨chars_of (by decide), by decide⟩

/-- what the phenomena are is told in elements `phenomenon`, and in no others -/
example (ind : Option Int) : (∃ s doc, dumpsXml ind (phen wordOrder) = .ok s ∧ docText s = .ok doc ∧ Valid abkhaz_rnc doc) ∧
    ∃ s doc, dumpsXml ind (phen wordOrder') = .ok s ∧ docText s = .ok doc ∧ ¬ Valid abkhaz_rnc doc := by
  constructor
  · obtain ⟨hw, hv, hk⟩ := phen_ok (n := lit! "phenomenon") (by decide) (by decide)
    obtain ⟨s, doc, h1, h2, h3⟩ := C149_iff (phen wordOrder) rfl hw hv hk ind
    refine ⟨s, doc, h1, h2, h3.2 ⟨(by rintro i ⟨⟩), by simp [phen, OnlyBase], fun m hm => ?_, by simp [phen]⟩⟩
    cases List.mem_singleton.1 hm
    refine ⟨(by rintro i ⟨⟩), (by rintro v ⟨⟩), by simp [OnlyBase], fun m hm => ?_⟩
    cases List.mem_singleton.1 hm
    refine .inr (.inr ⟨(by rintro i ⟨⟩), (by rintro v ⟨⟩; exact word_self _), by simp [OnlyBase], rfl, fun c hc => ?_⟩)
    cases List.mem_singleton.1 hc
    exact ⟨rfl, rfl, rfl, rfl⟩
  · obtain ⟨hw, hv, hk⟩ := phen_ok (n := lit! "topic") (by decide) (by decide)
    obtain ⟨s, doc, h1, h2, h3⟩ := C149_iff (phen wordOrder') rfl hw hv hk ind
    refine ⟨s, doc, h1, h2, fun h => ?_⟩
    have no : ∀ w, Solid w → lit! "phenomena" ≠ w → ¬ Word w (lit! "phenomena") := by
      rintro w hs hne e
      rw [← tokens_iff hs.1 hs.2, tokens_one (w := lit! "phenomena") (by decide) (by decide)] at e
      injection e with e
      exact hne e
    have no1 : ∀ w, Solid w → lit! "phenomena" ≠ w → ¬ OneOf [w] (lit! "phenomena") := by
      rintro w hs hne ⟨w', hw', e⟩
      cases List.mem_singleton.1 hw'
      exact no _ hs hne e
    rcases ((h3.1 h).2.2.1 _ (.head _)).2.2.2 _ (.head _) with ⟨-, t, ht, h, -⟩ | ⟨-, h, -⟩ | ⟨-, -, -, -, h⟩
    · have h := h _ rfl
      simp only [metaTable, List.mem_cons, List.not_mem_nil, or_false] at ht
      rcases ht with rfl | rfl | rfl | rfl | rfl | rfl | rfl
      · exact no1 _ (by decide) (by decide) h
      · exact no1 _ (by decide) (by decide) h
      · exact no1 _ (by decide) (by decide) h
      · exact no1 _ (by decide) (by decide) h
      · exact no1 _ (by decide) (by decide) h
      · exact no1 _ (by decide) (by decide) h
      · exact absurd (h 'p' (by decide)) (by decide)
    · obtain ⟨w, hw, e⟩ := h _ rfl
      rcases List.mem_cons.1 hw with rfl | hw
      · exact no _ (by decide) (by decide) e
      · cases List.mem_singleton.1 hw; exact no _ (by decide) (by decide) e
    · exact absurd (h _ (.head _)).2.1 (by decide)

end
end Xigt.Rng
