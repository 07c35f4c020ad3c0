import Verif.Schema.DefaultMeta
/-
C140: which corpora are written as documents valid against the extensions schema/extensions/syntax.rnc and
dependencies.rnc.
-/

set_option linter.unusedSectionVars false

namespace Xigt.Rng

section
variable [Uni] [Xsd]

/-! ### The schemata -/

/-- `list { IdRef* }` (syntax.rnc:9) -/
def idList : Pat := .data fun s => ∀ w ∈ tokens s, idRx.Mem w

/-- syntax.rnc:2-11; `Item` replaces `Item = parent Item` of xigt-tier.rnc, `LocalItem` (xigt-tier.rnc:30-32)
stays. -/
def syntaxTier (p : Names) : Pat :=
  tierFile { p with item := itemFile p (.choice (att (lit! "lex") AlgnExpr) (att (lit! "nodes") idList)) }
    (value (lit! "syntax")) (.group (att (lit! "lex") Id) (att (lit! "nodes") Id))

/-- dependencies.rnc:2-11 -/
def depTier (p : Names) : Pat :=
  tierFile { p with item := itemFile p (.group (att (lit! "dep") AlgnExpr) (.opt (att (lit! "head") AlgnExpr))) }
    (value (lit! "dependencies")) (.group (att (lit! "dep") Id) (att (lit! "head") Id))

/-- syntax.rnc: `Tier |= …` stands in the body of the `include`, so that it replaces `Tier = notAllowed`
(xigt.rnc:50) -/
def syntax_rnc : Grammar := grammar { xigtNames with tier := syntaxTier xigtNames }

/-- dependencies.rnc -/
def dependencies_rnc : Grammar := grammar { xigtNames with tier := depTier xigtNames }

/-! ### The condition, without patterns -/

/-- identifiers with white space around them, or none -/
inductive IdListFits : Str → Prop
  | none {s} : Ws s → IdListFits s
  | last {a i} : Ws a → IdFits i → IdListFits (a ++ i)
  | more {a i c s} : Ws a → IdFits i → xmlSpace c = true → IdListFits s → IdListFits (a ++ i ++ c :: s)

/-- two references to tiers, both needed, and nothing else -/
def TwoRefs (k k' : Str) (a : List (Str × Str)) : Prop :=
  (∀ n v, (n, v) ∈ a → BaseAttr n v ∨ ((n = k ∨ n = k') ∧ IdFits v)) ∧ ¬ Lacks a k ∧ ¬ Lacks a k'

/-- a leaf, which refers to words, or a node, which refers to its children: not both -/
def SynRefs (a : List (Str × Str)) : Prop :=
  (∀ n v, (n, v) ∈ a → BaseAttr n v ∨ (n = lit! "lex" ∧ AlgnFits v) ∨ (n = lit! "nodes" ∧ IdListFits v)) ∧
  ((¬ Lacks a (lit! "lex") ∧ Lacks a (lit! "nodes")) ∨ (Lacks a (lit! "lex") ∧ ¬ Lacks a (lit! "nodes")))

/-- a dependent, and perhaps its head -/
def DepRefs (a : List (Str × Str)) : Prop :=
  (∀ n v, (n, v) ∈ a → BaseAttr n v ∨ ((n = lit! "dep" ∨ n = lit! "head") ∧ AlgnFits v)) ∧ ¬ Lacks a (lit! "dep")

/-- an item as in xigt.rnc, or one with the references `R` -/
def ItemFitsE (R : List (Str × Str) → Prop) (x : Obj) : Prop :=
  ItemFitsX x ∨ (HasId x.data ∧ BlankType x.data ∧ R x.data.attrs)

/-- a tier of the type `ty`, or none, with the references `k`, `k'` -/
def TierFitsE (ty k k' : Str) (R : List (Str × Str) → Prop) (x : Obj) : Prop :=
  HasId x.data ∧ (∀ v, x.data.type = some v → Word ty v) ∧ TwoRefs k k' x.data.attrs ∧ (∀ m ∈ x.md, MdFitsX m) ∧
    ∀ i ∈ x.kids, ItemFitsE R i

/-- tiers as in xigt.rnc, or those in `Q` -/
def IgtFitsE (Q : Obj → Prop) (x : Obj) : Prop :=
  HasId x.data ∧ BlankType x.data ∧ OnlyBase x.data.attrs ∧ (∀ m ∈ x.md, MdFitsX m) ∧ ∀ t ∈ x.kids, Q t ∨ TierFitsX t
def CorpusFitsE (Q : Obj → Prop) (x : Obj) : Prop :=
  OptId x.data ∧ OnlyBase x.data.attrs ∧ (∀ m ∈ x.md, MdFitsX m) ∧ ∀ t ∈ x.kids, IgtFitsE Q t

def SynTier : Obj → Prop := TierFitsE (lit! "syntax") (lit! "lex") (lit! "nodes") SynRefs
def DepTier : Obj → Prop := TierFitsE (lit! "dependencies") (lit! "dep") (lit! "head") DepRefs

end

section
variable [Uni] [XmlLex] [Xsd] {env : Str → Pat}

/-! ### Values -/

theorem fits_solid {i : Str} (h : IdFits i) : i ≠ [] ∧ ∀ c ∈ i, xmlSpace c = false := by
  obtain ⟨c, r, rfl, hc, hr⟩ := h
  have hl : ∀ x, letter x = true → xmlSpace x = false := by
    intro x h
    cases hs : xmlSpace x with
    | false => rfl
    | true =>
      simp only [xmlSpace, Bool.or_eq_true, decide_eq_true_eq] at hs
      rcases hs with ((rfl | rfl) | rfl) | rfl <;> exact absurd h (by decide)
  have hi : ∀ x, idCh x = true → xmlSpace x = false := by
    intro x h
    cases hs : xmlSpace x with
    | false => rfl
    | true =>
      simp only [xmlSpace, Bool.or_eq_true, decide_eq_true_eq] at hs
      rcases hs with ((rfl | rfl) | rfl) | rfl <;> (rw [idCh, Xsd.ascii _ (by decide)] at h; exact absurd h (by decide))
  refine ⟨by simp, fun x hx => ?_⟩
  rcases List.mem_cons.1 hx with rfl | hx
  · exact hl _ hc
  · exact hi x (hr x hx)

theorem idList_iff {v : Str} : Val env idList v ↔ IdListFits v := by
  rw [idList, val_data]
  simp only [idRx_iff]
  constructor
  · intro h
    generalize hl : v.length = l
    induction l using Nat.strongRecOn generalizing v with
    | ind l ih =>
      rcases word_split v with h' | ⟨a, w, h1, h2, h3, rfl | ⟨c, s, hc, rfl⟩⟩
      · exact .none h'
      · rw [tokens_ws h1, tokens_one h2 h3] at h
        exact .last h1 (h w (by simp))
      · rw [List.append_assoc, tokens_ws h1, tokens_word h2 h3 hc] at h
        refine .more h1 (h w (by simp)) hc (ih s.length ?_ (fun x hx => h x (by simp [hx])) rfl)
        rw [← hl]; simp; omega
  · intro h
    induction h with
    | none h =>
      rename_i s
      intro w hw
      rw [← List.append_nil s, tokens_ws h] at hw
      cases hw
    | last h1 h2 =>
      obtain ⟨g1, g2⟩ := fits_solid h2
      rw [tokens_ws h1, tokens_one g1 g2]
      intro w hw
      rw [List.mem_singleton.1 hw]; exact h2
    | more h1 h2 h3 _ ih =>
      obtain ⟨g1, g2⟩ := fits_solid h2
      rw [List.append_assoc, tokens_ws h1, tokens_word g1 g2 h3]
      intro w hw
      rcases List.mem_cons.1 hw with rfl | hw
      · exact h2
      · exact ih w hw

theorem word_val {w v : Str} (h : Solid w) : Val env (value w) v ↔ Word w v := by
  rw [val_value, tokens_one h.1 h.2, tokens_iff h.1 h.2]

/-! ### Attributes -/

/-- names that are not used otherwise -/
def FreshE (ks : List Str) : Prop :=
  ks.Nodup ∧ ∀ k ∈ ks, k ∉ [lit! "id", xmlName (lit! "lang"), xmlName (lit! "space"), lit! "type"]

instance (ks : List Str) : Decidable (FreshE ks) := inferInstanceAs (Decidable (_ ∧ _))

theorem ext_content {m : Dict Str Str} {d : Data} (hk : XmlDataKept m d) {r t q : Pat} {x : AttSpec} (hr : ∀ q, Same env (.group r q) (attsPat x q))
    (hx : FreshE (x.map (·.1))) (hq : NoAttr env q) (hn : ((attrsOf d).map (·.1)).Nodup) {ns : List Node} :
    Content env (.group (att (lit! "id") Id) (.group BaseAttrs (.group r (.group (.opt (att (lit! "type") t)) (.group .empty q)))))
      (attrsOf d) ns ↔
    (HasId d ∧ (∀ v, d.type = some v → Val env t v) ∧ Atts env (baseSpec ++ x) d.attrs) ∧ Content env q [] ns := by
  have app : ∀ (l : AttSpec) {q' : Pat} {y : AttSpec}, attsPat l (attsPat y q') = attsPat (l ++ y) q' := by
    intro l
    induction l with
    | nil => intros; rfl
    | cons s l ih =>
      obtain ⟨k, b, p⟩ := s
      intro q' y
      cases b <;> simp only [List.cons_append, attsPat, ih]
  have hs : Same env (.group (att (lit! "id") Id) (.group BaseAttrs (.group r (.group (.opt (att (lit! "type") t)) (.group .empty q)))))
      (attsPat ((lit! "id", true, Id) :: (baseSpec ++ (x ++ [(lit! "type", false, t)]))) q) := by
    refine .right ?_
    show Same env _ (attsPat (baseSpec ++ (x ++ [(lit! "type", false, t)])) q)
    rw [← app, ← app]
    refine Same.trans (.right ?_) base_same
    exact (Same.right (Same.right .empty_left)).trans (hr _)
  have fr : ∀ k ∈ [lit! "id", xmlName (lit! "lang"), xmlName (lit! "space"), lit! "type"], k ∉ x.map (·.1) := by
    intro k hk hm
    exact hx.2 k hm hk
  have n1 : (((lit! "id", true, Id) :: (baseSpec ++ (x ++ [(lit! "type", false, t)]))).map (·.1)).Nodup := by
    show ([lit! "id", xmlName (lit! "lang"), xmlName (lit! "space")] ++ (x ++ [(lit! "type", false, t)]).map (·.1)).Nodup
    rw [List.map_append]
    refine List.nodup_append.2 ⟨by decide, List.nodup_append.2 ⟨hx.1, by simp, ?_⟩, ?_⟩
    · rintro a ha b hb rfl
      cases List.mem_singleton.1 hb
      exact fr _ (by simp) ha
    · rintro a ha b hb rfl
      rcases List.mem_append.1 hb with hb | hb
      · refine fr a ?_ hb
        simp only [List.mem_cons, List.not_mem_nil, or_false] at ha ⊢
        rcases ha with rfl | rfl | rfl
        · exact .inl rfl
        · exact .inr (.inl rfl)
        · exact .inr (.inr (.inl rfl))
      · have e : a = lit! "type" := List.mem_singleton.1 hb
        subst e
        exact absurd ha (by decide)
  have g : ∀ k ∈ [lit! "id", lit! "type"], k ∉ (baseSpec ++ x).map (·.1) := by
    intro k hk
    have g1 : k ∉ [xmlName (lit! "lang"), xmlName (lit! "space")] := by revert k; decide
    have g2 : k ∈ [lit! "id", xmlName (lit! "lang"), xmlName (lit! "space"), lit! "type"] := by revert k; decide
    intro h
    rw [List.map_append] at h
    exact (List.mem_append.1 h).elim g1 (fr k g2)
  have hperm : ∀ s, s ∈ ((lit! "id", true, Id) :: (baseSpec ++ (x ++ [(lit! "type", false, t)])) : AttSpec) ↔
      s ∈ ((lit! "id", true, Id) :: (lit! "type", false, t) :: (baseSpec ++ x) : AttSpec) := by
    intro s
    simp only [List.mem_cons, List.mem_append, List.not_mem_nil, or_false]
    constructor
    · rintro (h | h | h | h)
      · exact .inl h
      · exact .inr (.inr (.inl h))
      · exact .inr (.inr (.inr h))
      · exact .inr (.inl h)
    · rintro (h | h | h | h)
      · exact .inl h
      · exact .inr (.inr (.inr h))
      · exact .inr (.inl h)
      · exact .inr (.inr (.inl h))
  rw [hs.content, attsPat_content hq n1 hn, atts_perm hperm, has_type hk (g _ (by simp)) (g _ (by simp))]

/-- the attributes of tiers -/
theorem two_atts {k k' : Str} {a : List (Str × Str)} : Atts env (baseSpec ++ [(k, true, Id), (k', true, Id)]) a ↔ TwoRefs k k' a := by
  rw [Atts, and_comm, TwoRefs]
  refine and_congr ?_ ?_
  · constructor
    · intro h n v hx
      rcases base_append.1 (h (n, v) hx) with h | ⟨s, hs, e, hv⟩
      · exact .inl h
      · simp only [List.mem_cons, List.not_mem_nil, or_false] at hs
        rcases hs with rfl | rfl
        · exact .inr ⟨.inl e.symm, id_val.1 hv⟩
        · exact .inr ⟨.inr e.symm, id_val.1 hv⟩
    · rintro h ⟨n, v⟩ hx
      refine base_append.2 ?_
      rcases h n v hx with g | ⟨e | e, g⟩
      · exact .inl g
      · exact .inr ⟨_, .head _, e.symm, id_val.2 g⟩
      · exact .inr ⟨_, .tail _ (.head _), e.symm, id_val.2 g⟩
  · rw [lacks_iff, lacks_iff]
    constructor
    · intro h
      exact ⟨h (k, true, Id) (by simp) rfl, h (k', true, Id) (by simp) rfl⟩
    · rintro ⟨h1, h2⟩ s hs hr
      rcases List.mem_append.1 hs with hs | hs
      · rw [base_opt s hs] at hr; cases hr
      · simp only [List.mem_cons, List.not_mem_nil, or_false] at hs
        rcases hs with rfl | rfl
        · exact h1
        · exact h2

theorem base_not {k v : Str} (h : BaseAttr k v) : k ≠ lit! "lex" ∧ k ≠ lit! "nodes" ∧ k ≠ lit! "dep" ∧ k ≠ lit! "head" := by
  rcases h with rfl | ⟨rfl, -⟩ <;> decide

theorem one_atts {k : Str} {r : Pat} {a : List (Str × Str)} : Atts env (baseSpec ++ [(k, true, r)]) a ↔
    (∀ n v, (n, v) ∈ a → BaseAttr n v ∨ (n = k ∧ Val env r v)) ∧ ¬ Lacks a k := by
  rw [Atts, and_comm]
  refine and_congr ?_ ?_
  · constructor
    · intro h n v hx
      rcases base_append.1 (h (n, v) hx) with h | ⟨s, hs, e, hv⟩
      · exact .inl h
      · cases List.mem_singleton.1 hs
        exact .inr ⟨e.symm, hv⟩
    · rintro h ⟨n, v⟩ hx
      refine base_append.2 ?_
      rcases h n v hx with g | ⟨e, g⟩
      · exact .inl g
      · exact .inr ⟨_, .head _, e.symm, g⟩
  · rw [lacks_iff]
    constructor
    · intro h
      exact h (k, true, r) (by simp) rfl
    · rintro h1 s hs hr
      rcases List.mem_append.1 hs with hs | hs
      · rw [base_opt s hs] at hr; cases hr
      · cases List.mem_singleton.1 hs
        exact h1

theorem syn_atts {a : List (Str × Str)} :
    (Atts env (baseSpec ++ [(lit! "lex", true, AlgnExpr)]) a ∨ Atts env (baseSpec ++ [(lit! "nodes", true, idList)]) a) ↔ SynRefs a := by
  rw [one_atts, one_atts]
  simp only [algn_val, idList_iff]
  constructor
  · rintro (⟨h1, h2⟩ | ⟨h1, h2⟩)
    · refine ⟨fun n v hx => (h1 n v hx).imp id .inl, .inl ⟨h2, fun v hx => ?_⟩⟩
      rcases h1 _ _ hx with h | ⟨h, -⟩
      · exact (base_not h).2.1 rfl
      · exact absurd h (by decide)
    · refine ⟨fun n v hx => (h1 n v hx).imp id .inr, .inr ⟨fun v hx => ?_, h2⟩⟩
      rcases h1 _ _ hx with h | ⟨h, -⟩
      · exact (base_not h).1 rfl
      · exact absurd h (by decide)
  · rintro ⟨h, ⟨h1, h2⟩ | ⟨h1, h2⟩⟩
    · refine .inl ⟨fun n v hx => ?_, h1⟩
      rcases h n v hx with h | h | ⟨rfl, h⟩
      · exact .inl h
      · exact .inr h
      · exact absurd hx (h2 v)
    · refine .inr ⟨fun n v hx => ?_, h2⟩
      rcases h n v hx with h | ⟨rfl, h⟩ | h
      · exact .inl h
      · exact absurd hx (h1 v)
      · exact .inr h

theorem dep_atts {a : List (Str × Str)} :
    Atts env (baseSpec ++ [(lit! "dep", true, AlgnExpr), (lit! "head", false, AlgnExpr)]) a ↔ DepRefs a := by
  rw [Atts, and_comm, DepRefs]
  refine and_congr ?_ ?_
  · constructor
    · intro h n v hx
      rcases base_append.1 (h (n, v) hx) with h | ⟨s, hs, e, hv⟩
      · exact .inl h
      · simp only [List.mem_cons, List.not_mem_nil, or_false] at hs
        rcases hs with rfl | rfl
        · exact .inr ⟨.inl e.symm, algn_val.1 hv⟩
        · exact .inr ⟨.inr e.symm, algn_val.1 hv⟩
    · rintro h ⟨n, v⟩ hx
      refine base_append.2 ?_
      rcases h n v hx with h | ⟨rfl | rfl, h⟩
      · exact .inl h
      · exact .inr ⟨_, .head _, rfl, algn_val.2 h⟩
      · exact .inr ⟨_, .tail _ (.head _), rfl, algn_val.2 h⟩
  · rw [lacks_iff]
    constructor
    · intro h
      exact h (lit! "dep", true, AlgnExpr) (by simp) rfl
    · rintro h1 s hs hr
      rcases List.mem_append.1 hs with hs | hs
      · rw [base_opt s hs] at hr; cases hr
      · simp only [List.mem_cons, List.not_mem_nil, or_false] at hs
        rcases hs with rfl | rfl
        · exact h1
        · cases hr

/-! ### Elements -/

/-- items with these references -/
theorem itemE_iff {refs : Pat} {R : List (Str × Str) → Prop}
    (hR : ∀ (m : Dict Str Str) (d : Data), XmlDataKept m d → ((attrsOf d).map (·.1)).Nodup → ∀ ns,
      Content env (.group (att (lit! "id") Id) (.group BaseAttrs (.group refs (.group (.opt (att (lit! "type") .empty)) (.group .empty .text)))))
        (attrsOf d) ns ↔ (HasId d ∧ BlankType d ∧ R d.attrs) ∧ Content env .text [] ns)
    {eff d md kids} (n : XNode eff .item d md kids) {nd : Node} (h : Wrote (.mk d md kids) nd) :
    Matches env (.choice (itemFile xigtNames refs) (itemFile xigtNames)) [] [nd] ↔ ItemFitsE R (.mk d md kids) := by
  rw [choice_iff, itemX_iff n h, ItemFitsE, or_comm]
  refine or_congr_right ?_
  obtain ⟨t, ns, rfl, hn, ht, hws, ha⟩ := h.inv (by rw [n.cls_eq]; decide)
  rw [n.cls_eq]
  have hmd : md = [] := n.md_nil rfl
  have hkd : kids = [] := List.eq_nil_iff_forall_not_mem.2 fun x hx => nomatch n.kids_cls x hx
  subst hmd hkd
  rw [itemFile, show clsTag .item = lit! "item" from rfl, elem_wrote]
  refine (hR _ d n.kept hn _).trans ?_
  rw [content_text, elems_text_append]
  refine and_iff_left ?_
  exact List.length_eq_zero_iff.1 (all2_length ha).symm

/-- tiers of an extension -/
theorem tierE_iff (he : env ANY = AnyElement) {ty k k' : Str} (hty : Solid ty) (hkk : FreshE [k, k'])
    {refs : Pat} {R : List (Str × Str) → Prop}
    (hR : ∀ (m : Dict Str Str) (d : Data), XmlDataKept m d → ((attrsOf d).map (·.1)).Nodup → ∀ ns,
      Content env (.group (att (lit! "id") Id) (.group BaseAttrs (.group refs (.group (.opt (att (lit! "type") .empty)) (.group .empty .text)))))
        (attrsOf d) ns ↔ (HasId d ∧ BlankType d ∧ R d.attrs) ∧ Content env .text [] ns)
    {eff d md kids} (n : XNode eff .tier d md kids) {nd : Node} (h : Wrote (.mk d md kids) nd) :
    Matches env (tierFile { xigtNames with item := itemFile xigtNames refs } (value ty) (.group (att k Id) (att k' Id))) [] [nd] ↔
      TierFitsE ty k k' R (.mk d md kids) := by
  obtain ⟨t, ns, rfl, hn, ht, hws, ha⟩ := h.inv (by rw [n.cls_eq]; decide)
  rw [n.cls_eq, tierFile, show clsTag .tier = lit! "tier" from rfl, elem_wrote]
  have eA : ElemLike env (metadataFile xigtNames) := elemLike_elem _ _
  have eB : ElemLike env (.choice (itemFile xigtNames refs) (itemFile xigtNames)) := (elemLike_elem _ _).choice (elemLike_elem _ _)
  have hs : Same env (.group (.star (.choice (.star .notAllowed) (.choice .notAllowed (metadataFile xigtNames)))) (.star (.choice (itemFile xigtNames refs) (itemFile xigtNames))))
      (.group (.star (metadataFile xigtNames)) (.star (.choice (itemFile xigtNames refs) (itemFile xigtNames)))) := .group absorb (.refl _)
  have hq : NoAttr env (.group (.star (.choice (.star .notAllowed) (.choice .notAllowed (metadataFile xigtNames)))) (.star (.choice (itemFile xigtNames refs) (itemFile xigtNames)))) :=
    fun a ns h => group_noAttr (star_noAttr eA.noAttr) (star_noAttr eB.noAttr) a ns ((hs a ns).1 h)
  have hkc : ∀ x ∈ kids, x.cls = .item := fun x hx => by
    have := n.kids_cls x hx
    injection this
  refine (ext_content n.kept (x := [(k, true, Id), (k', true, Id)]) (fun q => .assoc) hkk hq hn).trans ?_
  rw [hs.content, two_wrote (c := .item) eA eB ha (wrote_ws (n.text_none rfl) ht hws) n.md_cls hkc (by decide) (by decide) (fun _ h => elem_tag h)
      (choice_tag (fun _ h => elem_tag h) fun _ h => elem_tag h)
      (P := MdFitsX) (Q := ItemFitsE R) (fun x hx nd hw => by
        have nx := XNode.of (x := x) (n.md_cls x hx) (n.md_wf x hx) (n.md_valid x hx) (n.kept_md x hx)
        obtain ⟨d', md', kids'⟩ := x
        exact mdX_iff he plainMeta nx hw) (fun x hx nd hw => by
        have nx := XNode.of (x := x) (hkc x hx) (n.kids_wf x hx) (n.kids_valid x hx) (n.kept_kids x hx)
        obtain ⟨d', md', kids'⟩ := x
        exact itemE_iff hR nx hw), two_atts, TierFitsE, and_assoc, and_assoc]
  simp only [word_val hty, Obj.data_mk, Obj.md_mk, Obj.kids_mk]

/-- IGTs, when tiers of one more kind are allowed -/
theorem igtE_iff (he : env ANY = AnyElement) {T : Pat} (eT : ElemLike env T) (tT : ∀ n, Matches env T [] [n] → tagOf n = lit! "tier") {Q : Obj → Prop}
    (hT : ∀ eff d md kids nd, XNode eff .tier d md kids → Wrote (.mk d md kids) nd → (Matches env T [] [nd] ↔ Q (.mk d md kids)))
    {eff d md kids} (n : XNode eff .igt d md kids) {nd : Node} (h : Wrote (.mk d md kids) nd) :
    Matches env (igtFile { xigtNames with tier := T }) [] [nd] ↔ IgtFitsE Q (.mk d md kids) := by
  obtain ⟨t, ns, rfl, hn, ht, hws, ha⟩ := h.inv (by rw [n.cls_eq]; decide)
  rw [n.cls_eq, igtFile, show clsTag .igt = lit! "igt" from rfl, elem_wrote]
  have eA : ElemLike env (metadataFile xigtNames) := elemLike_elem _ _
  have eB : ElemLike env (.choice T (tierFile xigtNames)) := eT.choice (elemLike_elem _ _)
  have hs : Same env (.group (.star (.choice (.star .notAllowed) (.choice .notAllowed (metadataFile xigtNames)))) (.star (.choice T (tierFile xigtNames))))
      (.group (.star (metadataFile xigtNames)) (.star (.choice T (tierFile xigtNames)))) := .group absorb (.refl _)
  have hq : NoAttr env (.group (.star (.choice (.star .notAllowed) (.choice .notAllowed (metadataFile xigtNames)))) (.star (.choice T (tierFile xigtNames)))) :=
    fun a ns h => group_noAttr (star_noAttr eA.noAttr) (star_noAttr eB.noAttr) a ns ((hs a ns).1 h)
  have hkc : ∀ x ∈ kids, x.cls = .tier := fun x hx => by
    have := n.kids_cls x hx
    injection this
  refine igt_same.content.trans ?_
  refine (attsPat_content hq nodup_base' hn).trans ?_
  rw [has_atts n.kept, hs.content,
    two_wrote (c := .tier) eA eB ha (wrote_ws (n.text_none rfl) ht hws) n.md_cls hkc (by decide) (by decide) (fun _ h => elem_tag h)
      (choice_tag tT fun _ h => elem_tag h)
      (P := MdFitsX) (Q := fun x => Q x ∨ TierFitsX x) (fun x hx nd hw => by
        have nx := XNode.of (x := x) (n.md_cls x hx) (n.md_wf x hx) (n.md_valid x hx) (n.kept_md x hx)
        obtain ⟨d', md', kids'⟩ := x
        exact mdX_iff he plainMeta nx hw) (fun x hx nd hw => by
        have nx := XNode.of (x := x) (hkc x hx) (n.kids_wf x hx) (n.kids_valid x hx) (n.kept_kids x hx)
        obtain ⟨d', md', kids'⟩ := x
        exact choice_iff.trans (or_congr (hT _ _ _ _ _ nx hw) (tierX_iff he nx hw))), IgtFitsE, and_assoc, and_assoc]
  rfl

theorem corpusE_iff (he : env ANY = AnyElement) {T : Pat} (eT : ElemLike env T) (tT : ∀ n, Matches env T [] [n] → tagOf n = lit! "tier") {Q : Obj → Prop}
    (hT : ∀ eff d md kids nd, XNode eff .tier d md kids → Wrote (.mk d md kids) nd → (Matches env T [] [nd] ↔ Q (.mk d md kids)))
    {eff d md kids} (n : XNode eff .corpus d md kids) {nd : Node} (h : Wrote (.mk d md kids) nd) :
    Matches env (corpusFile { xigtNames with tier := T }) [] [nd] ↔ CorpusFitsE Q (.mk d md kids) := by
  obtain ⟨t, ns, rfl, hn, ht, hws, ha⟩ := h.inv (by rw [n.cls_eq]; decide)
  rw [n.cls_eq, corpusFile, show clsTag .corpus = lit! "xigt-corpus" from rfl, elem_wrote]
  have hq : NoAttr env (.group (.star (.choice (.star .notAllowed) (.choice .notAllowed (metadataFile xigtNames)))) (.star (.choice .notAllowed (igtFile { xigtNames with tier := T })))) :=
    outer_noAttr (elemLike_elem _ _) (elemLike_elem _ _)
  refine meta_same.content.trans ?_
  refine (attsPat_content hq nodup_base hn).trans ?_
  rw [opt_atts n.kept]
  refine (and_congr_right' (outerX he n rfl rfl (by decide) (by decide) ht hws ha (B := igtFile { xigtNames with tier := T }) (elemLike_elem _ _) (fun _ h => elem_tag h)
    (Q := IgtFitsE Q) (fun x hx nd nx hw => by obtain ⟨d', md', kids'⟩ := x; exact igtE_iff he eT tT hT nx hw))).trans ?_
  rw [CorpusFitsE, and_assoc, and_assoc]
  refine and_congr_right fun _ => ?_
  have : BlankType d := fun v hv => by rw [n.kept.corpus n.cls_eq] at hv; cases hv
  exact and_iff_right this

/-- documents that were written for a corpus -/
theorem core_syntax {eff d md kids} (nx : XNode eff .corpus d md kids) {doc : Node} (h4 : Wrote (.mk d md kids) doc) :
    Valid syntax_rnc doc ↔ CorpusFitsE SynTier (.mk d md kids) := by
  have he : syntax_rnc.defs ANY = AnyElement := by simp [syntax_rnc, grammar]
  refine corpusE_iff (env := syntax_rnc.defs) he (T := syntaxTier xigtNames) (elemLike_elem _ _) (fun _ h => elem_tag h) (Q := SynTier) ?_ nx h4
  intro eff d md kids nd n h
  refine tierE_iff he (by decide) (by decide) ?_ n h
  intro m d hk hn ns
  have e : ∀ {q : Pat}, Same syntax_rnc.defs (.group (att (lit! "id") Id) (.group BaseAttrs (.group (.choice (att (lit! "lex") AlgnExpr) (att (lit! "nodes") idList)) q)))
      (.choice (.group (att (lit! "id") Id) (.group BaseAttrs (.group (att (lit! "lex") AlgnExpr) q)))
        (.group (att (lit! "id") Id) (.group BaseAttrs (.group (att (lit! "nodes") idList) q)))) := by
    intro q
    exact (Same.right ((Same.right .distrib).trans .distrib_left)).trans .distrib_left
  rw [e.content, content_choice, ext_content hk (x := [(lit! "lex", true, AlgnExpr)]) (fun q => .refl _) (show FreshE [lit! "lex"] by decide) text_noAttr hn,
    ext_content hk (x := [(lit! "nodes", true, idList)]) (fun q => .refl _) (show FreshE [lit! "nodes"] by decide) text_noAttr hn, ← or_and_right, ← and_or_left, ← and_or_left, syn_atts]
  simp only [val_empty, BlankType]

/-- **C140** for syntax.rnc: what is written of a corpus is valid just in case each tier is as in xigt.rnc
(without a type) or a tier of type `syntax`, or none, with the references `lex` and `nodes` and with items
that are leaves, nodes, or as in xigt.rnc; and the rest is as in xigt.rnc. -/
theorem C140_syntax (x : Obj) (hc : x.cls = .corpus) (hw : x.WF) (hv : x.Valid) (hk : XmlKept [] x) (ind : Option Int) :
    ∃ s doc, dumpsXml ind x = .ok s ∧ docText s = .ok doc ∧ (Valid syntax_rnc doc ↔ CorpusFitsE SynTier x) := by
  obtain ⟨s, doc, h1, h2, -, h4⟩ := wrote_corpus x hc hw hv hk ind
  refine ⟨s, doc, h1, h2, ?_⟩
  obtain ⟨d, md, kids⟩ := x
  exact core_syntax (XNode.of hc hw hv hk) h4

/-- documents that were written for a corpus -/
theorem core_dependencies {eff d md kids} (nx : XNode eff .corpus d md kids) {doc : Node} (h4 : Wrote (.mk d md kids) doc) :
    Valid dependencies_rnc doc ↔ CorpusFitsE DepTier (.mk d md kids) := by
  have he : dependencies_rnc.defs ANY = AnyElement := by simp [dependencies_rnc, grammar]
  refine corpusE_iff (env := dependencies_rnc.defs) he (T := depTier xigtNames) (elemLike_elem _ _) (fun _ h => elem_tag h) (Q := DepTier) ?_ nx h4
  intro eff d md kids nd n h
  refine tierE_iff he (by decide) (by decide) ?_ n h
  intro m d hk hn ns
  rw [ext_content hk (x := [(lit! "dep", true, AlgnExpr), (lit! "head", false, AlgnExpr)]) (fun q => .assoc) (show FreshE [lit! "dep", lit! "head"] by decide) text_noAttr hn, dep_atts]
  simp only [val_empty, BlankType]

/-- **C140** for dependencies.rnc -/
theorem C140_dependencies (x : Obj) (hc : x.cls = .corpus) (hw : x.WF) (hv : x.Valid) (hk : XmlKept [] x) (ind : Option Int) :
    ∃ s doc, dumpsXml ind x = .ok s ∧ docText s = .ok doc ∧ (Valid dependencies_rnc doc ↔ CorpusFitsE DepTier x) := by
  obtain ⟨s, doc, h1, h2, -, h4⟩ := wrote_corpus x hc hw hv hk ind
  refine ⟨s, doc, h1, h2, ?_⟩
  obtain ⟨d, md, kids⟩ := x
  exact core_dependencies (XNode.of hc hw hv hk) h4

/-- what xigt.rnc allows the extensions allow -/
theorem fitsE_of_fitsX {Q : Obj → Prop} {x : Obj} (h : CorpusFitsX x) : CorpusFitsE Q x :=
  ⟨h.1, h.2.1, h.2.2.1, fun g hg => let h := h.2.2.2 g hg; ⟨h.1, h.2.1, h.2.2.1, h.2.2.2.1, fun t ht => .inr (h.2.2.2.2 t ht)⟩⟩

/-- **C140**, each extends xigt.rnc; and what both allow has no tier with a type (schema/extensions/NOTES.md:
they can be used only "if there are no other extensions"). -/
theorem C140_both (x : Obj) (hc : x.cls = .corpus) (hw : x.WF) (hv : x.Valid) (hk : XmlKept [] x) (ind : Option Int) :
    ∃ s doc, dumpsXml ind x = .ok s ∧ docText s = .ok doc ∧
      (Valid xigt_rnc doc → Valid syntax_rnc doc ∧ Valid dependencies_rnc doc) ∧
      (Valid syntax_rnc doc → Valid dependencies_rnc doc → Valid xigt_rnc doc) := by
  obtain ⟨s, doc, h1, h2, h3⟩ := C103_iff x hc hw hv hk ind
  obtain ⟨s', doc', g1, g2, g3⟩ := C140_syntax x hc hw hv hk ind
  obtain ⟨s'', doc'', f1, f2, f3⟩ := C140_dependencies x hc hw hv hk ind
  rw [h1] at g1; cases g1
  rw [h2] at g2; cases g2
  rw [h1] at f1; cases f1
  rw [h2] at f2; cases f2
  refine ⟨s, doc, h1, h2, fun h => ⟨g3.2 (fitsE_of_fitsX (h3.1 h)), f3.2 (fitsE_of_fitsX (h3.1 h))⟩, fun a b => h3.2 ?_⟩
  have a := g3.1 a
  have b := f3.1 b
  refine ⟨a.1, a.2.1, a.2.2.1, fun g hg => ?_⟩
  have a := a.2.2.2 g hg
  have b := b.2.2.2 g hg
  refine ⟨a.1, a.2.1, a.2.2.1, a.2.2.2.1, fun t ht => ?_⟩
  rcases a.2.2.2.2 t ht with h | h
  · rcases b.2.2.2.2 t ht with h' | h'
    · exfalso
      obtain ⟨v, hv⟩ := lacks_iff.1 h.2.2.1.2.1
      rcases h'.2.2.1.1 _ _ hv with e | ⟨e | e, -⟩
      · exact (base_not e).1 rfl
      · exact absurd e (by decide)
      · exact absurd e (by decide)
    · exact h'
  · exact h

/-- **C140**: no tiers of other types beside those of the extension -/
theorem C140_typed (x : Obj) (hc : x.cls = .corpus) (hw : x.WF) (hv : x.Valid) (hk : XmlKept [] x) (ind : Option Int) :
    ∃ s doc, dumpsXml ind x = .ok s ∧ docText s = .ok doc ∧
      (Valid syntax_rnc doc → ∀ g ∈ x.kids, ∀ t ∈ g.kids, ∀ v, t.data.type = some v → Word (lit! "syntax") v) ∧
      (Valid dependencies_rnc doc → ∀ g ∈ x.kids, ∀ t ∈ g.kids, ∀ v, t.data.type = some v → Word (lit! "dependencies") v) := by
  obtain ⟨s, doc, g1, g2, g3⟩ := C140_syntax x hc hw hv hk ind
  obtain ⟨s'', doc'', f1, f2, f3⟩ := C140_dependencies x hc hw hv hk ind
  rw [g1] at f1; cases f1
  rw [g2] at f2; cases f2
  refine ⟨s, doc, g1, g2, fun h g hg t ht v hv => ?_, fun h g hg t ht v hv => ?_⟩
  · rcases ((g3.1 h).2.2.2 g hg).2.2.2.2 t ht with h | h
    · exact h.2.1 v hv
    · rw [h.2.1] at hv; cases hv
  · rcases ((f3.1 h).2.2.2 g hg).2.2.2.2 t ht with h | h
    · exact h.2.1 v hv
    · rw [h.2.1] at hv; cases hv

end

section
attribute [local instance] asciiUni asciiXml asciiXsd

def Fine (x : Obj) : Prop := x.WF ∧ x.Valid ∧ XmlKept [] x

/-- a check for simple data -/
def plainData (d : Data) : Bool :=
  d.nsmap.isNone && d.ns.isNone && d.text.isNone && d.name.isNone && (d.cls != .metaChild) && ((d.cls != .corpus) || d.type.isNone) &&
  d.id.all (fun i => i.all isXmlChar && idAccepted i) && d.type.all (fun i => i.all isXmlChar) &&
  d.attrs.all (fun kv => kv.2.all isXmlChar && asciiNc kv.1 && (kv.1 != lit! "id") && (kv.1 != lit! "type") && (kv.1 != lit! "xmlns")) &&
  decide (d.attrs.map Prod.fst).Nodup

theorem fine_mk {d : Data} {kids : List Obj} (hd : plainData d = true) (hids : (kids.filterMap fun x => x.data.id).Nodup)
    (h : ∀ x ∈ kids, some x.cls = d.cls.contained ∧ Fine x) : Fine (.mk d [] kids) := by
  simp only [plainData, Bool.and_eq_true, Option.isNone_iff_eq_none, bne_iff_ne, ne_eq, Bool.or_eq_true, decide_eq_true_eq] at hd
  obtain ⟨⟨⟨⟨⟨⟨⟨⟨⟨hm, hns⟩, ht⟩, hn⟩, hc⟩, hco⟩, hid⟩, hty⟩, hat⟩, hnd⟩ := hd
  have hi : ∀ i, d.id = some i → i.all isXmlChar = true ∧ idAccepted i = true := by
    intro i hi
    rw [hi] at hid
    simpa using hid
  refine ⟨simple_wf hnd ht hn hc fun x hx => ⟨(h x hx).1, (h x hx).2.1⟩, simple_valid (fun i g => (hi i g).2) hn hm hids fun x hx => (h x hx).2.2.1, ?_⟩
  refine .mk ?_ (by simp) fun x hx => ?_
  · rw [hm]
    refine ⟨?_, fun _ => hns, fun e => absurd e hc, fun e => hco.resolve_left fun g => g e, ?_, ?_, ?_, fun i g => chars_of (hi i g).1, ?_, ?_⟩
    · rw [hm]; rintro own ⟨⟩
    · rw [ht]; simp
    · rw [ht]; rintro - t ⟨⟩
    · rw [ht]; rintro t ⟨⟩
    · intro i g
      rw [g] at hty
      exact chars_of (by simpa using hty)
    · intro k v hkv
      have := List.all_eq_true.1 hat _ hkv
      simp only [Bool.and_eq_true, bne_iff_ne, ne_eq] at this
      exact ⟨chars_of this.1.1.1.1, plain_attr this.1.1.1.2 this.1.1.2 this.1.2 this.2⟩
  · have := (h x hx).2.2.2
    rw [hm]
    exact this

/-- a word, and a tree with one node besides its leaf -/
def treeWith (ty : Str) (a b : List (Str × Str)) : Obj :=
  .mk { cls := .corpus } [] [.mk { cls := .igt, id := some (lit! "i1") } []
    [.mk { cls := .tier, id := some (lit! "w") } [] [.mk { cls := .item, id := some (lit! "w1") } [] []],
     .mk { cls := .tier, id := some (lit! "s"), type := some ty, attrs := a } []
       [.mk { cls := .item, id := some (lit! "s1"), attrs := b } [] []]]]

theorem treeWith_fine {ty : Str} {a b : List (Str × Str)} (h1 : plainData { cls := .tier, id := some (lit! "s"), type := some ty, attrs := a } = true)
    (h2 : plainData { cls := .item, id := some (lit! "s1"), attrs := b } = true) : Fine (treeWith ty a b) := by
  refine fine_mk (by decide) (show [lit! "i1"].Nodup by decide) fun x hx => ?_
  cases List.mem_singleton.1 hx
  refine ⟨rfl, fine_mk (by decide +kernel) (show [lit! "w", lit! "s"].Nodup by decide) fun x hx => ?_⟩
  rcases List.mem_cons.1 hx with rfl | hx
  · refine ⟨rfl, fine_mk (by decide +kernel) (by decide) fun x hx => ?_⟩
    cases List.mem_singleton.1 hx
    exact ⟨rfl, fine_mk (by decide +kernel) (by decide) (by simp)⟩
  · cases List.mem_singleton.1 hx
    refine ⟨rfl, fine_mk h1 (show [lit! "s1"].Nodup by decide) fun x hx => ?_⟩
    cases List.mem_singleton.1 hx
    exact ⟨rfl, fine_mk h2 (by decide) (by simp)⟩

theorem fit_small {c : Char} (h : letter c = true) : IdFits [c] := ⟨c, [], rfl, h, by simp⟩

theorem algn_word : AlgnFits (lit! "w1") := by
  have hid : IdFits (lit! "w1") := ⟨'w', lit! "1", rfl, by decide, by decide⟩
  exact seq_iff.2 ⟨lit! "w1", [], rfl, seq_iff.2 ⟨lit! "w1", [], rfl, idRx_iff.2 hid, .right .eps⟩, .nil⟩

/-- what such a corpus needs -/
theorem treeWith_fits {Q : Obj → Prop} {ty : Str} {a b : List (Str × Str)}
    (h : Q (.mk { cls := .tier, id := some (lit! "s"), type := some ty, attrs := a } [] [.mk { cls := .item, id := some (lit! "s1"), attrs := b } [] []])) :
    CorpusFitsE Q (treeWith ty a b) := by
  have hno : ∀ F, RefsX F ([] : List (Str × Str)) := fun F => ⟨by simp, .inl (by simp [Lacks])⟩
  refine ⟨(by rintro i ⟨⟩), by simp [treeWith, OnlyBase], by simp [treeWith], fun x hx => ?_⟩
  cases List.mem_singleton.1 hx
  refine ⟨⟨_, rfl, 'i', lit! "1", rfl, by decide, by decide⟩, (by rintro v ⟨⟩), by simp [OnlyBase], by simp, fun x hx => ?_⟩
  rcases List.mem_cons.1 hx with rfl | hx
  · refine .inr ⟨⟨_, rfl, fit_small (by decide)⟩, rfl, hno _, by simp, fun x hx => ?_⟩
    cases List.mem_singleton.1 hx
    exact ⟨⟨_, rfl, 'w', lit! "1", rfl, by decide, by decide⟩, (by rintro v ⟨⟩), hno _⟩
  · cases List.mem_singleton.1 hx
    exact .inl h

def synAttrs : List (Str × Str) := [(lit! "lex", lit! "w"), (lit! "nodes", lit! "s")]
def depAttrs : List (Str × Str) := [(lit! "dep", lit! "w"), (lit! "head", lit! "w")]

theorem two_ok {k k' v v' : Str} (hv : IdFits v) (hv' : IdFits v') : TwoRefs k k' [(k, v), (k', v')] := by
  refine ⟨fun n w hw => .inr ?_, lacks_iff.2 ⟨v, .head _⟩, lacks_iff.2 ⟨v', .tail _ (.head _)⟩⟩
  rcases List.mem_cons.1 hw with e | hw
  · cases e; exact ⟨.inl rfl, hv⟩
  · cases List.mem_singleton.1 hw; exact ⟨.inr rfl, hv'⟩

/-- a corpus with a tree is written as a document syntax.rnc allows and dependencies.rnc does not -/
example (ind : Option Int) : ∃ s doc, dumpsXml ind (treeWith (lit! "syntax") synAttrs [(lit! "nodes", lit! " s2 s3")]) = .ok s ∧ docText s = .ok doc ∧
    Valid syntax_rnc doc ∧ ¬ Valid dependencies_rnc doc := by
  obtain ⟨hw, hv, hk⟩ := treeWith_fine (ty := lit! "syntax") (a := synAttrs) (b := [(lit! "nodes", lit! " s2 s3")]) (by decide +kernel) (by decide +kernel)
  obtain ⟨s, doc, h1, h2, h3⟩ := C140_syntax _ rfl hw hv hk ind
  obtain ⟨s', doc', g1, g2, -, g3⟩ := C140_typed _ rfl hw hv hk ind
  rw [h1] at g1; cases g1
  rw [h2] at g2; cases g2
  refine ⟨s, doc, h1, h2, h3.2 (treeWith_fits ⟨⟨_, rfl, fit_small (by decide)⟩, (by rintro v ⟨⟩; exact word_self _),
    two_ok (fit_small (by decide)) (fit_small (by decide)), by simp, fun x hx => ?_⟩), fun h => ?_⟩
  · cases List.mem_singleton.1 hx
    refine .inr ⟨⟨_, rfl, 's', lit! "1", rfl, by decide, by decide⟩, (by rintro v ⟨⟩), fun n v hv => ?_, .inr ⟨fun v hv => ?_, lacks_iff.2 ⟨_, .head _⟩⟩⟩
    · cases List.mem_singleton.1 hv
      have f2 : IdFits (lit! "s2") := ⟨'s', lit! "2", rfl, by decide, by decide⟩
      have f3 : IdFits (lit! "s3") := ⟨'s', lit! "3", rfl, by decide, by decide⟩
      exact .inr (.inr ⟨rfl, .more (a := lit! " ") (i := lit! "s2") (c := ' ') (s := lit! "s3") (by unfold Ws; decide) f2 (by decide) (.last (a := []) (by simp [Ws]) f3)⟩)
    · cases List.mem_singleton.1 hv
  · have := g3 h _ (.head _) _ (.tail _ (.head _)) (lit! "syntax") rfl
    rw [← tokens_iff (by decide) (by decide)] at this
    exact absurd this (by decide)

/-- a dependency without a head (the root) -/
example (ind : Option Int) : ∃ s doc, dumpsXml ind (treeWith (lit! "dependencies") depAttrs [(lit! "dep", lit! "w1")]) = .ok s ∧ docText s = .ok doc ∧
    Valid dependencies_rnc doc := by
  obtain ⟨hw, hv, hk⟩ := treeWith_fine (ty := lit! "dependencies") (a := depAttrs) (b := [(lit! "dep", lit! "w1")]) (by decide +kernel) (by decide +kernel)
  obtain ⟨s, doc, h1, h2, h3⟩ := C140_dependencies _ rfl hw hv hk ind
  refine ⟨s, doc, h1, h2, h3.2 (treeWith_fits ⟨⟨_, rfl, fit_small (by decide)⟩, (by rintro v ⟨⟩; exact word_self _),
    two_ok (fit_small (by decide)) (fit_small (by decide)), by simp, fun x hx => ?_⟩)⟩
  cases List.mem_singleton.1 hx
  refine .inr ⟨⟨_, rfl, 's', lit! "1", rfl, by decide, by decide⟩, (by rintro v ⟨⟩), fun n v hv => ?_, lacks_iff.2 ⟨_, .head _⟩⟩
  cases List.mem_singleton.1 hv
  exact .inr ⟨.inl rfl, algn_word⟩

/-- **C140** refuted as to "setting refs to empty blocks content/alignment/segmentation" (syntax.rnc:4,
dependencies.rnc:4): items in such tiers may still have these references (`LocalItem`, xigt-tier.rnc:32),
and neither of those the extension is about. -/
theorem C140_refuted (ind : Option Int) :
    (∃ s doc, dumpsXml ind (treeWith (lit! "syntax") synAttrs [(lit! "alignment", lit! "w1"), (lit! "content", lit! "w1")]) = .ok s ∧ docText s = .ok doc ∧
      Valid syntax_rnc doc) ∧
    ∃ s doc, dumpsXml ind (treeWith (lit! "dependencies") depAttrs [(lit! "alignment", lit! "w1"), (lit! "content", lit! "w1")]) = .ok s ∧
      docText s = .ok doc ∧ Valid dependencies_rnc doc := by
  have hr : ItemFitsX (.mk { cls := .item, id := some (lit! "s1"), attrs := [(lit! "alignment", lit! "w1"), (lit! "content", lit! "w1")] } [] []) := by
    refine ⟨⟨_, rfl, 's', lit! "1", rfl, by decide, by decide⟩, (by rintro v ⟨⟩), fun n v hv => ?_, .inl fun v hv => ?_⟩
    · rcases List.mem_cons.1 hv with e | hv
      · cases e; exact .inr ⟨.inl rfl, algn_word⟩
      · cases List.mem_singleton.1 hv; exact .inr ⟨.inr (.inl rfl), algn_word⟩
    · rcases List.mem_cons.1 hv with e | hv
      · exact absurd (congrArg Prod.fst e) (show ¬ SEG = lit! "alignment" by decide)
      · exact absurd (congrArg Prod.fst (List.mem_singleton.1 hv)) (show ¬ SEG = lit! "content" by decide)
  constructor
  · obtain ⟨hw, hv, hk⟩ := treeWith_fine (ty := lit! "syntax") (a := synAttrs) (b := [(lit! "alignment", lit! "w1"), (lit! "content", lit! "w1")])
      (by decide +kernel) (by decide +kernel)
    obtain ⟨s, doc, h1, h2, h3⟩ := C140_syntax _ rfl hw hv hk ind
    refine ⟨s, doc, h1, h2, h3.2 (treeWith_fits ⟨⟨_, rfl, fit_small (by decide)⟩, (by rintro v ⟨⟩; exact word_self _),
      two_ok (fit_small (by decide)) (fit_small (by decide)), by simp, fun x hx => ?_⟩)⟩
    cases List.mem_singleton.1 hx
    exact .inl hr
  · obtain ⟨hw, hv, hk⟩ := treeWith_fine (ty := lit! "dependencies") (a := depAttrs) (b := [(lit! "alignment", lit! "w1"), (lit! "content", lit! "w1")])
      (by decide +kernel) (by decide +kernel)
    obtain ⟨s, doc, h1, h2, h3⟩ := C140_dependencies _ rfl hw hv hk ind
    refine ⟨s, doc, h1, h2, h3.2 (treeWith_fits ⟨⟨_, rfl, fit_small (by decide)⟩, (by rintro v ⟨⟩; exact word_self _),
      two_ok (fit_small (by decide)) (fit_small (by decide)), by simp, fun x hx => ?_⟩)⟩
    cases List.mem_singleton.1 hx
    exact .inl hr

end
end Xigt.Rng
