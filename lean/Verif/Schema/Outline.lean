import Verif.Schema.Load
import Verif.Schema.XigtProps
import Verif.Schema.Abkhaz
/- The outline that all the schemata in the repository agree on. -/

set_option linter.unusedSectionVars false

namespace Xigt.Rng
section
variable [Uni] [XmlLex] [Xsd] {env : Str → Pat}

/-- nothing but attributes, with proper identifiers -/
def Att (env : Str → Pat) (p : Pat) : Prop := ∀ a ns, Matches env p a ns → ns = [] ∧ OptIdAttr a
/-- attributes with proper identifiers, and content -/
def Body (env : Str → Pat) (p : Pat) (A : List Node → Prop) : Prop := ∀ a ns, Matches env p a ns → OptIdAttr a ∧ A ns
/-- nothing but elements of a kind -/
def Kind (env : Str → Pat) (p : Pat) (K : Node → Prop) : Prop := ∀ a ns, Matches env p a ns → a = [] ∧ WsOnly ns ∧ ∀ n ∈ elems ns, K n

theorem optIdAttr_nil : OptIdAttr [] := fun _ h => by cases h

theorem optIdAttr_perm {a b c : List (Str × Str)} (h : a.Perm (b ++ c)) (hb : OptIdAttr b) (hc : OptIdAttr c) : OptIdAttr a :=
  fun v hv => (List.mem_append.1 (h.mem_iff.1 hv)).elim (hb v) (hc v)

theorem Att.empty : Att env .empty := fun a ns h => by
  obtain ⟨rfl, rfl⟩ := empty_iff.1 h
  exact ⟨rfl, optIdAttr_nil⟩

theorem Att.att {k : Str} {p : Pat} (hk : k ≠ lit! "id") : Att env (att k p) := fun a ns h => by
  obtain ⟨rfl, k', v, rfl, hk', -⟩ := attr_iff.1 h
  refine ⟨rfl, fun w hw => ?_⟩
  cases List.mem_singleton.1 hw
  exact absurd hk'.symm hk

theorem Att.id : Att env (Rng.att (lit! "id") Id) := fun a ns h => by
  obtain ⟨rfl, k', v, rfl, -, hv⟩ := attr_iff.1 h
  refine ⟨rfl, fun w hw => ?_⟩
  cases List.mem_singleton.1 hw
  exact id_val.1 hv

theorem Att.choice {p q : Pat} (hp : Att env p) (hq : Att env q) : Att env (.choice p q) := fun a ns h =>
  (choice_iff.1 h).elim (hp a ns) (hq a ns)

theorem Att.opt {p : Pat} (hp : Att env p) : Att env (.opt p) := hp.choice .empty

theorem Att.group {p q : Pat} (hp : Att env p) (hq : Att env q) : Att env (.group p q) := fun a ns h => by
  obtain ⟨a₁, a₂, n₁, n₂, h1, h2, h3, h4⟩ := group_iff.1 h
  obtain ⟨e1, i1⟩ := hp _ _ h3
  obtain ⟨e2, i2⟩ := hq _ _ h4
  exact ⟨by rw [h2, e1, e2]; rfl, optIdAttr_perm h1 i1 i2⟩

theorem Att.plus {p : Pat} (hp : Att env p) : Att env (.plus p) := by
  intro a ns h
  generalize hq : Pat.plus p = q at h
  induction h with
  | one h => cases hq; exact hp _ _ h
  | more h1 h2 _ _ ih =>
    cases hq
    obtain ⟨e1, i1⟩ := hp _ _ h2
    obtain ⟨e2, i2⟩ := ih rfl
    exact ⟨by rw [e1, e2]; rfl, optIdAttr_perm h1 i1 i2⟩
  | _ => cases hq

theorem Body.group {p q : Pat} {A : List Node → Prop} (hp : Att env p) (hq : Body env q A) : Body env (.group p q) A := fun a ns h => by
  obtain ⟨a₁, a₂, n₁, n₂, h1, h2, h3, h4⟩ := group_iff.1 h
  obtain ⟨e1, i1⟩ := hp _ _ h3
  obtain ⟨i2, hA⟩ := hq _ _ h4
  exact ⟨optIdAttr_perm h1 i1 i2, by rw [h2, e1]; exact hA⟩

theorem Body.imp {p : Pat} {A B : List Node → Prop} (h : Body env p A) (hAB : ∀ ns, A ns → B ns) : Body env p B :=
  fun a ns hm => ⟨(h a ns hm).1, hAB ns (h a ns hm).2⟩

theorem Body.text : Body env .text (fun ns => elems ns = []) := fun a ns h => by
  obtain ⟨rfl, g⟩ := text_iff.1 h
  exact ⟨optIdAttr_nil, elems_nil_iff.2 g⟩

theorem Body.none {p : Pat} (h : NoAttr env p) : Body env p (fun _ => True) := fun a ns hm => by
  rw [h a ns hm]; exact ⟨optIdAttr_nil, trivial⟩

theorem wsOnly_nil : WsOnly ([] : List Node) := fun _ h => by cases h

theorem Kind.notAllowed {K : Node → Prop} : Kind env .notAllowed K := fun _ _ h => absurd h notAllowed_iff

theorem Kind.choice {p q : Pat} {K : Node → Prop} (hp : Kind env p K) (hq : Kind env q K) : Kind env (.choice p q) K := fun a ns h =>
  (choice_iff.1 h).elim (hp a ns) (hq a ns)

theorem Kind.star {p : Pat} {K : Node → Prop} (hp : Kind env p K) : Kind env (.star p) K := by
  intro a ns h
  rcases star_iff.1 h with h | ⟨rfl, rfl⟩
  · generalize hq : Pat.plus p = q at h
    induction h with
    | one h => cases hq; exact hp _ _ h
    | more h1 h2 h3 _ ih =>
      cases hq
      obtain ⟨rfl, w1, k1⟩ := hp _ _ h2
      obtain ⟨rfl, w2, k2⟩ := ih (star_iff.2 (.inl h3)) rfl
      refine ⟨List.perm_nil.1 h1, wsOnly_append.2 ⟨w1, w2⟩, fun n hn => ?_⟩
      rw [elems_append] at hn
      exact (List.mem_append.1 hn).elim (k1 n) (k2 n)
    | _ => cases hq
  · exact ⟨rfl, wsOnly_nil, fun n hn => by cases hn⟩

theorem Body.one {p : Pat} {K : Node → Prop} (hp : Kind env p K) : Body env p (fun ns => WsOnly ns ∧ ∀ n ∈ elems ns, K n) := fun a ns h => by
  obtain ⟨rfl, h2, h3⟩ := hp _ _ h
  exact ⟨optIdAttr_nil, h2, h3⟩

theorem Body.two {p q : Pat} {A B : Node → Prop} (hp : Kind env p A) (hq : Kind env q B) : Body env (.group p q) (TwoKinds A B) := fun a ns h => by
  obtain ⟨a₁, a₂, n₁, n₂, h1, h2, h3, h4⟩ := group_iff.1 h
  obtain ⟨rfl, w1, k1⟩ := hp _ _ h3
  obtain ⟨rfl, w2, k2⟩ := hq _ _ h4
  rw [List.perm_nil.1 h1, h2]
  exact ⟨optIdAttr_nil, wsOnly_append.2 ⟨w1, w2⟩, _, _, elems_append _ _, k1, k2⟩

theorem Kind.elem {t : Str} {p : Pat} {A : List Node → Prop} {K : Node → Prop} (hp : Body env p A)
    (hK : ∀ a ns, OptIdAttr a → (A ns ∨ WsNodes ns) → K (.elem t a ns)) : Kind env (.elem (.name t) p) K := fun a ns h => by
  obtain ⟨rfl, w₁, tag, as, ks, w₂, rfl, g1, g2, g3, g4⟩ := elem_iff.1 h
  obtain ⟨e1, o1⟩ := wsNodes_iff.1 g1
  obtain ⟨e2, o2⟩ := wsNodes_iff.1 g2
  refine ⟨rfl, wsOnly_append.2 ⟨o1, fun s hs => ?_⟩, fun n hn => ?_⟩
  · rcases List.mem_cons.1 hs with hs | hs
    · cases hs
    · exact o2 s hs
  · rw [elems_append, e1, List.nil_append, show elems (.elem tag as ks :: w₂) = .elem tag as ks :: elems w₂ from rfl, e2, List.mem_singleton] at hn
    subst hn
    rw [show tag = t from g3]
    rcases g4 with g4 | ⟨g4, g5 | g5⟩
    · obtain ⟨i, hA⟩ := hp _ _ g4; exact hK _ _ i (.inl hA)
    · exact hK _ _ (hp _ _ g5).1 (.inr g4)
    · exact hK _ _ (hp _ _ g5).1 (.inr g4)

theorem twoKinds_ws {A B : Node → Prop} {ns : List Node} (h : TwoKinds A B ns ∨ WsNodes ns) : TwoKinds A B ns := by
  rcases h with h | h
  · exact h
  · obtain ⟨e, o⟩ := wsNodes_iff.1 h
    exact ⟨o, [], [], e, by simp, by simp⟩

/-! ### The files -/

/-- names with which the outline is kept -/
structure Good (env : Str → Pat) (p : Names) : Prop where
  base : Att env p.baseAttrs
  itemId : p.itemId = Id
  itemAttrs : Att env p.itemAttrs
  item : Kind env p.item ItemS
  tierId : p.tierId = Id
  tierAttrs : Att env p.tierAttrs
  tierMetadata : Kind env p.tierMetadata MdS
  tier : Kind env p.tier TierS
  metaId : p.metaId = Id
  metaAttrs : Att env p.metaAttrs
  metaP : Kind env p.metaP MetaS
  metadataId : p.metadataId = Id
  metadataAttrs : Att env p.metadataAttrs
  metadata : Kind env p.metadata MdS
  igtId : p.igtId = Id
  igtAttrs : Att env p.igtAttrs
  igtMetadata : Kind env p.igtMetadata MdS
  igt : Kind env p.igt IgtS
  corpusId : p.corpusId = Id
  corpusAttrs : Att env p.corpusAttrs
  corpusMetadata : Kind env p.corpusMetadata MdS

theorem att_refs {a b c : Pat} : Att env (refsPat a b c) :=
  .choice (.group (.opt (.att (by decide))) (.opt (.att (by decide)))) (.opt (.att (by decide)))

variable {p : Names}

theorem Good.meta (h : Good env p) (he : env ANY = AnyElement) {c : Pat} (hc : NoAttr env c := by exact anyContent_noAttr he) : Kind env (metaFile p c) MetaS := by
  rw [metaFile, h.metaId]
  exact .elem (.group (.opt .id) (.group h.base (.group (.opt (.att (by decide))) (.group h.metaAttrs (.none hc))))) fun a ns i _ => ⟨rfl, i⟩

theorem Good.mdWith (h : Good env p) {c : Pat} (hc : Kind env c MetaS) : Kind env (metadataFile p c) MdS := by
  rw [metadataFile, h.metadataId]
  refine .elem (.group (.opt .id) (.group h.base (.group (.opt (.att (by decide))) (.group h.metadataAttrs (.one hc))))) fun a ns i hA => ?_
  rcases hA with ⟨h1, h2⟩ | hA
  · exact ⟨rfl, i, h1, h2⟩
  · obtain ⟨e, o⟩ := wsNodes_iff.1 hA
    exact ⟨rfl, i, o, by simp [e]⟩

theorem Good.md (h : Good env p) (he : env ANY = AnyElement) : Kind env (metadataFile p) MdS :=
  h.mdWith (.star (.choice h.metaP (h.meta he)))

theorem Good.itemWith (h : Good env p) {r : Pat} (hr : Att env r) : Kind env (itemFile p r) ItemS := by
  rw [itemFile, h.itemId]
  refine .elem (.group .id (.group h.base (.group hr (.group (.opt (.att (by decide))) (.group h.itemAttrs .text))))) fun a ns i hA => ⟨rfl, i, ?_⟩
  rcases hA with hA | hA
  · exact hA
  · exact (wsNodes_iff.1 hA).1

theorem Good.tierWith (h : Good env p) (he : env ANY = AnyElement) {t r : Pat} (hr : Att env r) : Kind env (tierFile p t r) TierS := by
  rw [tierFile, h.tierId]
  exact .elem (.group .id (.group h.base (.group hr (.group (.opt (.att (by decide))) (.group h.tierAttrs
    (.two (.star (.choice h.tierMetadata (.choice h.metadata (h.md he)))) (.star (.choice h.item (h.itemWith att_refs)))))))))
    fun a ns i hA => ⟨rfl, i, twoKinds_ws hA⟩

theorem Good.tierOf (h : Good env p) (he : env ANY = AnyElement) {t : Pat} : Kind env (tierFile p t) TierS := h.tierWith he att_refs

theorem Good.igtOf (h : Good env p) (he : env ANY = AnyElement) : Kind env (igtFile p) IgtS := by
  rw [igtFile, h.igtId]
  exact .elem (.group .id (.group h.base (.group (.opt (.att (by decide))) (.group h.igtAttrs
    (.two (.star (.choice h.igtMetadata (.choice h.metadata (h.md he)))) (.star (.choice h.tier (h.tierOf he))))))))
    fun a ns i hA => ⟨rfl, i, twoKinds_ws hA⟩

theorem Good.corpusOf (h : Good env p) (he : env ANY = AnyElement) : Kind env (corpusFile p) CorpusS := by
  rw [corpusFile, h.corpusId]
  exact .elem (.group (.opt .id) (.group h.base (.group (.opt (.att (by decide))) (.group h.corpusAttrs
    (.two (.star (.choice h.corpusMetadata (.choice h.metadata (h.md he)))) (.star (.choice h.igt (h.igtOf he))))))))
    fun a ns i hA => ⟨rfl, i, twoKinds_ws hA⟩

/-! ### The schemata -/

theorem att_base : Att env BaseAttrs :=
  .group (.opt (.att (by decide))) (.opt (.att (by decide)))

theorem good_xigt : Good env xigtNames where
  base := att_base
  itemId := rfl
  itemAttrs := .empty
  item := .notAllowed
  tierId := rfl
  tierAttrs := .empty
  tierMetadata := .star .notAllowed
  tier := .notAllowed
  metaId := rfl
  metaAttrs := .empty
  metaP := .notAllowed
  metadataId := rfl
  metadataAttrs := .empty
  metadata := .notAllowed
  igtId := rfl
  igtAttrs := .empty
  igtMetadata := .star .notAllowed
  igt := .notAllowed
  corpusId := rfl
  corpusAttrs := .empty
  corpusMetadata := .star .notAllowed

theorem good_default₁ : Good env defaultNames₁ := { good_xigt with }

theorem kind_defaultMeta (he : env ANY = AnyElement) : Kind env defaultMeta MetaS := by
  have ht : NoAttr env .text := noAttr_text
  have g : ∀ {t a : Pat}, Att env a → Good env { defaultNames₁ with metaType := t, metaAttrs := a } := fun ha => { good_default₁ with metaAttrs := ha }
  refine .choice .notAllowed (.choice (Good.meta (g ?_) he) (.choice (Good.meta (g .empty) he ht) (.choice (Good.meta (g .empty) he ht)
    (.choice (Good.meta (g .empty) he ht) (.choice (Good.meta (g ?_) he) (Good.meta (g .empty) he ht))))))
  · exact .group (.plus (.choice (.att (by decide)) (.att (by decide)))) (.att (by decide))
  · exact .group (.att (by decide)) (.opt (.att (by decide)))

theorem good_default₂ (he : env ANY = AnyElement) : Good env defaultNames₂ := { good_default₁ with metaP := kind_defaultMeta he }

theorem kind_tiersOf (he : env ANY = AnyElement) (h : Good env p) : Kind env (tiersOf p) TierS := by
  have g : ∀ {t : Pat}, Good env { p with itemType := t } := { h with }
  exact .choice .notAllowed (.choice (g.tierOf he) (.choice (h.tierOf he) (.choice (g.tierOf he) (.choice (g.tierOf he) (h.tierOf he)))))

theorem good_default (he : env ANY = AnyElement) : Good env defaultNames :=
  { good_default₂ he with tier := kind_tiersOf (p := defaultNames₂) he (good_default₂ he) }

theorem good_abkhaz₂ (he : env ANY = AnyElement) : Good env abkhazNames₂ := by
  have g : ∀ {t a : Pat}, Att env a → Good env { defaultNames₁ with metaType := t, metaAttrs := a } := fun ha => { good_default₁ with metaAttrs := ha }
  refine { good_default₁ with metaP := .choice (kind_defaultMeta he) (.choice (Good.meta (g (.att (by decide))) he) (.choice (Good.meta (g (.att (by decide))) he) (Good.meta (g .empty) he ?_))) }
  exact star_noAttr fun a ns h => (elem_iff.1 h).1

theorem good_abkhaz (he : env ANY = AnyElement) : Good env abkhazNames := by
  have h := good_abkhaz₂ (env := env) he
  have hi : Kind env (nodeItem abkhazNames₂) ItemS :=
    .choice (h.itemWith att_refs) (Good.itemWith (p := { abkhazNames₂ with itemAttrs := att (lit! "children") AlgnExpr }) { h with itemAttrs := .att (by decide) } .empty)
  refine { h with tier := .choice (kind_tiersOf he h) (Good.tierOf (p := { abkhazNames₂ with tierAttrs := att (lit! "children") Id, item := nodeItem abkhazNames₂ }) ?_ he) }
  exact { h with tierAttrs := .att (by decide), item := hi }

theorem good_syntax (he : env ANY = AnyElement) : Good env { xigtNames with tier := syntaxTier xigtNames } := by
  refine { good_xigt with tier := Good.tierWith (p := { xigtNames with item := _ }) ?_ he (.group (.att (by decide)) (.att (by decide))) }
  exact { good_xigt with item := good_xigt.itemWith (.choice (.att (by decide)) (.att (by decide))) }

theorem good_dependencies (he : env ANY = AnyElement) : Good env { xigtNames with tier := depTier xigtNames } := by
  refine { good_xigt with tier := Good.tierWith (p := { xigtNames with item := _ }) ?_ he (.group (.att (by decide)) (.att (by decide))) }
  exact { good_xigt with item := good_xigt.itemWith (.group (.att (by decide)) (.opt (.att (by decide)))) }

theorem good_odin₁ (he : env ANY = AnyElement) (dt : Str → Prop) : Good env (odinNames₁ dt) := by
  have hl : ∀ n, NoAttr env (languageElem n) := fun n a ns h => (elem_iff.1 h).1
  have gx : Good env xigtNames := good_xigt
  refine { good_xigt with
    itemAttrs := .opt (.att (by decide))
    igtAttrs := .group (.att (by decide)) (.group (.att (by decide)) (.group (.att (by decide)) (.opt (.att (by decide)))))
    igtMetadata := gx.mdWith (gx.meta he (fun a ns h => (choice_iff.1 h).elim (hl _ a ns) (hl _ a ns)))
    tierMetadata := .choice (Good.md ?_ he) (Good.md ?_ he) }
  · exact { good_xigt with metaAttrs := .group (.att (by decide)) (.group (.att (by decide)) (.group (.att (by decide)) (.opt (.att (by decide))))) }
  · exact { good_xigt with metaAttrs := .group (.att (by decide)) (.att (by decide)) }

theorem good_odin (he : env ANY = AnyElement) (dt : Str → Prop) : Good env (odinNames dt) := by
  have h := good_odin₁ (env := env) he dt
  have w : ∀ {t : Pat}, Kind env (tierFile (odinNames₁ dt) t) TierS := h.tierOf he
  have gi : ∀ {i : Pat}, Kind env i ItemS → Good env { odinNames₁ dt with item := i } := fun hi => { h with item := hi }
  refine { h with tier := .choice .notAllowed (.choice ?_ (.choice w (.choice w (.choice w (.choice w (.choice w (.choice w (.choice ?_ (.choice ?_ ?_))))))))) }
  · refine Good.tierOf ?_ he
    exact { h with tierAttrs := .att (by decide), itemAttrs := .group h.itemAttrs (.group (.att (by decide)) (.att (by decide))) }
  · exact (gi (h.itemWith (.group (.att (by decide)) (.opt (.att (by decide)))))).tierWith he (.group (.att (by decide)) (.att (by decide)))
  · exact (gi (h.itemWith (.group (.choice (.att (by decide)) (.att (by decide))) (.opt (.att (by decide)))))).tierWith he
      (.group (.att (by decide)) (.group (.att (by decide)) (.opt (.att (by decide)))))
  · exact (gi (h.itemWith (.group (.att (by decide)) (.group (.opt (.att (by decide))) (.opt (.att (by decide))))))).tierWith he
      (.group (.att (by decide)) (.group (.att (by decide)) (.opt (.att (by decide)))))

/-- what is valid has the outline -/
theorem valid_outline (h : Good (grammar p).defs p) {doc : Node} (hv : Valid (grammar p) doc) : CorpusS doc := by
  have he : (grammar p).defs ANY = AnyElement := by simp [grammar]
  obtain ⟨-, -, h3⟩ := h.corpusOf he _ _ hv
  refine h3 doc ?_
  obtain ⟨-, w₁, tag, as, ks, w₂, e, -⟩ := elem_iff.1 hv
  obtain ⟨-, rfl, -⟩ := singleton_split e
  exact List.mem_singleton.2 rfl

end
end Xigt.Rng
