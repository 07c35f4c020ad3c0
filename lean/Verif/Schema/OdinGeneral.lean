import Verif.Schema.OdinSchema
import Verif.Schema.Abkhaz
/- C154: which corpora are written as documents valid against schema/extensions/odin-xigt.rnc, whatever made them. -/

set_option linter.unusedSectionVars false

namespace Xigt.Rng

section
variable [Uni] [Xsd]

/-! ### The condition, without patterns -/

/-- attributes with their values, and whether they are needed -/
abbrev FitSpec := List (Str × Bool × (Str → Prop))

def need (k : Str) (F : Str → Prop := fun _ => True) : Str × Bool × (Str → Prop) := (k, true, F)
def may (k : Str) (F : Str → Prop := fun _ => True) : Str × Bool × (Str → Prop) := (k, false, F)

/-- all that are needed, and no others but `xml:lang` and `xml:space` -/
def AttrsFit (f : FitSpec) (a : List (Str × Str)) : Prop :=
  (∀ s ∈ f, s.2.1 = true → ¬ Lacks a s.1) ∧ ∀ k v, (k, v) ∈ a → BaseAttr k v ∨ ∃ s ∈ f, s.1 = k ∧ s.2.2 v

/-- `alignment` and `content`, or `segmentation`; and what else there may be -/
def refsFit (F : Str → Prop) (more : FitSpec) : List FitSpec := [[may ALN F, may CNT F] ++ more, [may SEG F] ++ more]

/-- a kind of tiers: the types, the attributes of the tier and those of the items -/
structure OdinKind where
  type : Str → Prop
  attrs : List FitSpec
  items : List FitSpec

/-- `alignment`, `content`, `segmentation`, and `judgment` -/
def odinItem : List FitSpec := refsFit AlgnFits [may (lit! "judgment")]

/-- odin-xigt.rnc:46-105, and xigt.rnc for tiers without a type -/
def odinKinds : List OdinKind :=
  [⟨Word (lit! "odin"), refsFit IdFits [need (lit! "state") (OneOf [lit! "raw", lit! "cleaned", lit! "normalized"])],
      refsFit AlgnFits [may (lit! "judgment"), need (lit! "line"), need (lit! "tag")]⟩,
    ⟨OneOf [lit! "phrases", lit! "words", lit! "morphemes", lit! "glosses", lit! "translations", lit! "pos"], refsFit IdFits [], odinItem⟩,
    ⟨Word (lit! "bilingual-alignments"), [[need (lit! "source") IdFits, need (lit! "target") IdFits]],
      [need (lit! "source") AlgnFits, may (lit! "target") AlgnFits, may (lit! "judgment")] :: odinItem⟩,
    ⟨Word (lit! "phrase-structure"), [[need ALN IdFits, need (lit! "children") IdFits, may CNT IdFits]],
      [need ALN AlgnFits, may CNT AlgnFits, may (lit! "judgment")] :: [need (lit! "children") IdListFits, may CNT AlgnFits, may (lit! "judgment")] :: odinItem⟩,
    ⟨Word (lit! "dependencies"), [[need (lit! "dep") IdFits, need (lit! "head") IdFits, may CNT IdFits]],
      [need (lit! "dep") AlgnFits, may (lit! "head") AlgnFits, may CNT AlgnFits, may (lit! "judgment")] :: odinItem⟩]

def ItemFitsO (fs : List FitSpec) (x : Obj) : Prop := HasId x.data ∧ BlankType x.data ∧ ∃ f ∈ fs, AttrsFit f x.data.attrs

/-- notes of the type `ty` with these attributes -/
def NoteFitsO (ty : Str) (f : FitSpec) (x : Obj) : Prop :=
  OptId x.data ∧ (∀ v, x.data.type = some v → Word ty v) ∧ AttrsFit f x.data.attrs ∧ (x.data.text = none ∨ x.kids ≠ [])

/-- metadata of the type `ty` with such notes -/
def NotesFitO (ty ty' : Str) (f : FitSpec) (x : Obj) : Prop :=
  OptId x.data ∧ (∀ v, x.data.type = some v → Word ty v) ∧ OnlyBase x.data.attrs ∧ ∀ m ∈ x.kids, NoteFitsO ty' f m

/-- the metadata of a tier (odin-xigt.rnc:29-42, or as in xigt.rnc); `dateTime` are the values of `xsd:dateTime` -/
def TierMdFitsO (dateTime : Str → Prop) (x : Obj) : Prop :=
  MdFitsX x ∨
  NotesFitO (lit! "xigt-meta") (lit! "data-provenance")
    [need (lit! "date") dateTime, need (lit! "method"), need (lit! "source"), may (lit! "projected-from")] x ∨
  NotesFitO (lit! "intent-meta") (lit! "extended-data") [need (lit! "date") dateTime, need (lit! "token-type")] x

def TierFitsO (dateTime : Str → Prop) (x : Obj) : Prop :=
  HasId x.data ∧ (∀ m ∈ x.md, TierMdFitsO dateTime m) ∧
  ∃ k ∈ odinKinds, (∀ v, x.data.type = some v → k.type v) ∧ (∃ f ∈ k.attrs, AttrsFit f x.data.attrs) ∧ ∀ i ∈ x.kids, ItemFitsO k.items i

def IgtFitsO (dateTime : Str → Prop) (x : Obj) : Prop :=
  HasId x.data ∧ BlankType x.data ∧
  AttrsFit [need (lit! "doc-id"), need (lit! "line-range"), need (lit! "tag-types"), may (lit! "judgment")] x.data.attrs ∧
  (∀ m ∈ x.md, MdFitsX m) ∧ ∀ t ∈ x.kids, TierFitsO dateTime t

def CorpusFitsO (dateTime : Str → Prop) (x : Obj) : Prop :=
  OptId x.data ∧ OnlyBase x.data.attrs ∧ (∀ m ∈ x.md, MdFitsX m) ∧ ∀ t ∈ x.kids, IgtFitsO dateTime t

end

section
variable [Uni] [XmlLex] [Xsd] {env : Str → Pat}

/-! ### Attributes -/

/-- the patterns of these attributes have these values -/
def ReadsO (env : Str → Pat) : AttSpec → FitSpec → Prop
  | [], [] => True
  | s :: x, s' :: f => (s.1 = s'.1 ∧ s.2.1 = s'.2.1 ∧ ∀ v, Val env s.2.2 v ↔ s'.2.2 v) ∧ ReadsO env x f
  | _, _ => False

theorem ReadsO.names : ∀ {x : AttSpec} {f : FitSpec}, ReadsO env x f → x.map (·.1) = f.map (·.1)
  | [], [], _ => rfl
  | s :: x, s' :: f, h => by rw [List.map_cons, List.map_cons, h.1.1, ReadsO.names h.2]
  | [], _ :: _, h => h.elim
  | _ :: _, [], h => h.elim

theorem ReadsO.any : ∀ {x : AttSpec} {f : FitSpec}, ReadsO env x f → ∀ {k v : Str},
    (∃ s ∈ x, s.1 = k ∧ Val env s.2.2 v) ↔ ∃ s ∈ f, s.1 = k ∧ s.2.2 v
  | [], [], _, _, _ => by simp
  | s :: x, s' :: f, h, k, v => by
    simp only [List.mem_cons, exists_eq_or_imp, h.1.1, h.1.2.2 v, ReadsO.any h.2]
  | [], _ :: _, h, _, _ => h.elim
  | _ :: _, [], h, _, _ => h.elim

theorem ReadsO.all : ∀ {x : AttSpec} {f : FitSpec}, ReadsO env x f → ∀ {P : Str → Prop},
    (∀ s ∈ x, s.2.1 = true → P s.1) ↔ ∀ s ∈ f, s.2.1 = true → P s.1
  | [], [], _, _ => by simp
  | s :: x, s' :: f, h, P => by
    simp only [List.forall_mem_cons, h.1.1, h.1.2.1, ReadsO.all h.2]
  | [], _ :: _, h, _ => h.elim
  | _ :: _, [], h, _ => h.elim

theorem fit_atts {x : AttSpec} {f : FitSpec} (h : ReadsO env x f) {a : List (Str × Str)} : Atts env (baseSpec ++ x) a ↔ AttrsFit f a := by
  rw [atts_base_append, AttrsFit, h.all (P := fun k => ¬ Lacks a k)]
  simp only [h.any]

/-- the references are as in one of these -/
def RefsAre (env : Str → Pat) (r : Pat) (R : List AttSpec) : Prop :=
  ∀ q a ns, Matches env (.group r q) a ns ↔ ∃ x ∈ R, Matches env (attsPat x q) a ns

theorem refsAre_one {r : Pat} {x : AttSpec} (h : ∀ q, Same env (.group r q) (attsPat x q)) : RefsAre env r [x] := by
  intro q a ns
  rw [h q a ns]
  simp

theorem refsAre_two {r : Pat} {x y : AttSpec} (h : ∀ q, Same env (.group r q) (.choice (attsPat x q) (attsPat y q))) : RefsAre env r [x, y] := by
  intro q a ns
  rw [h q a ns, choice_iff]
  simp

theorem refsAre_plain {r : Pat} : RefsAre env (refsPat r r r) [acSpec r, segSpec r] :=
  refsAre_two fun _ => .trans .distrib (.choice .assoc (.refl _))

theorem attsPat_append {q : Pat} {y : AttSpec} : ∀ l : AttSpec, attsPat l (attsPat y q) = attsPat (l ++ y) q
  | [] => rfl
  | (k, true, p) :: l => by simp only [List.cons_append, attsPat, attsPat_append l]
  | (k, false, p) :: l => by simp only [List.cons_append, attsPat, attsPat_append l]

theorem content_any {p : Pat} {R : List AttSpec} {g : AttSpec → Pat} (h : ∀ a ns, Matches env p a ns ↔ ∃ x ∈ R, Matches env (g x) a ns) {a ns} :
    Content env p a ns ↔ ∃ x ∈ R, Content env (g x) a ns := by
  simp only [Content, h]
  constructor
  · rintro (⟨x, hx, h⟩ | ⟨hw, ⟨x, hx, h⟩ | ⟨x, hx, h⟩⟩)
    · exact ⟨x, hx, .inl h⟩
    · exact ⟨x, hx, .inr ⟨hw, .inl h⟩⟩
    · exact ⟨x, hx, .inr ⟨hw, .inr h⟩⟩
  · rintro ⟨x, hx, h | ⟨hw, h | h⟩⟩
    · exact .inl ⟨x, hx, h⟩
    · exact .inr ⟨hw, .inl ⟨x, hx, h⟩⟩
    · exact .inr ⟨hw, .inr ⟨x, hx, h⟩⟩

/-- elements with an identifier, references, a type and other attributes -/
theorem kinds_content {m : Dict Str Str} {d : Data} (hk : XmlDataKept m d) {r t e q : Pat} {R : List AttSpec} {y : AttSpec} (hr : RefsAre env r R)
    (he : ∀ q, Same env (.group e q) (attsPat y q)) (hx : ∀ x ∈ R, FreshE ((x ++ y).map (·.1))) (hq : NoAttr env q)
    (hn : ((attrsOf d).map (·.1)).Nodup) {ns : List Node} :
    Content env (.group (att (lit! "id") Id) (.group BaseAttrs (.group r (.group (.opt (att (lit! "type") t)) (.group e q))))) (attrsOf d) ns ↔
    (HasId d ∧ (∀ v, d.type = some v → Val env t v) ∧ ∃ x ∈ R, Atts env (baseSpec ++ (x ++ y)) d.attrs) ∧ Content env q [] ns := by
  have key : ∀ a ns, Matches env (.group (att (lit! "id") Id) (.group BaseAttrs (.group r (.group (.opt (att (lit! "type") t)) (.group e q))))) a ns ↔
      ∃ x ∈ R, Matches env (attsPat ((lit! "id", true, Id) :: (baseSpec ++ (x ++ ((lit! "type", false, t) :: y)))) q) a ns := by
    intro a ns
    have h1 : ∀ a ns, Matches env (.group r (.group (.opt (att (lit! "type") t)) (.group e q))) a ns ↔
        ∃ x ∈ R, Matches env (attsPat (x ++ ((lit! "type", false, t) :: y)) q) a ns := by
      intro a ns
      rw [Same.right (Same.right (he q)) a ns, hr]
      simp only [← attsPat_append]
      exact Iff.rfl
    have dist : ∀ {p s : Pat} {g : AttSpec → Pat}, (∀ a ns, Matches env s a ns ↔ ∃ x ∈ R, Matches env (g x) a ns) →
        ∀ a ns, Matches env (.group p s) a ns ↔ ∃ x ∈ R, Matches env (.group p (g x)) a ns := by
      intro p s g h a ns
      simp only [group_iff, h]
      constructor
      · rintro ⟨a₁, a₂, n₁, n₂, e1, e2, h1, x, hx, h2⟩
        exact ⟨x, hx, a₁, a₂, n₁, n₂, e1, e2, h1, h2⟩
      · rintro ⟨x, hx, a₁, a₂, n₁, n₂, e1, e2, h1, h2⟩
        exact ⟨a₁, a₂, n₁, n₂, e1, e2, h1, x, hx, h2⟩
    refine (dist (dist h1) a ns).trans (exists_congr fun x => and_congr_right fun _ => ?_)
    exact Same.right (base_same (q := attsPat (x ++ ((lit! "type", false, t) :: y)) q) |>.trans (by
      rw [attsPat_append]; exact .refl _)) a ns
  rw [content_any key]
  have step : ∀ x ∈ R, (Content env (attsPat ((lit! "id", true, Id) :: (baseSpec ++ (x ++ ((lit! "type", false, t) :: y)))) q) (attrsOf d) ns ↔
      (HasId d ∧ (∀ v, d.type = some v → Val env t v) ∧ Atts env (baseSpec ++ (x ++ y)) d.attrs) ∧ Content env q [] ns) := by
    intro x hxR
    obtain ⟨f1, f2⟩ := hx x hxR
    have hmem : ∀ k, k ∈ (baseSpec ++ (x ++ y)).map (·.1) → k ∉ [lit! "id", lit! "type"] := by
      intro k hk hk'
      rw [List.map_append] at hk
      rcases List.mem_append.1 hk with hk | hk
      · have g : ∀ k ∈ [xmlName (lit! "lang"), xmlName (lit! "space")], k ∉ [lit! "id", lit! "type"] := by decide
        exact g k hk hk'
      · have g : ∀ k ∈ [lit! "id", lit! "type"], k ∈ [lit! "id", xmlName (lit! "lang"), xmlName (lit! "space"), lit! "type"] := by decide
        exact f2 k hk (g k hk')
    have hp : (((lit! "id", true, Id) :: (baseSpec ++ (x ++ ((lit! "type", false, t) :: y)))).map (·.1)).Perm
        ([lit! "id", xmlName (lit! "lang"), xmlName (lit! "space"), lit! "type"] ++ (x ++ y).map (·.1)) := by
      show (lit! "id" :: xmlName (lit! "lang") :: xmlName (lit! "space") :: (x ++ ((lit! "type", false, t) :: y)).map (·.1)).Perm
        (lit! "id" :: xmlName (lit! "lang") :: xmlName (lit! "space") :: lit! "type" :: (x ++ y).map (·.1))
      refine .cons _ (.cons _ (.cons _ ?_))
      rw [List.map_append, List.map_append, List.map_cons]
      exact List.perm_middle
    have nd : (((lit! "id", true, Id) :: (baseSpec ++ (x ++ ((lit! "type", false, t) :: y)))).map (·.1)).Nodup := by
      refine hp.nodup_iff.2 (List.nodup_append.2 ⟨by decide, f1, ?_⟩)
      rintro a ha b hb rfl
      exact f2 a hb ha
    rw [attsPat_content hq nd hn, atts_perm spec_perm', List.append_assoc,
      has_type hk (fun h => hmem _ h (by simp)) (fun h => hmem _ h (by simp))]
  constructor
  · rintro ⟨x, hx, h⟩
    obtain ⟨⟨g1, g2, g3⟩, g4⟩ := (step x hx).1 h
    exact ⟨⟨g1, g2, x, hx, g3⟩, g4⟩
  · rintro ⟨⟨g1, g2, x, hx, g3⟩, g4⟩
    exact ⟨x, hx, (step x hx).2 ⟨⟨g1, g2, g3⟩, g4⟩⟩

/-- the same for the values of the attributes -/
def ReadsAllO (env : Str → Pat) (y : AttSpec) : List AttSpec → List FitSpec → Prop
  | [], [] => True
  | x :: R, f :: fs => ReadsO env (x ++ y) f ∧ ReadsAllO env y R fs
  | _, _ => False

theorem ReadsAllO.atts {y : AttSpec} {a : List (Str × Str)} : ∀ {R : List AttSpec} {fs : List FitSpec}, ReadsAllO env y R fs →
    ((∃ x ∈ R, Atts env (baseSpec ++ (x ++ y)) a) ↔ ∃ f ∈ fs, AttrsFit f a)
  | [], [], _ => by simp
  | x :: R, f :: fs, h => by simp only [List.mem_cons, exists_eq_or_imp, fit_atts h.1, ReadsAllO.atts h.2]
  | [], _ :: _, h => h.elim
  | _ :: _, [], h => h.elim

theorem ReadsAllO.fresh {y : AttSpec} : ∀ {R : List AttSpec} {fs : List FitSpec}, ReadsAllO env y R fs → (∀ f ∈ fs, FreshE (f.map (·.1))) →
    ∀ x ∈ R, FreshE ((x ++ y).map (·.1))
  | [], [], _, _ => by simp
  | x :: R, f :: fs, h, hf => by
    rw [List.forall_mem_cons] at hf ⊢
    exact ⟨by rw [h.1.names]; exact hf.1, ReadsAllO.fresh h.2 hf.2⟩
  | [], _ :: _, h, _ => h.elim
  | _ :: _, [], h, _ => h.elim

/-! ### Items -/

theorem itemK_iff {p : Names} {refs : Pat} {R : List AttSpec} {y : AttSpec} {fs : List FitSpec} (hb : p.baseAttrs = BaseAttrs) (hi : p.itemId = Id) (ht : p.itemType = .empty)
    (hr : RefsAre env refs R) (he : ∀ q, Same env (.group p.itemAttrs q) (attsPat y q)) (hf : ReadsAllO env y R fs) (hx : ∀ f ∈ fs, FreshE (f.map (·.1)))
    {eff d md kids} (n : XNode eff .item d md kids) {nd : Node} (h : Wrote (.mk d md kids) nd) :
    Matches env (itemFile p refs) [] [nd] ↔ ItemFitsO fs (.mk d md kids) := by
  obtain ⟨t, ns, rfl, hn, htx, hws, ha⟩ := h.inv (by rw [n.cls_eq]; decide)
  rw [n.cls_eq]
  have hmd : md = [] := n.md_nil rfl
  have hkd : kids = [] := List.eq_nil_iff_forall_not_mem.2 fun x hx => nomatch n.kids_cls x hx
  subst hmd hkd
  rw [itemFile, show clsTag .item = lit! "item" from rfl, elem_wrote]
  simp only [hb, hi, ht]
  rw [kinds_content n.kept hr he (hf.fresh hx) text_noAttr hn, content_text, elems_text_append, hf.atts, ItemFitsO]
  simp only [val_empty, Obj.data_mk, BlankType]
  exact and_iff_left (List.length_eq_zero_iff.1 (all2_length ha).symm)

/-! ### Metadata -/

theorem noteK_iff (he : env ANY = AnyElement) {p : Names} (hb : p.baseAttrs = BaseAttrs) (hi : p.metaId = Id) {ty : Str} (hty : Solid ty) (ht : p.metaType = value ty)
    {x : AttSpec} {f : FitSpec} (hs : ∀ q, Same env (.group p.metaAttrs q) (attsPat x q)) (hf : ReadsO env x f) (hx : Fresh x)
    {eff d md kids} (n : XNode eff .metaC d md kids) {nd : Node} (h : Wrote (.mk d md kids) nd) :
    Matches env (metaFile p) [] [nd] ↔ NoteFitsO ty f (.mk d md kids) := by
  have hmd : md = [] := n.md_nil rfl
  subst hmd
  exact kindC_iff hb hi (x := x) (hs _).n hx (anyContent_noAttr he) (fun v => by rw [ht]; exact word_val hty) (fun _ => fit_atts hf)
    (fun {t ns} => any_content he n (t := t) (ns := ns)) n h

theorem notesK_iff (he : env ANY = AnyElement) {p : Names} (hb : p.baseAttrs = BaseAttrs) (hi : p.metaId = Id) (hi' : p.metadataId = Id) (hp : p.metaP = .notAllowed)
    (ha' : p.metadataAttrs = .empty) {ty ty' : Str} (hty : Solid ty) (ht : p.metadataType = value ty) (hty' : Solid ty') (ht' : p.metaType = value ty')
    {x : AttSpec} {f : FitSpec} (hs : ∀ q, Same env (.group p.metaAttrs q) (attsPat x q)) (hf : ReadsO env x f) (hx : Fresh x)
    {eff d md kids} (n : XNode eff .metadata d md kids) {nd : Node} (h : Wrote (.mk d md kids) nd) :
    Matches env (metadataFile p) [] [nd] ↔ NotesFitO ty ty' f (.mk d md kids) := by
  obtain ⟨t, ns, rfl, hn, htx, hws, ha⟩ := h.inv (by rw [n.cls_eq]; decide)
  rw [n.cls_eq]
  have hmd : md = [] := n.md_nil rfl
  subst hmd
  simp only [metadataFile, hb, hi', ht, ha', hp]
  have eM : ElemLike env (.choice .notAllowed (metaFile p)) := elemLike_not.choice (elemLike_elem _ _)
  have hs' : SameN env (.group .empty (.star (.choice .notAllowed (metaFile p)))) (attsPat [] (.star (.choice .notAllowed (metaFile p)))) :=
    Same.empty_left.n
  rw [show clsTag .metadata = lit! "metadata" from rfl, elem_wrote, metaG n.kept hs' ⟨.nil, by simp⟩ (star_noAttr eM.noAttr) hn,
    plain_atts, content_star eM, elems_text_append, NotesFitO, and_assoc, and_assoc]
  refine and_congr_right fun _ => and_congr ?_ (and_congr_right fun _ => ?_)
  · simp only [word_val hty, Obj.data_mk]
  · have hw := wrote_ws (n.text_none rfl) htx hws
    rw [List.nil_append] at ha
    simp only [Obj.kids_mk]
    rw [and_iff_right hw]
    refine all2_iff ha fun x hx' nd hnd => ?_
    have hcx := n.kids_cls x hx'
    have nx := XNode.of (x := x) (by injection hcx) (n.kids_wf x hx') (n.kids_valid x hx') (n.kept_kids x hx')
    obtain ⟨d', md', kids'⟩ := x
    rw [choice_iff, noteK_iff he hb hi hty' ht' hs hf hx nx hnd]
    exact ⟨fun h => h.elim (fun h => nomatch h) id, .inr⟩

variable {dateTime : Str → Prop}

theorem val_any {v : Str} : Val env string v ↔ (fun _ : Str => True) v := val_string

/-- the metadata of a tier -/
theorem tierMd_iff (he : env ANY = AnyElement) {p : Names} (hp : PlainMeta p) (hm : p.tierMetadata = (odinNames₁ dateTime).tierMetadata) (hn : p.metadata = .notAllowed)
    {eff d md kids} (n : XNode eff .metadata d md kids) {nd : Node} (h : Wrote (.mk d md kids) nd) :
    Matches env (.choice p.tierMetadata (.choice p.metadata (metadataFile p))) [] [nd] ↔ TierMdFitsO dateTime (.mk d md kids) := by
  rw [hm, hn, choice_iff, choice_iff, mdX_iff he hp n h]
  simp only [odinNames₁]
  rw [choice_iff, notesK_iff he rfl rfl rfl rfl rfl (ty := lit! "xigt-meta") (by decide) rfl (ty' := lit! "data-provenance") (by decide) rfl
      (x := [(lit! "date", true, .data dateTime), (lit! "method", true, string), (lit! "source", true, string), (lit! "projected-from", false, string)])
      (f := [need (lit! "date") dateTime, need (lit! "method"), need (lit! "source"), may (lit! "projected-from")])
      (fun q => .trans .assoc (.right (.trans .assoc (.right .assoc))))
      ⟨⟨rfl, rfl, fun v => val_data⟩, ⟨rfl, rfl, fun v => val_any⟩, ⟨rfl, rfl, fun v => val_any⟩, ⟨rfl, rfl, fun v => val_any⟩, trivial⟩ ?_ n h,
    notesK_iff he rfl rfl rfl rfl rfl (ty := lit! "intent-meta") (by decide) rfl (ty' := lit! "extended-data") (by decide) rfl
      (x := [(lit! "date", true, .data dateTime), (lit! "token-type", true, string)])
      (f := [need (lit! "date") dateTime, need (lit! "token-type")])
      (fun q => .assoc) ⟨⟨rfl, rfl, fun v => val_data⟩, ⟨rfl, rfl, fun v => val_any⟩, trivial⟩ ?_ n h, TierMdFitsO]
  · constructor
    · rintro ((h | h) | h | h)
      · exact .inr (.inl h)
      · exact .inr (.inr h)
      · cases h
      · exact .inl h
    · rintro (h | h | h)
      · exact .inr (.inr h)
      · exact .inl (.inl h)
      · exact .inl (.inr h)
  · refine ⟨show [lit! "date", lit! "token-type"].Nodup by decide, ?_⟩
    have : ∀ k ∈ [lit! "date", lit! "token-type"],
        k ∉ [lit! "id", xmlName (lit! "lang"), xmlName (lit! "space"), ALN, CNT, SEG, lit! "type"] := by decide
    exact fun s hs => this s.1 (List.mem_map_of_mem (f := fun s : Str × Bool × Pat => s.1) hs)
  · refine ⟨show [lit! "date", lit! "method", lit! "source", lit! "projected-from"].Nodup by decide, ?_⟩
    have : ∀ k ∈ [lit! "date", lit! "method", lit! "source", lit! "projected-from"],
        k ∉ [lit! "id", xmlName (lit! "lang"), xmlName (lit! "space"), ALN, CNT, SEG, lit! "type"] := by decide
    exact fun s hs => this s.1 (List.mem_map_of_mem (f := fun s : Str × Bool × Pat => s.1) hs)

/-- notes on the language are notes -/
theorem langNote {eff d md kids} (n : XNode eff .metaC d md kids) {nd : Node} (h : Wrote (.mk d md kids) nd)
    (hm : Matches env (metaFile xigtNames (.choice (languageElem (lit! "subject")) (languageElem (lit! "language")))) [] [nd]) : MetaFitsX (.mk d md kids) := by
  obtain ⟨t, ns, rfl, hn, ht, hws, ha⟩ := h.inv (by rw [n.cls_eq]; decide)
  rw [n.cls_eq] at hm
  have hmd : md = [] := n.md_nil rfl
  subst hmd
  have hE : ElemLike env (.choice (languageElem (lit! "subject")) (languageElem (lit! "language"))) := (elemLike_elem _ _).choice (elemLike_elem _ _)
  rw [metaFile, show clsTag .metaC = lit! "meta" from rfl, elem_wrote] at hm
  simp only [xigtNames] at hm
  rw [meta_same.content] at hm
  obtain ⟨g1, g2⟩ := (attsPat_content hE.noAttr nodup_base hn).1 hm
  obtain ⟨k1, k2, k3⟩ := (opt_atts n.kept).1 g1
  refine ⟨k1, k2, k3, .inr fun e => ?_⟩
  have hl := content_one hE g2
  rw [elems_text_append, ← all2_length ha, show kids = [] from e] at hl
  simp at hl

theorem all2_has {xs : List Obj} {ns : List Node} (h : All2 Wrote xs ns) {x : Obj} (hx : x ∈ xs) : ∃ n ∈ ns, Wrote x n := by
  induction h with
  | nil => cases hx
  | cons r _ ih =>
    rcases List.mem_cons.1 hx with rfl | hx
    · exact ⟨_, .head _, r⟩
    · obtain ⟨n, hn, hw⟩ := ih hx
      exact ⟨n, .tail _ hn, hw⟩

/-- the metadata of an IGT: what the schema says of the language adds nothing, since other metadata is allowed as well -/
theorem igtMd_iff (he : env ANY = AnyElement) {eff d md kids} (n : XNode eff .metadata d md kids) {nd : Node} (h : Wrote (.mk d md kids) nd) :
    Matches env (.choice (odinNames dateTime).igtMetadata (.choice (odinNames dateTime).metadata (metadataFile (odinNames dateTime)))) [] [nd] ↔
      MdFitsX (.mk d md kids) := by
  rw [choice_iff, choice_iff, mdX_iff he odin_plain n h]
  refine ⟨fun hh => ?_, fun hh => .inr (.inr hh)⟩
  rcases hh with hh | hh | hh
  · obtain ⟨t, ns, rfl, hn, ht, hws, ha⟩ := h.inv (by rw [n.cls_eq]; decide)
    rw [n.cls_eq] at hh
    have hmd : md = [] := n.md_nil rfl
    subst hmd
    have h1' : Matches env (.elem (.name (lit! "metadata")) (.group (.opt (att (lit! "id") Id)) (.group BaseAttrs (.group (.opt (att (lit! "type") .empty))
      (.group .empty (metaFile xigtNames (.choice (languageElem (lit! "subject")) (languageElem (lit! "language"))))))))) [] _ := hh
    rw [show clsTag .metadata = lit! "metadata" from rfl, elem_wrote, meta_same.content] at h1'
    have hE : ElemLike env (metaFile xigtNames (.choice (languageElem (lit! "subject")) (languageElem (lit! "language")))) := elemLike_elem _ _
    obtain ⟨g1, g2⟩ := (attsPat_content hE.noAttr nodup_base hn).1 h1'
    obtain ⟨k1, k2, k3⟩ := (opt_atts n.kept).1 g1
    refine ⟨k1, k2, k3, fun x hx => ?_⟩
    have g3 : Content env (.star (metaFile xigtNames (.choice (languageElem (lit! "subject")) (languageElem (lit! "language"))))) [] (textNode t ++ ns) := by
      rcases g2 with h | ⟨hw, h | h⟩
      · exact .inl (star_iff.2 (.inl (.one h)))
      · exact .inr ⟨hw, .inl (star_iff.2 (.inl (.one h)))⟩
      · exact .inr ⟨hw, .inr (star_iff.2 (.inl (.one h)))⟩
    rw [content_star hE, elems_text_append] at g3
    rw [List.nil_append] at ha
    obtain ⟨nd, hnd, hw⟩ := all2_has ha hx
    have hcx := n.kids_cls x hx
    have nx := XNode.of (x := x) (by injection hcx) (n.kids_wf x hx) (n.kids_valid x hx) (n.kept_kids x hx)
    obtain ⟨d', md', kids'⟩ := x
    exact langNote nx hw (g3.2 nd hnd)
  · cases hh
  · exact hh

/-! ### Tiers -/

theorem tierK_iff (he : env ANY = AnyElement) {p : Names} (hb : p.baseAttrs = BaseAttrs) (hi : p.tierId = Id) (hp : PlainMeta p)
    (hm : p.tierMetadata = (odinNames₁ dateTime).tierMetadata) (hmd : p.metadata = .notAllowed) {ty : Pat} {S : Str → Prop} (hS : ∀ v, Val env ty v ↔ S v)
    {refs : Pat} {R : List AttSpec} {y : AttSpec} {fs : List FitSpec} (hr : RefsAre env refs R) (ha' : ∀ q, Same env (.group p.tierAttrs q) (attsPat y q))
    (hf : ReadsAllO env y R fs) (hx : ∀ f ∈ fs, FreshE (f.map (·.1))) {items : List FitSpec} (eI : ElemLike env p.item)
    (tI : ∀ n, Matches env p.item [] [n] → tagOf n = lit! "item")
    (hI : ∀ eff d md kids nd, XNode eff .item d md kids → Wrote (.mk d md kids) nd → (Matches env (.choice p.item (itemFile p)) [] [nd] ↔ ItemFitsO items (.mk d md kids)))
    {eff d md kids} (n : XNode eff .tier d md kids) {nd : Node} (h : Wrote (.mk d md kids) nd) :
    Matches env (tierFile p ty refs) [] [nd] ↔ (HasId d ∧ ∀ m ∈ md, TierMdFitsO dateTime m) ∧
      (∀ v, d.type = some v → S v) ∧ (∃ f ∈ fs, AttrsFit f d.attrs) ∧ ∀ i ∈ kids, ItemFitsO items i := by
  obtain ⟨t, ns, rfl, hn, ht, hws, ha⟩ := h.inv (by rw [n.cls_eq]; decide)
  rw [n.cls_eq, tierFile, show clsTag .tier = lit! "tier" from rfl, elem_wrote]
  have eA : ElemLike env (.choice p.tierMetadata (.choice p.metadata (metadataFile p))) := by
    rw [hm, hmd]
    exact odinMd_elem.choice (elemLike_not.choice (elemLike_elem _ _))
  have tA : ∀ n, Matches env (.choice p.tierMetadata (.choice p.metadata (metadataFile p))) [] [n] → tagOf n = lit! "metadata" :=
    mdTag (by rw [hm]; exact choice_tag (fun _ h => elem_tag h) fun _ h => elem_tag h) hmd
  have eB : ElemLike env (.choice p.item (itemFile p)) := eI.choice (elemLike_elem _ _)
  have hkc : ∀ x ∈ kids, x.cls = .item := fun x hx => by
    have := n.kids_cls x hx
    injection this
  simp only [hb, hi]
  rw [kinds_content n.kept hr ha' (hf.fresh hx) (group_noAttr (star_noAttr eA.noAttr) (star_noAttr eB.noAttr)) hn, hf.atts,
    two_wrote (c := .item) eA eB ha (wrote_ws (n.text_none rfl) ht hws) n.md_cls hkc (by decide) (by decide) tA (choice_tag tI fun _ h => elem_tag h)
      (P := TierMdFitsO dateTime) (Q := ItemFitsO items) (fun x hx nd hw => by
        have nx := XNode.of (x := x) (n.md_cls x hx) (n.md_wf x hx) (n.md_valid x hx) (n.kept_md x hx)
        obtain ⟨d', md', kids'⟩ := x
        exact tierMd_iff he hp hm hmd nx hw) (fun x hx nd hw => by
        have nx := XNode.of (x := x) (hkc x hx) (n.kids_wf x hx) (n.kids_valid x hx) (n.kept_kids x hx)
        obtain ⟨d', md', kids'⟩ := x
        exact hI _ _ _ _ _ nx hw)]
  simp only [hS]
  exact ⟨fun ⟨⟨g1, g2, g3⟩, g4, g5⟩ => ⟨⟨g1, g4⟩, g2, g3, g5⟩, fun ⟨⟨g1, g4⟩, g2, g3, g5⟩ => ⟨⟨g1, g2, g3⟩, g4, g5⟩⟩

def judgSpec : AttSpec := [(lit! "judgment", false, string)]

theorem judg_same {q : Pat} : Same env (.group (odinNames₁ dateTime).itemAttrs q) (attsPat judgSpec q) := .refl _

theorem ReadsO.append : ∀ {x y : AttSpec} {f g : FitSpec}, ReadsO env x f → ReadsO env y g → ReadsO env (x ++ y) (f ++ g)
  | [], _, [], _, _, h => h
  | _ :: _, _, _ :: _, _, h, h' => ⟨h.1, h.2.append h'⟩
  | [], _, _ :: _, _, h, _ => h.elim
  | _ :: _, _, [], _, h, _ => h.elim

theorem reads_refs {r : Pat} {F : Str → Prop} (hF : ∀ v, Val env r v ↔ F v) {y : AttSpec} {more : FitSpec} (h : ReadsO env y more) :
    ReadsAllO env y [acSpec r, segSpec r] (refsFit F more) :=
  ⟨ReadsO.append (f := [may ALN F, may CNT F]) ⟨⟨rfl, rfl, hF⟩, ⟨rfl, rfl, hF⟩, trivial⟩ h, ReadsO.append (f := [may SEG F]) ⟨⟨rfl, rfl, hF⟩, trivial⟩ h, trivial⟩

theorem reads_judg : ReadsO env judgSpec [may (lit! "judgment")] := ⟨⟨rfl, rfl, fun _ => val_any⟩, trivial⟩

theorem fresh_refs {F : Str → Prop} {more : FitSpec} (h : FreshE ([ALN, CNT] ++ more.map (·.1))) (h' : FreshE ([SEG] ++ more.map (·.1))) :
    ∀ f ∈ refsFit F more, FreshE (f.map (·.1)) := by
  intro f hf
  simp only [refsFit, List.mem_cons, List.not_mem_nil, or_false] at hf
  rcases hf with rfl | rfl
  · exact h
  · exact h'

theorem fresh_item : ∀ f ∈ odinItem, FreshE (f.map (·.1)) :=
  fresh_refs (show FreshE [ALN, CNT, lit! "judgment"] by decide) (show FreshE [SEG, lit! "judgment"] by decide)

/-- the names of odin-xigt.rnc, whatever tiers there are -/
structure OdinLike (dateTime : Str → Prop) (p : Names) : Prop where
  base : p.baseAttrs = BaseAttrs
  tierId : p.tierId = Id
  tierAln : p.tierAln = Id
  tierCnt : p.tierCnt = Id
  tierSeg : p.tierSeg = Id
  tierMd : p.tierMetadata = (odinNames₁ dateTime).tierMetadata
  md : p.metadata = .notAllowed
  plain : PlainMeta p
  itemId : p.itemId = Id
  itemType : p.itemType = .empty
  itemAln : p.itemAln = AlgnExpr
  itemCnt : p.itemCnt = AlgnExpr
  itemSeg : p.itemSeg = AlgnExpr

theorem plainItem_iff {p : Names} (hp : OdinLike dateTime p) (hj : p.itemAttrs = .opt (att (lit! "judgment") string)) {eff d md kids} (n : XNode eff .item d md kids)
    {nd : Node} (h : Wrote (.mk d md kids) nd) : Matches env (itemFile p) [] [nd] ↔ ItemFitsO odinItem (.mk d md kids) := by
  refine itemK_iff hp.base hp.itemId hp.itemType (R := [acSpec AlgnExpr, segSpec AlgnExpr]) ?_ (y := judgSpec) (fun q => by rw [hj]; exact .refl _)
    (reads_refs (fun _ => algn_val) reads_judg) fresh_item n h
  rw [hp.itemAln, hp.itemCnt, hp.itemSeg]
  exact refsAre_plain

/-- tiers with the usual references -/
theorem plainTier_iff (he : env ANY = AnyElement) {p : Names} (hp : OdinLike dateTime p) (hj : p.itemAttrs = .opt (att (lit! "judgment") string)) (hi : p.item = .notAllowed)
    (ha : p.tierAttrs = .empty) {ty : Pat} {S : Str → Prop} (hS : ∀ v, Val env ty v ↔ S v)
    {eff d md kids} (n : XNode eff .tier d md kids) {nd : Node} (h : Wrote (.mk d md kids) nd) :
    Matches env (tierFile p ty) [] [nd] ↔ (HasId d ∧ ∀ m ∈ md, TierMdFitsO dateTime m) ∧
      (∀ v, d.type = some v → S v) ∧ (∃ f ∈ refsFit IdFits [], AttrsFit f d.attrs) ∧ ∀ i ∈ kids, ItemFitsO odinItem i := by
  refine tierK_iff he hp.base hp.tierId hp.plain hp.tierMd hp.md hS (R := [acSpec Id, segSpec Id]) (fs := refsFit IdFits []) ?_ (y := []) (fun q => by rw [ha]; exact .empty_left)
    (reads_refs (fun _ => id_val) trivial) (fresh_refs (show FreshE [ALN, CNT] by decide) (show FreshE [SEG] by decide))
    (by rw [hi]; exact elemLike_not) (by rw [hi]; exact not_tag) ?_ n h
  · rw [hp.tierAln, hp.tierCnt, hp.tierSeg]
    exact refsAre_plain
  · intro eff d md kids nd nx hw
    rw [hi, choice_iff, plainItem_iff hp hj nx hw]
    exact ⟨fun h => h.elim (fun h => nomatch h) id, .inr⟩

theorem like₁ : OdinLike dateTime (odinNames₁ dateTime) := ⟨rfl, rfl, rfl, rfl, rfl, rfl, rfl, ⟨rfl, rfl, rfl, rfl, rfl, rfl, rfl, rfl⟩, rfl, rfl, rfl, rfl, rfl⟩
theorem like : OdinLike dateTime (odinNames dateTime) := ⟨rfl, rfl, rfl, rfl, rfl, rfl, rfl, ⟨rfl, rfl, rfl, rfl, rfl, rfl, rfl, rfl⟩, rfl, rfl, rfl, rfl, rfl⟩

theorem state_val {v : Str} : Val env stateVal v ↔ OneOf [lit! "raw", lit! "cleaned", lit! "normalized"] v := by
  rw [stateVal, val_choice, val_choice, word_val (by decide), word_val (by decide), word_val (by decide)]
  simp [OneOf]

/-- tiers of type `odin` -/
theorem odinTier_iff (he : env ANY = AnyElement) {eff d md kids} (n : XNode eff .tier d md kids) {nd : Node} (h : Wrote (.mk d md kids) nd) :
    Matches env (odinTier (odinNames₁ dateTime)) [] [nd] ↔ (HasId d ∧ ∀ m ∈ md, TierMdFitsO dateTime m) ∧
      (∀ v, d.type = some v → Word (lit! "odin") v) ∧
      (∃ f ∈ refsFit IdFits [need (lit! "state") (OneOf [lit! "raw", lit! "cleaned", lit! "normalized"])], AttrsFit f d.attrs) ∧
      ∀ i ∈ kids, ItemFitsO (refsFit AlgnFits [may (lit! "judgment"), need (lit! "line"), need (lit! "tag")]) i := by
  rw [odinTier_eq]
  refine tierK_iff he (p := odinTierNames dateTime) rfl rfl ⟨rfl, rfl, rfl, rfl, rfl, rfl, rfl, rfl⟩ rfl rfl (fun v => word_val (w := lit! "odin") (by decide)) (R := [acSpec Id, segSpec Id])
    (fs := refsFit IdFits [need (lit! "state") (OneOf [lit! "raw", lit! "cleaned", lit! "normalized"])]) refsAre_plain (y := stateSpec) (fun q => .refl _)
    (reads_refs (fun _ => id_val) ⟨⟨rfl, rfl, fun _ => state_val⟩, trivial⟩)
    (fresh_refs (show FreshE [ALN, CNT, lit! "state"] by decide) (show FreshE [SEG, lit! "state"] by decide)) elemLike_not not_tag ?_ n h
  intro eff d md kids nd nx hw
  have key : Matches env (itemFile (odinTierNames dateTime)) [] [nd] ↔ _ :=
    itemK_iff rfl rfl rfl (R := [acSpec AlgnExpr, segSpec AlgnExpr]) refsAre_plain (y := lineSpec) (fun q => line_same)
      (fs := refsFit AlgnFits [may (lit! "judgment"), need (lit! "line"), need (lit! "tag")])
      (reads_refs (fun _ => algn_val) ⟨⟨rfl, rfl, fun _ => val_any⟩, ⟨rfl, rfl, fun _ => val_any⟩, ⟨rfl, rfl, fun _ => val_any⟩, trivial⟩)
      (fresh_refs (show FreshE [ALN, CNT, lit! "judgment", lit! "line", lit! "tag"] by decide) (show FreshE [SEG, lit! "judgment", lit! "line", lit! "tag"] by decide)) nx hw
  rw [choice_iff, key]
  exact ⟨fun h => h.elim (fun h => nomatch h) id, .inr⟩

/-- tiers with other references, whose items have these or the usual ones -/
theorem otherTier_iff (he : env ANY = AnyElement) {ty : Str} (hty : Solid ty) {refs irefs : Pat} {x : AttSpec} {f : FitSpec} {R : List AttSpec} {fs : List FitSpec}
    (hr : ∀ q, Same env (.group refs q) (attsPat x q)) (hf : ReadsO env x f) (hx : FreshE (f.map (·.1)))
    (hri : RefsAre env irefs R) (hfi : ReadsAllO env judgSpec R fs) (hxi : ∀ f ∈ fs, FreshE (f.map (·.1)))
    {eff d md kids} (n : XNode eff .tier d md kids) {nd : Node} (h : Wrote (.mk d md kids) nd) :
    Matches env (tierFile { odinNames₁ dateTime with item := itemFile (odinNames₁ dateTime) irefs } (value ty) refs) [] [nd] ↔
      (HasId d ∧ ∀ m ∈ md, TierMdFitsO dateTime m) ∧ (∀ v, d.type = some v → Word ty v) ∧ (∃ f' ∈ [f], AttrsFit f' d.attrs) ∧ ∀ i ∈ kids, ItemFitsO (fs ++ odinItem) i := by
  refine tierK_iff he (p := { odinNames₁ dateTime with item := itemFile (odinNames₁ dateTime) irefs }) rfl rfl ⟨rfl, rfl, rfl, rfl, rfl, rfl, rfl, rfl⟩ rfl rfl
    (fun v => word_val hty) (R := [x]) (fs := [f]) (refsAre_one hr) (y := []) (fun q => .empty_left)
    ⟨by rw [List.append_nil]; exact hf, trivial⟩ (by simpa using hx) (elemLike_elem _ _) (fun _ h => elem_tag h) ?_ n h
  intro eff d md kids nd nx hw
  have k1 : Matches env (itemFile (odinNames₁ dateTime) irefs) [] [nd] ↔ ItemFitsO fs (.mk d md kids) :=
    itemK_iff rfl rfl rfl hri (y := judgSpec) (fun q => .refl _) hfi hxi nx hw
  have k2 : Matches env (itemFile { odinNames₁ dateTime with item := itemFile (odinNames₁ dateTime) irefs }) [] [nd] ↔ ItemFitsO odinItem (.mk d md kids) :=
    plainItem_iff (dateTime := dateTime) ⟨rfl, rfl, rfl, rfl, rfl, rfl, rfl, ⟨rfl, rfl, rfl, rfl, rfl, rfl, rfl, rfl⟩, rfl, rfl, rfl, rfl, rfl⟩ rfl nx hw
  rw [choice_iff, k1, k2]
  simp only [ItemFitsO, List.mem_append]
  constructor
  · rintro (⟨a, b, f, hf, c⟩ | ⟨a, b, f, hf, c⟩)
    · exact ⟨a, b, f, .inl hf, c⟩
    · exact ⟨a, b, f, .inr hf, c⟩
  · rintro ⟨a, b, f, hf | hf, c⟩
    · exact .inl ⟨a, b, f, hf, c⟩
    · exact .inr ⟨a, b, f, hf, c⟩

theorem tier_odin (he : env ANY = AnyElement) {eff d md kids} (n : XNode eff .tier d md kids) {nd : Node} (h : Wrote (.mk d md kids) nd) :
    Matches env (.choice (odinNames dateTime).tier (tierFile (odinNames dateTime))) [] [nd] ↔ TierFitsO dateTime (.mk d md kids) := by
  have hN : ∀ v, Val env .notAllowed v ↔ False := fun v => ⟨val_none, False.elim⟩
  have kw : ∀ w : Str, Solid w → (Matches env (tierFile (odinNames₁ dateTime) (value w)) [] [nd] ↔ _) := fun w hw =>
    plainTier_iff he like₁ rfl rfl rfl (fun v => word_val hw) n h
  have k0 := plainTier_iff he (like (dateTime := dateTime)) rfl rfl rfl hN n h
  have kb : Matches env (bilingualTier (odinNames₁ dateTime)) [] [nd] ↔ _ :=
    otherTier_iff he (ty := lit! "bilingual-alignments") (by decide) (x := [(lit! "source", true, Id), (lit! "target", true, Id)])
      (f := [need (lit! "source") IdFits, need (lit! "target") IdFits]) (fun q => .assoc) ⟨⟨rfl, rfl, fun _ => id_val⟩, ⟨rfl, rfl, fun _ => id_val⟩, trivial⟩
      (show FreshE [lit! "source", lit! "target"] by decide) (R := [[(lit! "source", true, AlgnExpr), (lit! "target", false, AlgnExpr)]]) (refsAre_one fun q => .assoc)
      (fs := [[need (lit! "source") AlgnFits, may (lit! "target") AlgnFits, may (lit! "judgment")]])
      ⟨⟨⟨rfl, rfl, fun _ => algn_val⟩, ⟨rfl, rfl, fun _ => algn_val⟩, ⟨rfl, rfl, fun _ => val_any⟩, trivial⟩, trivial⟩
      (by intro f hf; cases List.mem_singleton.1 hf; exact (show FreshE [lit! "source", lit! "target", lit! "judgment"] by decide)) n h
  have kp : Matches env (phraseTier (odinNames₁ dateTime)) [] [nd] ↔ _ :=
    otherTier_iff he (ty := lit! "phrase-structure") (by decide) (x := [(ALN, true, Id), (lit! "children", true, Id), (CNT, false, Id)])
      (f := [need ALN IdFits, need (lit! "children") IdFits, may CNT IdFits]) (fun q => .trans .assoc (.right .assoc))
      ⟨⟨rfl, rfl, fun _ => id_val⟩, ⟨rfl, rfl, fun _ => id_val⟩, ⟨rfl, rfl, fun _ => id_val⟩, trivial⟩
      (show FreshE [ALN, lit! "children", CNT] by decide)
      (R := [[(ALN, true, AlgnExpr), (CNT, false, AlgnExpr)], [(lit! "children", true, idList), (CNT, false, AlgnExpr)]])
      (refsAre_two fun q => .trans .assoc .distrib)
      (fs := [[need ALN AlgnFits, may CNT AlgnFits, may (lit! "judgment")], [need (lit! "children") IdListFits, may CNT AlgnFits, may (lit! "judgment")]])
      ⟨⟨⟨rfl, rfl, fun _ => algn_val⟩, ⟨rfl, rfl, fun _ => algn_val⟩, ⟨rfl, rfl, fun _ => val_any⟩, trivial⟩,
        ⟨⟨rfl, rfl, fun _ => idList_iff⟩, ⟨rfl, rfl, fun _ => algn_val⟩, ⟨rfl, rfl, fun _ => val_any⟩, trivial⟩, trivial⟩
      (by
        intro f hf
        simp only [List.mem_cons, List.not_mem_nil, or_false] at hf
        rcases hf with rfl | rfl
        · exact (show FreshE [ALN, CNT, lit! "judgment"] by decide)
        · exact (show FreshE [lit! "children", CNT, lit! "judgment"] by decide)) n h
  have kd : Matches env (dependencyTier (odinNames₁ dateTime)) [] [nd] ↔ _ :=
    otherTier_iff he (ty := lit! "dependencies") (by decide) (x := [(lit! "dep", true, Id), (lit! "head", true, Id), (CNT, false, Id)])
      (f := [need (lit! "dep") IdFits, need (lit! "head") IdFits, may CNT IdFits]) (fun q => .trans .assoc (.right .assoc))
      ⟨⟨rfl, rfl, fun _ => id_val⟩, ⟨rfl, rfl, fun _ => id_val⟩, ⟨rfl, rfl, fun _ => id_val⟩, trivial⟩
      (show FreshE [lit! "dep", lit! "head", CNT] by decide)
      (R := [[(lit! "dep", true, AlgnExpr), (lit! "head", false, AlgnExpr), (CNT, false, AlgnExpr)]]) (refsAre_one fun q => .trans .assoc (.right .assoc))
      (fs := [[need (lit! "dep") AlgnFits, may (lit! "head") AlgnFits, may CNT AlgnFits, may (lit! "judgment")]])
      ⟨⟨⟨rfl, rfl, fun _ => algn_val⟩, ⟨rfl, rfl, fun _ => algn_val⟩, ⟨rfl, rfl, fun _ => algn_val⟩, ⟨rfl, rfl, fun _ => val_any⟩, trivial⟩, trivial⟩
      (by intro f hf; cases List.mem_singleton.1 hf; exact (show FreshE [lit! "dep", lit! "head", CNT, lit! "judgment"] by decide)) n h
  rw [choice_iff, k0]
  simp only [odinNames, odinTiers, choice_iff]
  rw [odinTier_iff he n h, kb, kp, kd, kw _ (by decide), kw _ (by decide), kw _ (by decide), kw _ (by decide), kw _ (by decide), kw _ (by decide), TierFitsO]
  simp only [odinKinds, List.mem_cons, List.not_mem_nil, or_false, exists_eq_or_imp, exists_eq_left, Obj.data_mk, Obj.md_mk, Obj.kids_mk, List.cons_append, List.nil_append]
  have one : ∀ {w : Str}, w ∈ [lit! "phrases", lit! "words", lit! "morphemes", lit! "glosses", lit! "translations", lit! "pos"] → ∀ {v}, Word w v →
      OneOf [lit! "phrases", lit! "words", lit! "morphemes", lit! "glosses", lit! "translations", lit! "pos"] v := fun hw _ h => ⟨_, hw, h⟩
  constructor
  · rintro ((h | h | h | h | h | h | h | h | h | h | h) | h)
    · cases h
    · exact ⟨h.1.1, h.1.2, .inl h.2⟩
    · exact ⟨h.1.1, h.1.2, .inr (.inl ⟨fun v hv => one (by simp) (h.2.1 v hv), h.2.2⟩)⟩
    · exact ⟨h.1.1, h.1.2, .inr (.inl ⟨fun v hv => one (by simp) (h.2.1 v hv), h.2.2⟩)⟩
    · exact ⟨h.1.1, h.1.2, .inr (.inl ⟨fun v hv => one (by simp) (h.2.1 v hv), h.2.2⟩)⟩
    · exact ⟨h.1.1, h.1.2, .inr (.inl ⟨fun v hv => one (by simp) (h.2.1 v hv), h.2.2⟩)⟩
    · exact ⟨h.1.1, h.1.2, .inr (.inl ⟨fun v hv => one (by simp) (h.2.1 v hv), h.2.2⟩)⟩
    · exact ⟨h.1.1, h.1.2, .inr (.inl ⟨fun v hv => one (by simp) (h.2.1 v hv), h.2.2⟩)⟩
    · exact ⟨h.1.1, h.1.2, .inr (.inr (.inl h.2))⟩
    · exact ⟨h.1.1, h.1.2, .inr (.inr (.inr (.inl h.2)))⟩
    · exact ⟨h.1.1, h.1.2, .inr (.inr (.inr (.inr h.2)))⟩
    · exact ⟨h.1.1, h.1.2, .inr (.inl ⟨fun v hv => (h.2.1 v hv).elim, h.2.2⟩)⟩
  · rintro ⟨h1, h2, h | h | h | h | h⟩
    · exact .inl (.inr (.inl ⟨⟨h1, h2⟩, h⟩))
    · cases hty : d.type with
      | none => exact .inr ⟨⟨h1, h2⟩, by simp, h.2⟩
      | some v =>
        obtain ⟨w, hw, hv⟩ := h.1 v hty
        have hv' : ∀ v', some v = some v' → Word w v' := fun v' e => by cases e; exact hv
        simp only [List.mem_cons, List.not_mem_nil, or_false] at hw
        refine .inl (.inr (.inr ?_))
        rcases hw with rfl | rfl | rfl | rfl | rfl | rfl
        · exact .inl ⟨⟨h1, h2⟩, hv', h.2⟩
        · exact .inr (.inl ⟨⟨h1, h2⟩, hv', h.2⟩)
        · exact .inr (.inr (.inl ⟨⟨h1, h2⟩, hv', h.2⟩))
        · exact .inr (.inr (.inr (.inl ⟨⟨h1, h2⟩, hv', h.2⟩)))
        · exact .inr (.inr (.inr (.inr (.inl ⟨⟨h1, h2⟩, hv', h.2⟩))))
        · exact .inr (.inr (.inr (.inr (.inr (.inl ⟨⟨h1, h2⟩, hv', h.2⟩)))))
    · exact .inl (.inr (.inr (.inr (.inr (.inr (.inr (.inr (.inr (.inl ⟨⟨h1, h2⟩, h⟩)))))))))
    · exact .inl (.inr (.inr (.inr (.inr (.inr (.inr (.inr (.inr (.inr (.inl ⟨⟨h1, h2⟩, h⟩))))))))))
    · exact .inl (.inr (.inr (.inr (.inr (.inr (.inr (.inr (.inr (.inr (.inr ⟨⟨h1, h2⟩, h⟩))))))))))

/-! ### IGTs and corpora -/

theorem igt_odin (he : env ANY = AnyElement) {eff d md kids} (n : XNode eff .igt d md kids) {nd : Node} (h : Wrote (.mk d md kids) nd) :
    Matches env (igtFile (odinNames dateTime)) [] [nd] ↔ IgtFitsO dateTime (.mk d md kids) := by
  obtain ⟨t, ns, rfl, hn, ht, hws, ha⟩ := h.inv (by rw [n.cls_eq]; decide)
  rw [n.cls_eq, igtFile, show clsTag .igt = lit! "igt" from rfl, elem_wrote]
  have eA : ElemLike env (.choice (odinNames dateTime).igtMetadata (.choice (odinNames dateTime).metadata (metadataFile (odinNames dateTime)))) :=
    (elemLike_elem _ _).choice (elemLike_not.choice (elemLike_elem _ _))
  have tA : ∀ n, Matches env (.choice (odinNames dateTime).igtMetadata (.choice (odinNames dateTime).metadata (metadataFile (odinNames dateTime)))) [] [n] →
      tagOf n = lit! "metadata" := choice_tag (fun _ h => elem_tag h) (choice_tag not_tag fun _ h => elem_tag h)
  have eT : ElemLike env (odinNames dateTime).tier := by
    refine elemLike_not.choice ?_
    iterate 9 refine (elemLike_elem _ _).choice ?_
    exact elemLike_elem _ _
  have eB : ElemLike env (.choice (odinNames dateTime).tier (tierFile (odinNames dateTime))) := eT.choice (elemLike_elem _ _)
  have tB : ∀ n, Matches env (.choice (odinNames dateTime).tier (tierFile (odinNames dateTime))) [] [n] → tagOf n = lit! "tier" := by
    refine choice_tag ?_ fun _ h => elem_tag h
    refine choice_tag not_tag ?_
    iterate 9 refine choice_tag (fun _ h => elem_tag h) ?_
    exact fun _ h => elem_tag h
  have hkc : ∀ x ∈ kids, x.cls = .tier := fun x hx => by
    have := n.kids_cls x hx
    injection this
  have n1 : (((lit! "id", true, Id) :: (baseSpec ++ ([] ++ ((lit! "type", false, .empty) :: igtSpec))) : AttSpec).map (·.1)).Nodup :=
    show [lit! "id", xmlName (lit! "lang"), xmlName (lit! "space"), lit! "type", lit! "doc-id", lit! "line-range", lit! "tag-types", lit! "judgment"].Nodup by decide
  have i1 : lit! "id" ∉ (baseSpec ++ [] ++ igtSpec : AttSpec).map (·.1) :=
    show lit! "id" ∉ [xmlName (lit! "lang"), xmlName (lit! "space"), lit! "doc-id", lit! "line-range", lit! "tag-types", lit! "judgment"] by decide
  have i2 : lit! "type" ∉ (baseSpec ++ [] ++ igtSpec : AttSpec).map (·.1) :=
    show lit! "type" ∉ [xmlName (lit! "lang"), xmlName (lit! "space"), lit! "doc-id", lit! "line-range", lit! "tag-types", lit! "judgment"] by decide
  have hr : ReadsO env igtSpec [need (lit! "doc-id"), need (lit! "line-range"), need (lit! "tag-types"), may (lit! "judgment")] :=
    ⟨⟨rfl, rfl, fun _ => val_any⟩, ⟨rfl, rfl, fun _ => val_any⟩, ⟨rfl, rfl, fun _ => val_any⟩, ⟨rfl, rfl, fun _ => val_any⟩, trivial⟩
  refine igtO_same.content.trans ?_
  rw [attsPat_content (group_noAttr (star_noAttr eA.noAttr) (star_noAttr eB.noAttr)) n1 hn, atts_perm spec_perm', has_type n.kept i1 i2, List.append_nil, fit_atts hr,
    two_wrote (c := .tier) eA eB ha (wrote_ws (n.text_none rfl) ht hws) n.md_cls hkc (by decide) (by decide) tA tB
      (P := MdFitsX) (Q := TierFitsO dateTime) (fun x hx nd hw => by
        have nx := XNode.of (x := x) (n.md_cls x hx) (n.md_wf x hx) (n.md_valid x hx) (n.kept_md x hx)
        obtain ⟨d', md', kids'⟩ := x
        exact igtMd_iff he nx hw) (fun x hx nd hw => by
        have nx := XNode.of (x := x) (hkc x hx) (n.kids_wf x hx) (n.kids_valid x hx) (n.kept_kids x hx)
        obtain ⟨d', md', kids'⟩ := x
        exact tier_odin he nx hw), IgtFitsO, and_assoc, and_assoc]
  simp only [val_empty, BlankType, Obj.data_mk, Obj.md_mk, Obj.kids_mk]

theorem corpus_odin (he : env ANY = AnyElement) {eff d md kids} (n : XNode eff .corpus d md kids) {nd : Node} (h : Wrote (.mk d md kids) nd) :
    Matches env (corpusFile (odinNames dateTime)) [] [nd] ↔ CorpusFitsO dateTime (.mk d md kids) := by
  obtain ⟨t, ns, rfl, hn, ht, hws, ha⟩ := h.inv (by rw [n.cls_eq]; decide)
  rw [n.cls_eq, corpusFile, show clsTag .corpus = lit! "xigt-corpus" from rfl, elem_wrote]
  have eA : ElemLike env (metadataFile (odinNames dateTime)) := elemLike_elem _ _
  have eB : ElemLike env (igtFile (odinNames dateTime)) := elemLike_elem _ _
  have hkc : ∀ x ∈ kids, x.cls = .igt := fun x hx => by
    have := n.kids_cls x hx
    injection this
  refine meta_same.content.trans ?_
  refine (attsPat_content (outer_noAttr eA eB) nodup_base hn).trans ?_
  rw [opt_atts n.kept, outer_same.content,
    two_wrote (c := .igt) eA eB ha (wrote_ws (n.text_none rfl) ht hws) n.md_cls hkc (by decide) (by decide) (fun _ h => elem_tag h) (fun _ h => elem_tag h)
      (P := MdFitsX) (Q := IgtFitsO dateTime) (fun x hx nd hw => by
        have nx := XNode.of (x := x) (n.md_cls x hx) (n.md_wf x hx) (n.md_valid x hx) (n.kept_md x hx)
        obtain ⟨d', md', kids'⟩ := x
        exact mdX_iff he odin_plain nx hw) (fun x hx nd hw => by
        have nx := XNode.of (x := x) (hkc x hx) (n.kids_wf x hx) (n.kids_valid x hx) (n.kept_kids x hx)
        obtain ⟨d', md', kids'⟩ := x
        exact igt_odin he nx hw), CorpusFitsO, and_assoc, and_assoc]
  refine and_congr_right fun _ => ?_
  have : BlankType d := fun v hv => by rw [n.kept.corpus n.cls_eq] at hv; cases hv
  exact and_iff_right this

/-- documents that were written for a corpus -/
theorem core_odin {eff d md kids} (nx : XNode eff .corpus d md kids) {doc : Node} (h4 : Wrote (.mk d md kids) doc) :
    Valid (odin_rnc dateTime) doc ↔ CorpusFitsO dateTime (.mk d md kids) :=
  corpus_odin (env := (odin_rnc dateTime).defs) (by simp [odin_rnc, grammar]) nx h4

end

section
variable [Uni] [XmlLex] [Xsd]

/-- **C154**: what is written of a corpus is valid against odin-xigt.rnc just in case each IGT has `doc-id`, `line-range` and `tag-types`, each tier is of
one of the kinds of the schema, with the attributes and items of this kind, and the metadata is as in xigt.rnc or, on tiers, that of INTENT. -/
theorem C154_iff (dateTime : Str → Prop) (x : Obj) (hc : x.cls = .corpus) (hw : x.WF) (hv : x.Valid) (hk : XmlKept [] x) (ind : Option Int) :
    ∃ s doc, dumpsXml ind x = .ok s ∧ docText s = .ok doc ∧ (Valid (odin_rnc dateTime) doc ↔ CorpusFitsO dateTime x) := by
  obtain ⟨s, doc, h1, h2, -, h4⟩ := wrote_corpus x hc hw hv hk ind
  refine ⟨s, doc, h1, h2, ?_⟩
  obtain ⟨d, md, kids⟩ := x
  exact core_odin (XNode.of hc hw hv hk) h4

/-- **C154** (types): in a valid document every tier has a type of the schema, or none. -/
theorem C154_types (dateTime : Str → Prop) (x : Obj) (hc : x.cls = .corpus) (hw : x.WF) (hv : x.Valid) (hk : XmlKept [] x) (ind : Option Int) :
    ∃ s doc, dumpsXml ind x = .ok s ∧ docText s = .ok doc ∧ (Valid (odin_rnc dateTime) doc → ∀ g ∈ x.kids, ∀ t ∈ g.kids, ∀ v, t.data.type = some v →
      OneOf [lit! "odin", lit! "phrases", lit! "words", lit! "morphemes", lit! "glosses", lit! "translations", lit! "pos", lit! "bilingual-alignments",
        lit! "phrase-structure", lit! "dependencies"] v) := by
  obtain ⟨s, doc, h1, h2, h3⟩ := C154_iff dateTime x hc hw hv hk ind
  refine ⟨s, doc, h1, h2, fun h g hg t ht v hv => ?_⟩
  obtain ⟨-, -, k, hk, g1, -⟩ := ((h3.1 h).2.2.2 g hg).2.2.2.2 t ht
  have g1 := g1 v hv
  simp only [odinKinds, List.mem_cons, List.not_mem_nil, or_false] at hk
  rcases hk with rfl | rfl | rfl | rfl | rfl
  · exact ⟨_, by simp, g1⟩
  · obtain ⟨w, hw, g1⟩ := g1
    refine ⟨w, ?_, g1⟩
    simp only [List.mem_cons, List.not_mem_nil, or_false] at hw ⊢
    rcases hw with h | h | h | h | h | h
    · exact .inr (.inl h)
    · exact .inr (.inr (.inl h))
    · exact .inr (.inr (.inr (.inl h)))
    · exact .inr (.inr (.inr (.inr (.inl h))))
    · exact .inr (.inr (.inr (.inr (.inr (.inl h)))))
    · exact .inr (.inr (.inr (.inr (.inr (.inr (.inl h))))))
  · exact ⟨_, by simp, g1⟩
  · exact ⟨_, by simp, g1⟩
  · exact ⟨_, by simp, g1⟩

/-- **C154** (alone): no IGT is allowed by this schema and by another one as well: the schema extends xigt.rnc only in form, since it asks for attributes that
the others do not allow. -/
theorem C154_alone (dateTime : Str → Prop) (x : Obj) (hc : x.cls = .corpus) (hw : x.WF) (hv : x.Valid) (hk : XmlKept [] x) (hg : x.kids ≠ []) (ind : Option Int) :
    ∃ s doc, dumpsXml ind x = .ok s ∧ docText s = .ok doc ∧ (Valid (odin_rnc dateTime) doc →
      ¬ Valid xigt_rnc doc ∧ ¬ Valid default_rnc doc ∧ ¬ Valid abkhaz_rnc doc ∧ ¬ Valid syntax_rnc doc ∧ ¬ Valid dependencies_rnc doc) := by
  obtain ⟨s, doc, h1, h2, -, h4⟩ := wrote_corpus x hc hw hv hk ind
  refine ⟨s, doc, h1, h2, fun h => ?_⟩
  obtain ⟨d, md, kids⟩ := x
  have nx := XNode.of hc hw hv hk
  obtain ⟨g, hg⟩ := List.exists_mem_of_ne_nil _ hg
  obtain ⟨v, hv⟩ := lacks_iff.1 ((((core_odin nx h4).1 h).2.2.2 g hg).2.2.1.1 (need (lit! "doc-id")) (by simp) rfl)
  have no : ¬ OnlyBase g.data.attrs := fun hb => by
    rcases hb _ _ hv with e | ⟨e, -⟩ <;> exact absurd e (by decide)
  exact ⟨fun h => no (((core_xigt nx h4).1 h).2.2.2 g hg).2.2.1, fun h => no (((core_default nx h4).1 h).2.2.2 g hg).2.2.1,
    fun h => no (((core_abkhaz nx h4).1 h).2.2.2 g hg).2.2.1, fun h => no (((core_syntax nx h4).1 h).2.2.2 g hg).2.2.1,
    fun h => no (((core_dependencies nx h4).1 h).2.2.2 g hg).2.2.1⟩

end

section
attribute [local instance] asciiUni asciiXml asciiXsd

def docAttrs : List (Str × Str) := [(lit! "doc-id", lit! "1"), (lit! "line-range", lit! "1 2"), (lit! "tag-types", lit! "L")]
def depTierAttrs : List (Str × Str) := [(lit! "dep", lit! "w"), (lit! "head", lit! "w")]

/-- an IGT from ODIN: one line, and a tier with dependencies -/
def depCorpus (ga ta la da ia : List (Str × Str)) : Obj :=
  .mk { cls := .corpus } [] [.mk { cls := .igt, id := some (lit! "i"), attrs := ga } []
    [.mk { cls := .tier, id := some (lit! "r"), type := some (lit! "odin"), attrs := ta } [] [.mk { cls := .item, id := some (lit! "a"), attrs := la } [] []],
     .mk { cls := .tier, id := some (lit! "d"), type := some (lit! "dependencies"), attrs := da } [] [.mk { cls := .item, id := some (lit! "b"), attrs := ia } [] []]]]

theorem depCorpus_fine {ga ta la da ia : List (Str × Str)} (hg : plainData { cls := .igt, id := some (lit! "i"), attrs := ga } = true)
    (ht : plainData { cls := .tier, id := some (lit! "r"), type := some (lit! "odin"), attrs := ta } = true)
    (hl : plainData { cls := .item, id := some (lit! "a"), attrs := la } = true)
    (hd : plainData { cls := .tier, id := some (lit! "d"), type := some (lit! "dependencies"), attrs := da } = true)
    (hi : plainData { cls := .item, id := some (lit! "b"), attrs := ia } = true) : Fine (depCorpus ga ta la da ia) := by
  refine fine_mk (by decide +kernel) (by simp) fun x hx => ?_
  cases List.mem_singleton.1 hx
  refine ⟨rfl, fine_mk hg (by simp) fun x hx => ?_⟩
  simp only [List.mem_cons, List.not_mem_nil, or_false] at hx
  rcases hx with rfl | rfl
  · refine ⟨rfl, fine_mk ht (by simp) fun x hx => ?_⟩
    cases List.mem_singleton.1 hx
    exact ⟨rfl, fine_mk hl (by simp) (by simp)⟩
  · refine ⟨rfl, fine_mk hd (by simp) fun x hx => ?_⟩
    cases List.mem_singleton.1 hx
    exact ⟨rfl, fine_mk hi (by simp) (by simp)⟩

def lineAttrs : List (Str × Str) := [(lit! "line", lit! "1"), (lit! "tag", lit! "L")]

theorem doc_fits : AttrsFit [need (lit! "doc-id"), need (lit! "line-range"), need (lit! "tag-types"), may (lit! "judgment")] docAttrs := by
  refine ⟨fun s hs hr => ?_, fun k v hv => .inr ?_⟩
  · simp only [List.mem_cons, List.not_mem_nil, or_false] at hs
    rcases hs with rfl | rfl | rfl | rfl
    · exact lacks_iff.2 ⟨lit! "1", by decide⟩
    · exact lacks_iff.2 ⟨lit! "1 2", by decide⟩
    · exact lacks_iff.2 ⟨lit! "L", by decide⟩
    · cases hr
  · simp only [docAttrs, List.mem_cons, List.not_mem_nil, or_false, Prod.mk.injEq] at hv
    rcases hv with ⟨rfl, -⟩ | ⟨rfl, -⟩ | ⟨rfl, -⟩
    · exact ⟨_, .head _, rfl, trivial⟩
    · exact ⟨_, .tail _ (.head _), rfl, trivial⟩
    · exact ⟨_, .tail _ (.tail _ (.head _)), rfl, trivial⟩

theorem depCorpus_fits {ia : List (Str × Str)} (h : ∃ f ∈ [need (lit! "dep") AlgnFits, may (lit! "head") AlgnFits, may CNT AlgnFits, may (lit! "judgment")] :: odinItem, AttrsFit f ia) :
    CorpusFitsO (fun _ => True) (depCorpus docAttrs [(lit! "state", lit! "raw")] lineAttrs depTierAttrs ia) := by
  refine ⟨(by rintro i ⟨⟩), by simp [depCorpus, OnlyBase], by simp [depCorpus], fun x hx => ?_⟩
  cases List.mem_singleton.1 hx
  refine ⟨⟨_, rfl, fit_small (by decide)⟩, (by rintro v ⟨⟩), doc_fits, by simp, fun x hx => ?_⟩
  simp only [Obj.kids_mk, List.mem_cons, List.not_mem_nil, or_false] at hx
  rcases hx with rfl | rfl
  · refine ⟨⟨_, rfl, fit_small (by decide)⟩, by simp, _, .head _, (by rintro v ⟨⟩; exact word_self _), ⟨_, .head _, ?_, ?_⟩, fun x hx => ?_⟩
    · intro s hs hr
      simp only [List.cons_append, List.nil_append, List.mem_cons, List.not_mem_nil, or_false] at hs
      rcases hs with rfl | rfl | rfl
      · cases hr
      · cases hr
      · exact lacks_iff.2 ⟨lit! "raw", .head _⟩
    · intro k v hv
      cases List.mem_singleton.1 hv
      exact .inr ⟨_, .tail _ (.tail _ (.head _)), rfl, _, .head _, word_self _⟩
    · cases List.mem_singleton.1 hx
      refine ⟨⟨_, rfl, fit_small (by decide)⟩, (by rintro v ⟨⟩), _, .head _, fun s hs hr => ?_, fun k v hv => .inr ?_⟩
      · simp only [List.cons_append, List.nil_append, List.mem_cons, List.not_mem_nil, or_false] at hs
        rcases hs with rfl | rfl | rfl | rfl | rfl
        · cases hr
        · cases hr
        · cases hr
        · exact lacks_iff.2 ⟨lit! "1", .head _⟩
        · exact lacks_iff.2 ⟨lit! "L", .tail _ (.head _)⟩
      · simp only [Obj.data_mk, lineAttrs, List.mem_cons, List.not_mem_nil, or_false, Prod.mk.injEq] at hv
        rcases hv with ⟨rfl, -⟩ | ⟨rfl, -⟩
        · exact ⟨_, .tail _ (.tail _ (.tail _ (.head _))), rfl, trivial⟩
        · exact ⟨_, .tail _ (.tail _ (.tail _ (.tail _ (.head _)))), rfl, trivial⟩
  · refine ⟨⟨_, rfl, fit_small (by decide)⟩, by simp, _, .tail _ (.tail _ (.tail _ (.tail _ (.head _)))), (by rintro v ⟨⟩; exact word_self _), ⟨_, .head _, ?_, ?_⟩, fun x hx => ?_⟩
    · intro s hs hr
      simp only [List.mem_cons, List.not_mem_nil, or_false] at hs
      rcases hs with rfl | rfl | rfl
      · exact lacks_iff.2 ⟨lit! "w", .head _⟩
      · exact lacks_iff.2 ⟨lit! "w", .tail _ (.head _)⟩
      · cases hr
    · intro k v hv
      simp only [Obj.data_mk, depTierAttrs, List.mem_cons, List.not_mem_nil, or_false, Prod.mk.injEq] at hv
      rcases hv with ⟨rfl, rfl⟩ | ⟨rfl, rfl⟩
      · exact .inr ⟨_, .head _, rfl, fit_small (by decide)⟩
      · exact .inr ⟨_, .tail _ (.head _), rfl, fit_small (by decide)⟩
    · cases List.mem_singleton.1 hx
      exact ⟨⟨_, rfl, fit_small (by decide)⟩, (by rintro v ⟨⟩), h⟩

/-- a corpus that the schema allows -/
example (ind : Option Int) : ∃ s doc, dumpsXml ind (depCorpus docAttrs [(lit! "state", lit! "raw")] lineAttrs depTierAttrs [(lit! "dep", lit! "w1")]) = .ok s ∧ docText s = .ok doc ∧
    Valid (odin_rnc fun _ => True) doc ∧ ¬ Valid default_rnc doc := by
  obtain ⟨hw, hv, hk⟩ := depCorpus_fine (ga := docAttrs) (ta := [(lit! "state", lit! "raw")]) (la := lineAttrs) (da := depTierAttrs) (ia := [(lit! "dep", lit! "w1")])
    (by decide +kernel) (by decide +kernel) (by decide +kernel) (by decide +kernel) (by decide +kernel)
  obtain ⟨s, doc, h1, h2, h3⟩ := C154_iff (fun _ => True) _ rfl hw hv hk ind
  obtain ⟨s', doc', g1, g2, g3⟩ := C154_alone (fun _ => True) _ rfl hw hv hk (by simp [depCorpus]) ind
  rw [h1] at g1; cases g1
  rw [h2] at g2; cases g2
  have h := h3.2 (depCorpus_fits ⟨_, .head _, fun s hs hr => ?_, fun k v hv => ?_⟩)
  · exact ⟨s, doc, h1, h2, h, (g3 h).2.1⟩
  · simp only [List.mem_cons, List.not_mem_nil, or_false] at hs
    rcases hs with rfl | rfl | rfl | rfl
    · exact lacks_iff.2 ⟨lit! "w1", .head _⟩
    · cases hr
    · cases hr
    · cases hr
  · cases List.mem_singleton.1 hv
    exact .inr ⟨_, .head _, rfl, algn_word⟩

/-- the same without `state` is not valid -/
example (ind : Option Int) : ∃ s doc, dumpsXml ind (depCorpus docAttrs [] lineAttrs depTierAttrs [(lit! "dep", lit! "w1")]) = .ok s ∧ docText s = .ok doc ∧
    ¬ Valid (odin_rnc fun _ => True) doc := by
  obtain ⟨hw, hv, hk⟩ := depCorpus_fine (ga := docAttrs) (ta := []) (la := lineAttrs) (da := depTierAttrs) (ia := [(lit! "dep", lit! "w1")])
    (by decide +kernel) (by decide +kernel) (by decide +kernel) (by decide +kernel) (by decide +kernel)
  obtain ⟨s, doc, h1, h2, h3⟩ := C154_iff (fun _ => True) _ rfl hw hv hk ind
  refine ⟨s, doc, h1, h2, fun h => ?_⟩
  obtain ⟨-, -, k, hk, g1, ⟨f, hf, g2, -⟩, -⟩ := ((h3.1 h).2.2.2 _ (.head _)).2.2.2.2 _ (.head _)
  have g1 := g1 _ rfl
  have no : ∀ w, Solid w → lit! "odin" ≠ w → ¬ Word w (lit! "odin") := by
    rintro w hs hne e
    rw [← tokens_iff hs.1 hs.2, tokens_one (w := lit! "odin") (by decide) (by decide)] at e
    injection e with e
    exact hne e
  simp only [odinKinds, List.mem_cons, List.not_mem_nil, or_false] at hk
  rcases hk with rfl | rfl | rfl | rfl | rfl
  · simp only [refsFit, List.mem_cons, List.not_mem_nil, or_false] at hf
    rcases hf with rfl | rfl
    · exact absurd (lacks_iff.1 (g2 (need (lit! "state") _) (.tail _ (.tail _ (.head _))) rfl)) (by rintro ⟨v, hv⟩; cases hv)
    · exact absurd (lacks_iff.1 (g2 (need (lit! "state") _) (.tail _ (.head _)) rfl)) (by rintro ⟨v, hv⟩; cases hv)
  · obtain ⟨w, hw, g1⟩ := g1
    have all : ∀ w ∈ [lit! "phrases", lit! "words", lit! "morphemes", lit! "glosses", lit! "translations", lit! "pos"], Solid w ∧ lit! "odin" ≠ w := by decide
    exact no w (all w hw).1 (all w hw).2 g1
  · exact no _ (by decide) (by decide) g1
  · exact no _ (by decide) (by decide) g1
  · exact no _ (by decide) (by decide) g1

/-- **C154** (what it does not say): that items of dependencies have a dependent (odin-xigt.rnc:100 `attribute dep { AlgnExpr }`), since items as in other tiers
are allowed as well (xigt-tier.rnc:32), and that IGTs have metadata on their language (odin-xigt.rnc:7-22). -/
theorem C154_loose (ind : Option Int) : ∃ s doc, dumpsXml ind (depCorpus docAttrs [(lit! "state", lit! "raw")] lineAttrs depTierAttrs []) = .ok s ∧ docText s = .ok doc ∧
    Valid (odin_rnc fun _ => True) doc := by
  obtain ⟨hw, hv, hk⟩ := depCorpus_fine (ga := docAttrs) (ta := [(lit! "state", lit! "raw")]) (la := lineAttrs) (da := depTierAttrs) (ia := [])
    (by decide +kernel) (by decide +kernel) (by decide +kernel) (by decide +kernel) (by decide +kernel)
  obtain ⟨s, doc, h1, h2, h3⟩ := C154_iff (fun _ => True) _ rfl hw hv hk ind
  refine ⟨s, doc, h1, h2, h3.2 (depCorpus_fits ⟨_, .tail _ (.head _), fun s hs hr => ?_, fun k v hv => by cases hv⟩)⟩
  simp only [List.cons_append, List.nil_append, List.mem_cons, List.not_mem_nil, or_false] at hs
  rcases hs with rfl | rfl | rfl <;> cases hr

end
end Xigt.Rng
