import Verif.Schema.XigtExamples
/- Metadata in default-xigt.rnc: which of it is valid. -/

set_option linter.unusedSectionVars false

namespace Xigt.Rng

section
variable [Uni] [Xsd]

/-! ### The condition -/

/-- one of these words -/
def OneOf (ws : List Str) (v : Str) : Prop := ∃ w ∈ ws, Word w v

/-- identifiers, with white space between them -/
inductive IdsFit : Str → Prop
  | one {i} : IdFits i → IdsFit i
  | more {i w r} : IdFits i → w ≠ [] → Ws w → IdsFit r → IdsFit (i ++ (w ++ r))

/-- the attributes of a note on a language: the name or the code or both, and which tiers it is about -/
def LangAttrs (a : List (Str × Str)) : Prop :=
  (∀ k v, (k, v) ∈ a → BaseAttr k v ∨ k = lit! "name" ∨ k = lit! "iso-639-3" ∨ (k = lit! "tiers" ∧ IdsFit v)) ∧
  (¬ Lacks a (lit! "name") ∨ ¬ Lacks a (lit! "iso-639-3")) ∧ ¬ Lacks a (lit! "tiers")

/-- the attributes of a note on a source that is referred to -/
def SrcAttrs (a : List (Str × Str)) : Prop :=
  (∀ k v, (k, v) ∈ a → BaseAttr k v ∨ (k = lit! "ref" ∧ IdFits v) ∨ k = lit! "page") ∧ ¬ Lacks a (lit! "ref")

/-- the kinds of notes: the type, the attributes, and whether it is mere text or rather text only together
with children -/
def metaTable : List ((Str → Prop) × (List (Str × Str) → Prop) × Bool) :=
  [(OneOf [lit! "language"], LangAttrs, false), (OneOf [lit! "date"], OnlyBase, true), (OneOf [lit! "author"], OnlyBase, true),
    (OneOf [lit! "source"], OnlyBase, true), (OneOf [lit! "source"], SrcAttrs, false), (OneOf [lit! "comment"], OnlyBase, true),
    (Ws, OnlyBase, false)]

def MetaText (b : Bool) (x : Obj) : Prop := if b then x.kids = [] else x.data.text = none ∨ x.kids ≠ []

/-- there is a kind of notes the note is not in conflict with -/
def MetaFitsD (x : Obj) : Prop :=
  OptId x.data ∧ ∃ t ∈ metaTable, (∀ v, x.data.type = some v → t.1 v) ∧ t.2.1 x.data.attrs ∧ MetaText t.2.2 x

def MdFitsD (x : Obj) : Prop :=
  OptId x.data ∧ (∀ v, x.data.type = some v → Ws v ∨ Word (lit! "xigt-meta") v) ∧ OnlyBase x.data.attrs ∧ ∀ m ∈ x.kids, MetaFitsD m

end

section
variable [Uni] [XmlLex] [Xsd] {env : Str → Pat}

/-- a word -/
def Solid (w : Str) : Prop := w ≠ [] ∧ ∀ c ∈ w, xmlSpace c = false
instance (w : Str) : Decidable (Solid w) := inferInstanceAs (Decidable (_ ∧ _))

theorem oneOf_one {w v : Str} (h : Solid w) : Val env (value w) v ↔ OneOf [w] v := by
  rw [val_value, tokens_one h.1 h.2, tokens_iff h.1 h.2]; simp [OneOf]

theorem oneOf_two {w w' v : Str} (h : Solid w) (h' : Solid w') : Val env (.choice (value w) (value w')) v ↔ OneOf [w, w'] v := by
  rw [val_choice, val_value, val_value, tokens_one h.1 h.2, tokens_iff h.1 h.2, tokens_one h'.1 h'.2, tokens_iff h'.1 h'.2]; simp [OneOf]

/-! ### Lists of identifiers -/

theorem plus_ws {s : Str} : (Rx.plus (.cls xmlSpace)).Mem s ↔ s ≠ [] ∧ Ws s := by
  constructor
  · rintro (_ | _ | ⟨h1, h2⟩)
    cases h1 with
    | cls h =>
      refine ⟨by simp, fun c hc => ?_⟩
      rcases List.mem_append.1 hc with hc | hc
      · cases List.mem_singleton.1 hc; exact h
      · exact star_cls.1 h2 c hc
  · rintro ⟨h, hw⟩
    cases s with
    | nil => exact absurd rfl h
    | cons c s => exact .seq (s := [c]) (.cls (hw c (by simp))) (star_cls.2 fun x hx => hw x (by simp [hx]))

theorem ids_iff {v : Str} : Val env IdRefs v ↔ IdsFit v := by
  rw [IdRefs, val_data]
  constructor
  · rintro (_ | _ | @⟨_, _, i, t, h1, h2⟩)
    rw [idRx_iff] at h1
    generalize hr : Rx.star (.seq (.plus (.cls xmlSpace)) idRx) = r at h2
    induction h2 generalizing i with
    | nil => rw [List.append_nil]; exact .one h1
    | @cons a s t g1 g2 _ ih =>
      cases hr
      cases g1 with
      | @seq _ _ w j g3 g4 =>
        rw [idRx_iff] at g4
        have := plus_ws.1 g3
        rw [List.append_assoc]
        exact .more h1 this.1 this.2 (ih g4 rfl)
    | _ => cases hr
  · intro h
    induction h with
    | one h =>
      have := Rx.Mem.seq ((idRx_iff).2 h) (.nil (a := .seq (.plus (.cls xmlSpace)) idRx))
      rwa [List.append_nil] at this
    | @more i w r h1 h2 h3 h4 ih =>
      cases ih with
      | @seq _ _ j t g1 g2 =>
        refine .seq ((idRx_iff).2 h1) ?_
        rw [← List.append_assoc]
        exact .cons (.seq (plus_ws.2 ⟨h2, h3⟩) g1) g2

/-! ### Patterns that are the same for attributes with distinct names -/

def SameN (env : Str → Pat) (p q : Pat) : Prop := ∀ a ns, (a.map Prod.fst).Nodup → (Matches env p a ns ↔ Matches env q a ns)

theorem nodup_parts {a a₁ a₂ : List (Str × Str)} (h : a.Perm (a₁ ++ a₂)) (hn : (a.map Prod.fst).Nodup) :
    (a₁.map Prod.fst).Nodup ∧ (a₂.map Prod.fst).Nodup := by
  have := (h.map Prod.fst).nodup_iff.1 hn
  rw [List.map_append] at this
  exact ⟨(List.nodup_append.1 this).1, (List.nodup_append.1 this).2.1⟩

theorem Same.n {p q : Pat} (h : Same env p q) : SameN env p q := fun a ns _ => h a ns

namespace SameN
theorem trans {p q r : Pat} (h : SameN env p q) (h' : SameN env q r) : SameN env p r := fun a ns hn => (h a ns hn).trans (h' a ns hn)

theorem symm {p q : Pat} (h : SameN env p q) : SameN env q p := fun a ns hn => (h a ns hn).symm

theorem group {p p' q q' : Pat} (hp : SameN env p p') (hq : SameN env q q') : SameN env (.group p q) (.group p' q') := by
  intro a ns hn
  rw [group_iff, group_iff]
  constructor
  · rintro ⟨a₁, a₂, n₁, n₂, h1, h2, h3, h4⟩
    exact ⟨a₁, a₂, n₁, n₂, h1, h2, (hp _ _ (nodup_parts h1 hn).1).1 h3, (hq _ _ (nodup_parts h1 hn).2).1 h4⟩
  · rintro ⟨a₁, a₂, n₁, n₂, h1, h2, h3, h4⟩
    exact ⟨a₁, a₂, n₁, n₂, h1, h2, (hp _ _ (nodup_parts h1 hn).1).2 h3, (hq _ _ (nodup_parts h1 hn).2).2 h4⟩

theorem right {p q q' : Pat} (hq : SameN env q q') : SameN env (.group p q) (.group p q') := (Same.refl p).n.group hq

theorem content {p q : Pat} (h : SameN env p q) {a ns} (hn : (a.map Prod.fst).Nodup) : Content env p a ns ↔ Content env q a ns := by
  simp only [Content, h _ _ hn]
end SameN

theorem plus_atts {k k' : Str} {p p' : Pat} {a ns} : Matches env (.plus (.choice (att k p) (att k' p'))) a ns ↔
    ns = [] ∧ a ≠ [] ∧ ∀ x ∈ a, (x.1 = k ∧ Val env p x.2) ∨ (x.1 = k' ∧ Val env p' x.2) := by
  have one : ∀ {a ns}, Matches env (.choice (att k p) (att k' p')) a ns ↔
      ns = [] ∧ ∃ x, a = [x] ∧ ((x.1 = k ∧ Val env p x.2) ∨ (x.1 = k' ∧ Val env p' x.2)) := by
    intro a ns
    rw [choice_iff, att, att, attr_iff, attr_iff, ← and_or_left]
    refine and_congr_right fun _ => ?_
    constructor
    · rintro (⟨j, v, rfl, h1, h2⟩ | ⟨j, v, rfl, h1, h2⟩)
      · exact ⟨(j, v), rfl, .inl ⟨h1, h2⟩⟩
      · exact ⟨(j, v), rfl, .inr ⟨h1, h2⟩⟩
    · rintro ⟨⟨j, v⟩, rfl, h | h⟩
      · exact .inl ⟨j, v, rfl, h.1, h.2⟩
      · exact .inr ⟨j, v, rfl, h.1, h.2⟩
  constructor
  · intro h
    generalize hr : Pat.plus (.choice (att k p) (att k' p')) = r at h
    induction h with
    | one h =>
      cases hr
      obtain ⟨rfl, x, rfl, hv⟩ := one.1 h
      exact ⟨rfl, by simp, fun y hy => by cases List.mem_singleton.1 hy; exact hv⟩
    | @more _ a a₁ a₂ n₁ n₂ hp h _ _ ih =>
      cases hr
      obtain ⟨rfl, x, rfl, hv⟩ := one.1 h
      obtain ⟨rfl, h2, h3⟩ := ih rfl
      refine ⟨rfl, fun e => ?_, fun y hy => ?_⟩
      · subst e; exact absurd hp.length_eq (by simp)
      · rcases List.mem_append.1 (hp.mem_iff.1 hy) with hy | hy
        · cases List.mem_singleton.1 hy; exact hv
        · exact h3 y hy
    | _ => cases hr
  · rintro ⟨rfl, h1, h2⟩
    induction a with
    | nil => exact absurd rfl h1
    | cons x a ih =>
      by_cases ha : a = []
      · subst ha
        exact .one (one.2 ⟨rfl, x, rfl, h2 x (by simp)⟩)
      · exact .more (a₁ := [x]) (n₁ := []) (n₂ := []) (.refl _) (one.2 ⟨rfl, x, rfl, h2 x (by simp)⟩) (ih ha fun y hy => h2 y (by simp [hy]))

/-- one or more of two attributes -/
theorem plus_two {k k' : Str} (hk : k ≠ k') {p p' : Pat} : SameN env (.plus (.choice (att k p) (att k' p')))
    (.choice (.group (att k p) (.group (.opt (att k' p')) .empty)) (.group (att k' p') (.group (.opt (att k p)) .empty))) := by
  intro a ns hn
  have hq : NoAttr env .empty := fun a ns h => (empty_iff.1 h).1
  have e1 := attsPat_iff (ns := ns) hq [(k, true, p), (k', false, p')] a (by simp [hk]) hn
  have e2 := attsPat_iff (ns := ns) hq [(k', true, p'), (k, false, p)] a (by simp [Ne.symm hk]) hn
  simp only [attsPat] at e1 e2
  rw [plus_atts, choice_iff, e1, e2, empty_iff]
  simp only [Atts, List.mem_cons, List.not_mem_nil, or_false, forall_eq_or_imp, forall_eq, exists_eq_or_imp, exists_eq_left, true_imp_iff,
    Bool.false_eq_true, false_imp_iff, and_true, true_and]
  constructor
  · rintro ⟨rfl, h1, h2⟩
    obtain ⟨x, hx⟩ := List.exists_mem_of_ne_nil a h1
    rcases h2 x hx with h | h
    · refine .inl ⟨⟨⟨x.2, by rw [← h.1]; exact hx⟩, fun y hy => ?_⟩, rfl⟩
      exact (h2 y hy).imp (fun h => ⟨h.1.symm, h.2⟩) (fun h => ⟨h.1.symm, h.2⟩)
    · refine .inr ⟨⟨⟨x.2, by rw [← h.1]; exact hx⟩, fun y hy => ?_⟩, rfl⟩
      exact (h2 y hy).symm.imp (fun h => ⟨h.1.symm, h.2⟩) (fun h => ⟨h.1.symm, h.2⟩)
  · rintro (⟨⟨⟨v, hv⟩, h⟩, rfl⟩ | ⟨⟨⟨v, hv⟩, h⟩, rfl⟩)
    · refine ⟨rfl, List.ne_nil_of_mem hv, fun y hy => (h y hy).imp (fun h => ⟨h.1.symm, h.2⟩) (fun h => ⟨h.1.symm, h.2⟩)⟩
    · refine ⟨rfl, List.ne_nil_of_mem hv, fun y hy => (h y hy).symm.imp (fun h => ⟨h.1.symm, h.2⟩) (fun h => ⟨h.1.symm, h.2⟩)⟩

/-! ### Notes -/

/-- the attributes of a note or of metadata with further attributes `x` -/
theorem metaG {m : Dict Str Str} {d : Data} (hk : XmlDataKept m d) {t r q : Pat} {x : AttSpec} (he : SameN env r (attsPat x q))
    (hx : Fresh x) (hq : NoAttr env q) (hn : ((attrsOf d).map (·.1)).Nodup) {ns : List Node} :
    Content env (.group (.opt (att (lit! "id") Id)) (.group BaseAttrs (.group (.opt (att (lit! "type") t)) r))) (attrsOf d) ns ↔
    (OptId d ∧ (∀ v, d.type = some v → Val env t v) ∧ Atts env (baseSpec ++ x) d.attrs) ∧ Content env q [] ns := by
  have hs : SameN env (.group (.opt (att (lit! "id") Id)) (.group BaseAttrs (.group (.opt (att (lit! "type") t)) r)))
      (attsPat ((lit! "id", false, Id) :: (baseSpec ++ ([] ++ ((lit! "type", false, t) :: x)))) q) :=
    .right (.trans (.right (.right he)) base_same.n)
  have fr : ∀ k ∈ [lit! "id", xmlName (lit! "lang"), xmlName (lit! "space"), lit! "type"], k ∉ x.map (·.1) := by
    intro k hk hm
    obtain ⟨s, hs, rfl⟩ := List.mem_map.1 hm
    refine hx.2 s hs ?_
    generalize s.1 = k at hk
    revert k; decide
  have n1 : (((lit! "id", false, Id) :: (baseSpec ++ ([] ++ ((lit! "type", false, t) :: x)))).map (·.1)).Nodup := by
    show ([lit! "id", xmlName (lit! "lang"), xmlName (lit! "space"), lit! "type"] ++ x.map (·.1)).Nodup
    refine List.nodup_append.2 ⟨by decide, hx.1, ?_⟩
    rintro a ha b hb rfl
    exact fr a ha hb
  have g : ∀ k ∈ [lit! "id", lit! "type"], k ∉ ((baseSpec ++ [] ++ x : AttSpec).map (·.1)) := by
    intro k hk
    have hk' : k ∈ [lit! "id", xmlName (lit! "lang"), xmlName (lit! "space"), lit! "type"] := by revert k; decide
    have h1 : k ∉ [xmlName (lit! "lang"), xmlName (lit! "space")] := by revert k; decide
    rw [List.append_nil, List.map_append]
    exact fun h => (List.mem_append.1 h).elim h1 (fr k hk')
  rw [hs.content hn, attsPat_content hq n1 hn, atts_perm spec_perm', atts_split hk (g (lit! "id") (by simp)) (g (lit! "type") (by simp)), List.append_nil]
  simp [OptId]

/-- what the content of a note is allowed to be -/
theorem any_content (he : env ANY = AnyElement) {eff d kids} (n : XNode eff .metaC d [] kids) {t : Option Str} {ns : List Node}
    (ht : t = d.text ∨ (blank d.text = true ∧ Ws (t.getD []))) (hws : WsOnly ns) (ha : All2 Wrote ([] ++ kids) (elems ns)) :
    Content env anyContent [] (textNode t ++ ns) ↔ MetaText false (.mk d [] kids) := by
  rw [anyContent_iff he, elems_text_append]
  simp only [MetaText, Obj.data_mk, Obj.kids_mk, Bool.false_eq_true, if_false]
  have hk : elems ns ≠ [] ↔ kids ≠ [] := by
    have := all2_length ha
    rw [List.nil_append] at this
    rw [ne_eq, ne_eq, ← List.length_eq_zero_iff, ← List.length_eq_zero_iff, this]
  rw [hk]
  constructor
  · rintro (h | h)
    · by_cases hk' : kids = []
      · left
        rcases ht with rfl | ⟨g, -⟩
        · cases htx : d.text with
          | none => rfl
          | some s =>
            obtain ⟨c, hc, hsp⟩ := n.kept.metas (.inl n.cls_eq) s htx
            have hne : s ≠ [] := by rintro rfl; cases hc
            rw [htx] at h
            obtain ⟨s', e, hws'⟩ := h (.text s) (by simp [textNode, hne])
            cases e
            rw [ws_blank (hws' c hc)] at hsp; cases hsp
        · cases htx : d.text with
          | none => rfl
          | some s =>
            obtain ⟨c, hc, hsp⟩ := n.kept.metas (.inl n.cls_eq) s htx
            rw [htx] at g
            rw [blank_iff.1 g c hc] at hsp; cases hsp
      · exact .inr hk'
    · exact .inr h
  · rintro (h | h)
    · by_cases hk' : kids = []
      · left
        have he' : elems ns = [] := Decidable.not_not.1 (fun e => hk.1 e hk')
        rcases ht with rfl | ⟨-, g⟩
        · rw [h]
          exact wsNodes_iff.2 ⟨by rw [textNode, List.nil_append]; exact he', by rw [textNode, List.nil_append]; exact hws⟩
        · exact wsNodes_iff.2 ⟨by rw [elems_text_append]; exact he', wsOnly_append.2 ⟨wsOnly_textNode g, hws⟩⟩
      · exact .inr hk'
    · exact .inr h

theorem text_content {d kids} {t : Option Str} {ns : List Node} (ha : All2 Wrote ([] ++ kids) (elems ns)) :
    Content env .text [] (textNode t ++ ns) ↔ MetaText true (.mk d [] kids) := by
  rw [content_text, elems_text_append, MetaText, if_pos rfl, Obj.kids_mk, ← List.length_eq_zero_iff, ← List.length_eq_zero_iff]
  have := all2_length ha
  rw [List.nil_append] at this
  rw [this]

/-- a kind of notes -/
theorem kind_iff {p : Names} (hb : p.baseAttrs = BaseAttrs) (hi : p.metaId = Id) {q : Pat} {x : AttSpec} (hs : SameN env (.group p.metaAttrs q) (attsPat x q))
    (hx : Fresh x) (hq : NoAttr env q) {T : Str → Prop} (hT : ∀ v, Val env p.metaType v ↔ T v) {A : List (Str × Str) → Prop}
    (hA : ∀ a, Atts env (baseSpec ++ x) a ↔ A a) {b : Bool} {eff d kids}
    (hc : ∀ {t : Option Str} {ns : List Node}, (t = d.text ∨ (blank d.text = true ∧ Ws (t.getD []))) → WsOnly ns → All2 Wrote ([] ++ kids) (elems ns) →
      (Content env q [] (textNode t ++ ns) ↔ MetaText b (.mk d [] kids)))
    (n : XNode eff .metaC d [] kids) {nd : Node} (h : Wrote (.mk d [] kids) nd) :
    Matches env (metaFile p q) [] [nd] ↔ OptId d ∧ (∀ v, d.type = some v → T v) ∧ A d.attrs ∧ MetaText b (.mk d [] kids) := by
  obtain ⟨t, ns, rfl, hn, ht, hws, ha⟩ := h.inv (by rw [n.cls_eq]; decide)
  rw [n.cls_eq]
  simp only [metaFile, hb, hi]
  rw [show clsTag .metaC = lit! "meta" from rfl, elem_wrote, metaG n.kept hs hx hq hn, hA, hc ht hws ha, and_assoc, and_assoc]
  simp only [hT]

theorem noAttr_text : NoAttr env .text := fun _ _ h => (text_iff.1 h).1

def langSpec (b : Bool) : AttSpec :=
  if b then [(lit! "name", true, .text), (lit! "iso-639-3", false, .text), (lit! "tiers", true, IdRefs)]
  else [(lit! "iso-639-3", true, .text), (lit! "name", false, .text), (lit! "tiers", true, IdRefs)]
def srcSpec : AttSpec := [(lit! "ref", true, Id), (lit! "page", false, .text)]

theorem fresh_lang (b : Bool) : Fresh (langSpec b) := by
  have hd : [lit! "name", lit! "iso-639-3", lit! "tiers"].Nodup ∧ [lit! "iso-639-3", lit! "name", lit! "tiers"].Nodup := by decide
  refine ⟨(by cases b with | false => exact hd.2 | true => exact hd.1), fun s hs => ?_⟩
  have : s.1 ∈ [lit! "name", lit! "iso-639-3", lit! "tiers"] := by
    have : s.1 ∈ (langSpec b).map (·.1) := List.mem_map.2 ⟨s, hs, rfl⟩
    cases b
    · exact (by decide : ∀ k ∈ [lit! "iso-639-3", lit! "name", lit! "tiers"], k ∈ [lit! "name", lit! "iso-639-3", lit! "tiers"]) _ this
    · exact this
  generalize s.1 = k at this
  revert k; decide

theorem fresh_src : Fresh srcSpec := by
  refine ⟨?_, fun s hs => ?_⟩
  · show [lit! "ref", lit! "page"].Nodup
    decide
  · have : s.1 ∈ [lit! "ref", lit! "page"] := (List.mem_map.2 ⟨s, hs, rfl⟩ : s.1 ∈ srcSpec.map (·.1))
    generalize s.1 = k at this
    revert k; decide

theorem lacks_iff {a : List (Str × Str)} {k : Str} : ¬ Lacks a k ↔ ∃ v, (k, v) ∈ a := by
  simp [Lacks]

theorem base_none (s : Str × Bool × Pat) (hs : s ∈ baseSpec) : ¬ s.2.1 = true := by rw [base_opt s hs]; decide

/-- attributes besides those all elements have -/
theorem atts_base_append {l : AttSpec} {a : List (Str × Str)} : Atts env (baseSpec ++ l) a ↔ (∀ s ∈ l, s.2.1 = true → ¬ Lacks a s.1) ∧
    ∀ k v, (k, v) ∈ a → BaseAttr k v ∨ ∃ s ∈ l, s.1 = k ∧ Val env s.2.2 v := by
  constructor
  · rintro ⟨h1, h2⟩
    exact ⟨fun s hs hb => lacks_iff.2 (h1 s (List.mem_append_right _ hs) hb), fun k v hx => base_append.1 (h2 (k, v) hx)⟩
  · rintro ⟨h1, h2⟩
    refine ⟨fun s hs hb => ?_, fun x hx => base_append.2 (h2 x.1 x.2 hx)⟩
    rcases List.mem_append.1 hs with hs | hs
    · exact absurd hb (base_none s hs)
    · exact lacks_iff.1 (h1 s hs hb)

theorem lang_atts {a : List (Str × Str)} : Atts env (baseSpec ++ langSpec true) a ∨ Atts env (baseSpec ++ langSpec false) a ↔ LangAttrs a := by
  rw [atts_base_append, atts_base_append, LangAttrs]
  simp only [langSpec, if_true, Bool.false_eq_true, if_false, List.mem_cons, List.not_mem_nil, or_false, forall_eq_or_imp, forall_eq, exists_eq_or_imp, exists_eq_left, true_imp_iff,
    Bool.false_eq_true, false_imp_iff, and_true, true_and, Bool.not_true, Bool.not_false, ids_iff, val_text, @eq_comm Str _]
  constructor
  · rintro (⟨⟨h1, h3⟩, h2⟩ | ⟨⟨h1, h3⟩, h2⟩)
    · exact ⟨h2, .inl h1, h3⟩
    · exact ⟨fun k v hx => (h2 k v hx).imp_right or_left_comm.1, .inr h1, h3⟩
  · rintro ⟨h2, h1 | h1, h3⟩
    · exact .inl ⟨⟨h1, h3⟩, h2⟩
    · exact .inr ⟨⟨h1, h3⟩, fun k v hx => (h2 k v hx).imp_right or_left_comm.1⟩

theorem src_atts {a : List (Str × Str)} : Atts env (baseSpec ++ srcSpec) a ↔ SrcAttrs a := by
  rw [atts_base_append, SrcAttrs]
  simp only [srcSpec, List.mem_cons, List.not_mem_nil, or_false, forall_eq_or_imp, forall_eq, exists_eq_or_imp, exists_eq_left, true_imp_iff,
    Bool.false_eq_true, false_imp_iff, and_true, true_and, id_val, val_text, @eq_comm Str _]
  exact and_comm

theorem plain_atts {a : List (Str × Str)} : Atts env (baseSpec ++ []) a ↔ OnlyBase a := by rw [List.append_nil, atts_base]

theorem lang_same {q : Pat} : SameN env
    (.group (.group (.plus (.choice (att (lit! "name") .text) (att (lit! "iso-639-3") .text))) (att (lit! "tiers") IdRefs)) q)
    (.choice (attsPat (langSpec true) q) (attsPat (langSpec false) q)) := by
  refine Same.assoc.n.trans (((plus_two (by decide)).group (Same.refl _).n).trans (Same.distrib.trans (.choice ?_ ?_)).n)
  · exact Same.assoc.trans (.right (Same.assoc.trans (.right .empty_left)))
  · exact Same.assoc.trans (.right (Same.assoc.trans (.right .empty_left)))

theorem meta_default (he : env ANY = AnyElement) {eff d md kids} (n : XNode eff .metaC d md kids) {nd : Node}
    (h : Wrote (.mk d md kids) nd) : Matches env (.choice defaultMeta (metaFile defaultNames)) [] [nd] ↔ MetaFitsD (.mk d md kids) := by
  have hmd : md = [] := n.md_nil rfl
  subst hmd
  have hany := fun {t : Option Str} {ns : List Node} => any_content he n (t := t) (ns := ns)
  have htext := fun {t : Option Str} {ns : List Node} (_ : t = d.text ∨ (blank d.text = true ∧ Ws (t.getD []))) (_ : WsOnly ns)
    (ha : All2 Wrote ([] ++ kids) (elems ns)) => text_content (env := env) (d := d) (t := t) ha
  have nl : Fresh [] := ⟨.nil, by simp⟩
  have kt : ∀ w : Str, Solid w → (Matches env (metaFile { defaultNames₁ with metaType := value w } .text) [] [nd] ↔
      OptId d ∧ (∀ v, d.type = some v → OneOf [w] v) ∧ OnlyBase d.attrs ∧ MetaText true (.mk d [] kids)) := fun w hw =>
    kind_iff rfl rfl (x := []) Same.empty_left.n nl noAttr_text (fun v => oneOf_one hw) (fun _ => plain_atts) htext n h
  have ksrc := kind_iff (env := env) (p := { defaultNames₁ with
        metaType := value (lit! "source")
        metaAttrs := .group (att (lit! "ref") Id) (.opt (att (lit! "page") .text)) }) rfl rfl (q := anyContent) (x := srcSpec)
      Same.assoc.n fresh_src (anyContent_noAttr he) (fun v => oneOf_one (by decide)) (fun _ => src_atts) hany n h
  have kpl : Matches env (metaFile defaultNames) [] [nd] ↔ _ :=
    kind_iff rfl rfl (x := []) Same.empty_left.n nl (anyContent_noAttr he) (fun v => val_empty) (fun _ => plain_atts) hany n h
  have klang : Matches env (metaFile { defaultNames₁ with
        metaType := value (lit! "language")
        metaAttrs := .group (.plus (.choice (att (lit! "name") .text) (att (lit! "iso-639-3") .text))) (att (lit! "tiers") IdRefs) }) [] [nd] ↔
      OptId d ∧ (∀ v, d.type = some v → OneOf [lit! "language"] v) ∧ LangAttrs d.attrs ∧ MetaText false (.mk d [] kids) := by
    obtain ⟨t, ns, rfl, hn, ht, hws, ha⟩ := h.inv (by rw [n.cls_eq]; decide)
    rw [n.cls_eq]
    simp only [metaFile]
    rw [show clsTag .metaC = lit! "meta" from rfl, elem_wrote,
      (SameN.trans (.right (.right (.right lang_same))) (Same.trans (.right (.trans (.right .distrib_left) .distrib_left)) .distrib_left).n).content hn,
      content_choice]
    have g := fun b => metaG (env := env) n.kept (t := value (lit! "language")) (x := langSpec b) (q := anyContent) (Same.refl _).n (fresh_lang b) (anyContent_noAttr he) hn
      (ns := textNode t ++ ns)
    refine (or_congr (g true) (g false)).trans ?_
    rw [← or_and_right, ← and_or_left, ← and_or_left, lang_atts, hany ht hws ha, and_assoc, and_assoc]
    simp only [oneOf_one (env := env) (w := lit! "language") (by decide)]
  rw [choice_iff, defaultMeta]
  simp only [choice_iff]
  rw [klang, kt _ (by decide), kt _ (by decide), kt _ (by decide), kt _ (by decide), ksrc, kpl]
  simp only [MetaFitsD, metaTable, List.mem_cons, List.not_mem_nil, or_false, exists_eq_or_imp, exists_eq_left, Obj.data_mk]
  constructor
  · rintro ((h | h | h | h | h | h | h) | h)
    · cases h
    · exact ⟨h.1, .inl h.2⟩
    · exact ⟨h.1, .inr (.inl h.2)⟩
    · exact ⟨h.1, .inr (.inr (.inl h.2))⟩
    · exact ⟨h.1, .inr (.inr (.inr (.inl h.2)))⟩
    · exact ⟨h.1, .inr (.inr (.inr (.inr (.inl h.2))))⟩
    · exact ⟨h.1, .inr (.inr (.inr (.inr (.inr (.inl h.2)))))⟩
    · exact ⟨h.1, .inr (.inr (.inr (.inr (.inr (.inr h.2)))))⟩
  · rintro ⟨h1, h | h | h | h | h | h | h⟩
    · exact .inl (.inr (.inl ⟨h1, h⟩))
    · exact .inl (.inr (.inr (.inl ⟨h1, h⟩)))
    · exact .inl (.inr (.inr (.inr (.inl ⟨h1, h⟩))))
    · exact .inl (.inr (.inr (.inr (.inr (.inl ⟨h1, h⟩)))))
    · exact .inl (.inr (.inr (.inr (.inr (.inr (.inl ⟨h1, h⟩))))))
    · exact .inl (.inr (.inr (.inr (.inr (.inr (.inr ⟨h1, h⟩))))))
    · exact .inr ⟨h1, h⟩

theorem defaultMeta_elem : ElemLike env (.choice defaultMeta (metaFile defaultNames)) :=
  (elemLike_not.choice ((elemLike_elem _ _).choice ((elemLike_elem _ _).choice ((elemLike_elem _ _).choice ((elemLike_elem _ _).choice
    ((elemLike_elem _ _).choice (elemLike_elem _ _))))))).choice (elemLike_elem _ _)

/-- names that concern metadata are as in default-xigt.rnc -/
structure DefaultMd (p : Names) : Prop where
  base : p.baseAttrs = BaseAttrs
  mdId : p.metadataId = Id
  mdType : p.metadataType = .choice (value (lit! "xigt-meta")) .empty
  mdAttrs : p.metadataAttrs = .empty
  metaP : p.metaP = defaultMeta
  plain : metaFile p = metaFile defaultNames

theorem md_default (he : env ANY = AnyElement) {p : Names} (hp : DefaultMd p) {eff d md kids} (n : XNode eff .metadata d md kids) {nd : Node}
    (h : Wrote (.mk d md kids) nd) : Matches env (metadataFile p) [] [nd] ↔ MdFitsD (.mk d md kids) := by
  obtain ⟨t, ns, rfl, hn, ht, hws, ha⟩ := h.inv (by rw [n.cls_eq]; decide)
  rw [n.cls_eq]
  have hmd : md = [] := n.md_nil rfl
  subst hmd
  simp only [metadataFile, hp.base, hp.mdId, hp.mdType, hp.mdAttrs, hp.metaP, hp.plain]
  have hs : SameN env (.group .empty (.star (.choice defaultMeta (metaFile defaultNames)))) (attsPat [] (.star (.choice defaultMeta (metaFile defaultNames)))) :=
    Same.empty_left.n
  rw [show clsTag .metadata = lit! "metadata" from rfl, elem_wrote, metaG n.kept hs ⟨.nil, by simp⟩ (star_noAttr defaultMeta_elem.noAttr) hn,
    plain_atts, content_star defaultMeta_elem, elems_text_append, MdFitsD, and_assoc, and_assoc]
  refine and_congr_right fun _ => and_congr ?_ (and_congr_right fun _ => ?_)
  · have e : ∀ v, Val env (.choice (value (lit! "xigt-meta")) .empty) v ↔ Ws v ∨ Word (lit! "xigt-meta") v := by
      intro v
      rw [val_choice, val_empty, oneOf_one (by decide)]
      simp [OneOf, or_comm]
    simp only [e, Obj.data_mk]
  · have hw := wrote_ws (n.text_none rfl) ht hws
    rw [List.nil_append] at ha
    simp only [Obj.kids_mk]
    rw [and_iff_right hw]
    refine all2_iff ha fun x hx nd hnd => ?_
    have hcx := n.kids_cls x hx
    have nx := XNode.of (x := x) (by injection hcx) (n.kids_wf x hx) (n.kids_valid x hx) (n.kept_kids x hx)
    obtain ⟨d', md', kids'⟩ := x
    exact meta_default he nx hnd

end
end Xigt.Rng
