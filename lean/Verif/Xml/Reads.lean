import Verif.Xml.Grammar
import Verif.Xml.StreamProps
import Verif.Json.Grammar
/- C159: XML documents, however they were made, are read as they say (C144 and C158 are the same for JSON). -/

set_option linter.unusedSectionVars false

namespace Xigt.Xs
open Xigt.Js (dictOf Each bind_ok_iff mapPy_each construct_iff pair_eq idx_some)
open Xigt.Mu (Lines C113_lex C113_lines C113_exact Doc)

/-! ### Spec: namespaces -/

/-- the prefix that an attribute declares, if it does: none for `xmlns` -/
def prefixOf (k : Str) : Option Str :=
  if k = lit! "xmlns" then some [] else if k.take 6 = lit! "xmlns:" ∧ 6 < k.length then some (k.drop 6) else none

/-- what the attributes of an element declare -/
def declared (attrs : List (Str × Str)) : List (Str × Str) := attrs.filterMap fun a => (prefixOf a.1).map fun p => (p, a.2)

/-- what a prefix stands for after these declarations, the innermost last -/
def standsFor (ds : List (Str × Str)) (p : Str) : Option Str := (ds.reverse.find? fun d => d.1 = p).map (·.2)

/-- the characters of XML -/
def Chars (s : Str) : Prop := ∀ c ∈ s, c.toNat ∈ [0x9, 0xA, 0xD] ∨ (0x20 ≤ c.toNat ∧ c.toNat ≤ 0xD7FF) ∨ (0xE000 ≤ c.toNat ∧ c.toNat ≤ 0xFFFD) ∨
  (0x10000 ≤ c.toNat ∧ c.toNat ≤ 0x10FFFF)

/-- `{uri}name`, or a name without namespace -/
def expanded : Option Str → Str → Str
  | none, l => l
  | some u, l => '{' :: (u ++ '}' :: l)

section
variable [XmlLex]

/-- what may be declared (Namespaces in XML 1.0, section 3; that there is no brace in a name is python's demand) -/
structure Allowed (p u : Str) : Prop where
  chars : Chars u
  brace : '}' ∉ u
  xmlns : u ≠ xmlnsNs ∧ p ≠ lit! "xmlns"
  xml : p = lit! "xml" ↔ u = xmlNs
  pre : p ≠ [] → XmlLex.ncName p = true ∧ u ≠ []

/-- a name has this namespace and local name; the default namespace is for elements only -/
inductive Name (ds : List (Str × Str)) (element : Bool) : Str → Option Str → Str → Prop
  | plain {k : Str} : XmlLex.ncName k = true → (element = true → standsFor ds [] = none ∨ standsFor ds [] = some []) → Name ds element k none k
  | default {k u : Str} : XmlLex.ncName k = true → element = true → standsFor ds [] = some u → u ≠ [] → Name ds element k (some u) k
  | xml {l : Str} : XmlLex.ncName l = true → Name ds element (lit! "xml:" ++ l) (some xmlNs) l
  | pre {p l u : Str} : XmlLex.ncName p = true → XmlLex.ncName l = true → p ≠ lit! "xml" → standsFor ds p = some u → Name ds element (p ++ ':' :: l) (some u) l

/-- an attribute, and with its name resolved -/
def Attr (ds : List (Str × Str)) (a b : Str × Str) : Prop := ∃ ns l, Name ds false a.1 ns l ∧ b = (expanded ns l, a.2) ∧ Chars a.2

/-- the text of an element: none if it is empty; its lines end in newlines -/
def Text (t t' : Option Str) : Prop := (∀ s, t = some s → Chars s) ∧
  ((t' = none ∧ (t = none ∨ t = some [])) ∨ ∃ s s', t = some s ∧ s ≠ [] ∧ Lines s s' ∧ t' = some s')

/-- an element, and with all names resolved; `ds` is declared around it -/
inductive Resolved : List (Str × Str) → Elem → PElem → Prop
  | mk {ds : List (Str × Str)} {tag : Str} {attrs : Dict Str Str} {text tail text' : Option Str} {kids : List Elem} {kids' : List PElem} {ns : Option Str} {l : Str}
      {as : List (Str × Str)} : (∀ d ∈ declared attrs, Allowed d.1 d.2) → Name (ds ++ declared attrs) true tag ns l →
      Each (Attr (ds ++ declared attrs)) (attrs.filter fun a => prefixOf a.1 = none) as → (as.map (·.1)).Nodup → Text text text' → (∀ s, tail = some s → Chars s) →
      kids.length = kids'.length → (∀ (i : Nat) a b, kids[i]? = some a → kids'[i]? = some b → Resolved (ds ++ declared attrs) a b) →
      Resolved ds (.mk tag attrs text tail kids) (.mk (expanded ns l) as (some (dictOf (ds ++ declared attrs))) text' kids')

end

/-! ### Spec: what elements say -/

/-- a tag is a name in a namespace -/
def Tag (t : Str) : Option Str → Str → Prop
  | none, l => t = l ∧ t.head? ≠ some '{'
  | some u, l => t = '{' :: (u ++ '}' :: l) ∧ '}' ∉ u

/-- the value of an attribute -/
def value (as : List (Str × Str)) (k : Str) : Option Str := (as.find? fun a => a.1 = k).map (·.2)

/-- the names of elements -/
def tagOf : Cls → Str
  | .corpus => lit! "xigt-corpus"
  | .igt => lit! "igt"
  | .tier => lit! "tier"
  | .item => lit! "item"
  | .metadata => lit! "metadata"
  | .metaC => lit! "meta"
  | .metaChild => []

/-- children with a tag -/
def with_ (t : Str) (p : PElem) : List PElem := p.kids.filter fun k => k.tag = t

/-- where the metadata is -/
def mdOf : Cls → PElem → List PElem
  | .corpus, p | .igt, p | .tier, p => with_ (lit! "metadata") p
  | _, _ => []

/-- where the contents are -/
def kidsOf : Cls → PElem → List PElem
  | .corpus, p => with_ (lit! "igt") p
  | .igt, p => with_ (lit! "tier") p
  | .tier, p => with_ (lit! "item") p
  | .metadata, p => with_ (lit! "meta") p
  | .metaC, p | .metaChild, p => p.kids
  | .item, _ => []

/-- what the contents are -/
def kidCls : Cls → Cls
  | .corpus => .igt
  | .igt => .tier
  | .tier => .item
  | .item => .item
  | .metadata => .metaC
  | .metaC => .metaChild
  | .metaChild => .metaChild

section
variable [Uni]

/-- text that is more than white space -/
def Said (t t' : Option Str) : Prop :=
  (t' = none ∧ ∀ s, t = some s → ∀ c ∈ s, Uni.isSpace c = true) ∨ (t' = t ∧ ∃ s, t = some s ∧ ∃ c ∈ s, Uni.isSpace c = false)

/-- The data of an object says what the element says.  A corpus has no type, but it has an attribute of that name; a MetaChild has neither
type nor ID nor attributes of these names. -/
structure DataSays (c : Cls) (p : PElem) (d : Data) : Prop where
  cls : d.cls = c
  tag : ∃ l, Tag p.tag d.ns l ∧ if c = .metaChild then d.name = some l else l = tagOf c ∧ d.name = none
  nsmap : d.nsmap = p.nsmap ∧ p.nsmap ≠ none
  id : d.id = if c = .metaChild then none else value p.attrs (lit! "id")
  type : d.type = if c = .metaChild ∨ c = .corpus then none else value p.attrs (lit! "type")
  attrs : d.attrs = p.attrs.filter fun a => a.1 ≠ lit! "id" ∧ (c = .corpus ∨ a.1 ≠ lit! "type")
  text : if c = .item then d.text = p.text else if c = .metaC ∨ c = .metaChild then Said p.text d.text else d.text = none

/-- the object is what the element says -/
inductive Says : Cls → PElem → Obj → Prop
  | mk {c : Cls} {p : PElem} {d : Data} {md kids : List Obj} : DataSays c p d →
      (mdOf c p).length = md.length → (∀ (i : Nat) a b, (mdOf c p)[i]? = some a → md[i]? = some b → Says .metadata a b) →
      (kidsOf c p).length = kids.length → (∀ (i : Nat) a b, (kidsOf c p)[i]? = some a → kids[i]? = some b → Says (kidCls c) a b) →
      Says c p (.mk d md kids)

end

/-! ### Namespaces -/

theorem chars_iff (s : Str) : s.all isXmlChar = true ↔ Chars s := by
  rw [List.all_eq_true]
  constructor
  · intro h c hc; exact ((C113_lex c []).2.1).1 (h c hc)
  · intro h c hc; exact ((C113_lex c []).2.1).2 (h c hc)

theorem splitOnce_ok' {c : Char} : ∀ {s a b : Str}, splitOnce c s = some (a, b) → s = a ++ c :: b ∧ c ∉ a
  | [], _, _, h => by cases h
  | x :: s, a, b, h => by
    unfold splitOnce at h
    split at h
    · next e => cases h; exact ⟨by rw [e]; rfl, by simp⟩
    · next e =>
      cases hs : splitOnce c s with
      | none => rw [hs] at h; cases h
      | some q =>
        rw [hs] at h
        cases h
        obtain ⟨h1, h2⟩ := splitOnce_ok' (a := q.1) (b := q.2) hs
        exact ⟨by rw [List.cons_append, ← h1], by
          rw [List.mem_cons, not_or]
          exact ⟨fun e' => e e'.symm, h2⟩⟩

theorem declOf_eq (k : Str) : declOf k = prefixOf k := by
  unfold declOf prefixOf
  split
  · rfl
  · cases hs : splitOnce ':' k with
    | none =>
      rw [if_neg]
      rintro ⟨h1, h2⟩
      have : k = lit! "xmlns" ++ ':' :: k.drop 6 := by
        conv => lhs; rw [← List.take_append_drop 6 k, h1]
        rfl
      rw [this, splitOnce_some _ _ (by decide)] at hs
      cases hs
    | some q =>
      obtain ⟨p, q⟩ := q
      have hk := (splitOnce_ok' hs).1
      dsimp only
      by_cases hp : p = lit! "xmlns" ∧ q ≠ []
      · obtain ⟨rfl, hq⟩ := hp
        rw [if_pos ⟨rfl, hq⟩, if_pos]
        · rw [hk]; rfl
        · rw [hk]
          refine ⟨rfl, ?_⟩
          have := List.length_pos_iff.2 hq
          simp only [List.length_append, List.length_cons, List.length_nil]
          omega
      · rw [if_neg hp, if_neg]
        rintro ⟨h1, h2⟩
        have : k = lit! "xmlns" ++ ':' :: k.drop 6 := by
          conv => lhs; rw [← List.take_append_drop 6 k, h1]
          rfl
        rw [this, splitOnce_some _ _ (by decide)] at hs
        cases hs
        refine hp ⟨rfl, fun e => ?_⟩
        have := congrArg List.length e
        simp only [List.length_drop, List.length_nil] at this
        omega

theorem declsOf_eq (attrs : Dict Str Str) : declsOf attrs = declared attrs := by
  unfold declsOf declared
  simp only [declOf_eq]

theorem update_dictOf (b : List (Str × Str)) : ∀ a : List (Str × Str), Dict.update (dictOf a) b = dictOf (a ++ b) := by
  induction b with
  | nil => intro a; simp [Dict.update]
  | cons p b ih =>
    intro a
    have := ih (a ++ [p])
    rw [List.append_assoc, List.singleton_append] at this
    rw [← this]
    show Dict.update (Dict.set (dictOf a) p.1 p.2) b = _
    rw [← Js.dictOf_snoc]

theorem get?_dictOf' (p : Str) : ∀ r : List (Str × Str), Dict.get? (dictOf r.reverse) p = (r.find? fun d => d.1 = p).map (·.2)
  | [] => rfl
  | d :: r => by
    rw [List.reverse_cons, show d = (d.1, d.2) from rfl, Js.dictOf_snoc, (py_dict_set _ _ _).1, get?_dictOf' p r, List.find?_cons]
    by_cases h : p = d.1
    · simp [h]
    · have h' : ¬ d.1 = p := fun e => h e.symm
      simp [h, h']

theorem get?_dictOf (ds : List (Str × Str)) (p : Str) : Dict.get? (dictOf ds) p = standsFor ds p := by
  have := get?_dictOf' p ds.reverse
  rwa [List.reverse_reverse] at this

theorem dictOf_wf (ds : List (Str × Str)) : Dict.WF (dictOf ds) := by
  have h : ∀ {ks : List Str} {f : Str → Option (Str × Str)}, ks.Nodup → (∀ k q, f k = some q → q.1 = k) → ((ks.filterMap f).map (·.1)).Nodup := by
    intro ks f hn hf
    induction ks with
    | nil => exact List.nodup_nil
    | cons k ks ih =>
      rw [List.nodup_cons] at hn
      rw [List.filterMap_cons]
      cases hk : f k with
      | none => exact ih hn.2
      | some q =>
        simp only [List.map_cons, List.nodup_cons]
        refine ⟨fun hm => ?_, ih hn.2⟩
        obtain ⟨q', hq', e⟩ := List.mem_map.1 hm
        obtain ⟨k', hk', e'⟩ := List.mem_filterMap.1 hq'
        rw [hf k q hk, hf k' q' e'] at e
        exact hn.1 (e ▸ hk')
  refine h (Js.keysOf_nodup ds) fun k q hq => ?_
  have := List.find?_some hq
  simpa using this

section
variable [XmlLex]

theorem declOK_iff (p u : Str) : declOK p u = true ↔ Allowed p u := by
  unfold declOK
  simp only [Bool.and_eq_true, Bool.not_eq_true', decide_eq_true_eq, chars_iff]
  rw [show (u.contains '}' = false) ↔ '}' ∉ u by simp]
  by_cases hp : p = []
  · subst hp
    rw [if_pos rfl]
    constructor
    · rintro ⟨⟨⟨h1, h2⟩, h3⟩, h4⟩
      have h4 : u ≠ xmlNs := by simpa using h4
      exact ⟨h1, h2, ⟨h3, by decide⟩, ⟨fun h => (by cases h), fun h => absurd h h4⟩, fun h => absurd rfl h⟩
    · rintro ⟨h1, h2, h3, h4, h5⟩
      have h6 : u ≠ xmlNs := fun h => by cases h4.2 h
      exact ⟨⟨⟨h1, h2⟩, h3.1⟩, by simpa using h6⟩
  · rw [if_neg hp]
    simp only [Bool.and_eq_true, decide_eq_true_eq, beq_iff_eq]
    constructor
    · rintro ⟨⟨⟨h1, h2⟩, h3⟩, ⟨⟨h4, h5⟩, h6⟩, h7⟩
      exact ⟨h1, h2, ⟨h3, h5⟩, by simpa using h7, fun _ => ⟨h4, h6⟩⟩
    · rintro ⟨h1, h2, h3, h4, h5⟩
      exact ⟨⟨⟨h1, h2⟩, h3.1⟩, ⟨⟨(h5 hp).1, h3.2⟩, (h5 hp).2⟩, by simpa using h4⟩

theorem xml_name : XmlLex.ncName (lit! "xml") = true := XmlLex.names _ (by simp)

/-- names of elements and of attributes -/
theorem resolveName_iff (ds : List (Str × Str)) (element : Bool) (k q : Str) :
    resolveName (dictOf ds) (if element then Dict.get? (dictOf ds) [] else none) k = .ok q ↔ ∃ ns l, Name ds element k ns l ∧ q = expanded ns l := by
  rw [get?_dictOf]
  constructor
  · intro h
    unfold resolveName at h
    split at h
    · split at h
      · next hk =>
        cases element with
        | false =>
          cases h
          exact ⟨none, _, .plain hk (fun e => by cases e), rfl⟩
        | true =>
          rw [if_pos rfl] at h
          split at h
          · next hd => cases h; exact ⟨none, _, .plain hk fun _ => .inl hd, rfl⟩
          · next u hd =>
            split at h
            · next hu => cases h; exact ⟨none, _, .plain hk fun _ => .inr (by rw [hd, hu]), rfl⟩
            · next hu => cases h; exact ⟨some u, _, .default hk rfl hd hu, rfl⟩
      · cases h
    · next p l hs =>
      obtain ⟨rfl, hp⟩ := splitOnce_ok' hs
      split at h
      · next hn =>
        rw [Bool.and_eq_true] at hn
        split at h
        · next hx => cases h; subst hx; exact ⟨_, l, .xml hn.2, rfl⟩
        · next hx =>
          rw [get?_dictOf] at h
          split at h
          · next u hu => cases h; exact ⟨some u, l, .pre hn.1 hn.2 hx hu, rfl⟩
          · cases h
      · cases h
  · rintro ⟨ns, l, h, rfl⟩
    cases h with
    | plain hk hd =>
      unfold resolveName
      rw [splitOnce_none (XmlLex.no_colon _ hk)]
      dsimp only
      rw [if_pos hk]
      cases element with
      | false => rfl
      | true =>
        rcases hd rfl with h | h <;> rw [h] <;> rfl
    | default hk he hd hu =>
      subst he
      unfold resolveName
      rw [splitOnce_none (XmlLex.no_colon _ hk)]
      dsimp only
      rw [if_pos hk, if_pos rfl, hd]
      dsimp only
      rw [if_neg hu]
      rfl
    | xml hl =>
      unfold resolveName
      rw [show (lit! "xml:" ++ l : Str) = lit! "xml" ++ ':' :: l from rfl, splitOnce_some _ _ (by decide)]
      dsimp only
      rw [if_pos (by rw [xml_name, hl]; rfl), if_pos rfl]
      rfl
    | @pre p l u hp hl hx hu =>
      unfold resolveName
      rw [splitOnce_some _ _ (XmlLex.no_colon _ hp)]
      dsimp only
      rw [if_pos (by rw [hp, hl]; rfl), if_neg hx, get?_dictOf, hu]
      rfl

theorem parseAttr_iff (ds : List (Str × Str)) (a b : Str × Str) : parseAttr (dictOf ds) a = .ok b ↔ Attr ds a b := by
  have hr := resolveName_iff ds false a.1
  rw [if_neg (by simp)] at hr
  unfold parseAttr Attr
  simp only [bind_ok_iff, hr]
  constructor
  · rintro ⟨q, ⟨ns, l, h1, rfl⟩, h2⟩
    split at h2
    · next hc => cases h2; exact ⟨ns, l, h1, rfl, (chars_iff _).1 hc⟩
    · cases h2
  · rintro ⟨ns, l, h1, rfl, h2⟩
    exact ⟨_, ⟨ns, l, h1, rfl⟩, if_pos ((chars_iff _).2 h2)⟩

theorem parseText_iff (t t' : Option Str) : parseText t = .ok t' ↔ Text t t' := by
  unfold Text
  cases t with
  | none =>
    rw [parseText]
    constructor
    · intro h; cases h; exact ⟨fun s h => (by cases h), .inl ⟨rfl, .inl rfl⟩⟩
    · rintro ⟨-, ⟨rfl, -⟩ | ⟨s, s', h, -⟩⟩
      · rfl
      · cases h
  | some s =>
    rw [parseText]
    constructor
    · intro h
      split at h
      · next hc =>
        refine ⟨fun s' e => by cases e; exact (chars_iff _).1 hc, ?_⟩
        cases h
        by_cases hs : s = []
        · subst hs; exact .inl ⟨rfl, .inr rfl⟩
        · rw [if_neg (by simpa using hs)]
          exact .inr ⟨s, _, rfl, hs, (C113_lines s _).1.1 rfl, rfl⟩
      · cases h
    · rintro ⟨hc, h⟩
      rw [if_pos ((chars_iff s).2 (hc s rfl))]
      rcases h with ⟨rfl, h | h⟩ | ⟨s1, s', e, hs, hl, rfl⟩
      · cases h
      · cases h; rfl
      · cases e
        rw [if_neg (by simpa using hs), (C113_lines s s').1.2 hl]

theorem elems_eq (scope : Dict Str Str) : ∀ l : List Elem, parseElems scope l = mapPy (parseElem scope) l
  | [] => by rw [parseElems, mapPy]
  | x :: xs => by rw [parseElems, mapPy, elems_eq scope xs]

theorem parse_iff : ∀ (e : Elem) (ds : List (Str × Str)) (p : PElem), parseElem (dictOf ds) e = .ok p ↔ Resolved ds e p := by
  refine Elem.ind fun tag attrs text tail kids ih ds p => ?_
  have hr := fun q => resolveName_iff (ds ++ declared attrs) true tag q
  simp only [if_true] at hr
  have hd : ((declared attrs).all fun p => declOK p.1 p.2) = true ↔ ∀ d ∈ declared attrs, Allowed d.1 d.2 := by
    rw [List.all_eq_true]
    exact ⟨fun h d hd => (declOK_iff _ _).1 (h d hd), fun h d hd => (declOK_iff _ _).2 (h d hd)⟩
  have hf : (attrs.filter fun p => (declOf p.1).isNone) = attrs.filter fun a => prefixOf a.1 = none := by
    congr 1
    funext a
    rw [declOf_eq]
    cases prefixOf a.1 <;> simp
  have hk : ∀ ps, parseElems (dictOf (ds ++ declared attrs)) kids = .ok ps ↔ Each (Resolved (ds ++ declared attrs)) kids ps := by
    intro ps
    rw [elems_eq, mapPy_each]
    constructor
    · rintro ⟨h1, h2⟩
      exact ⟨h1, fun i a b ha hb => (ih a (List.mem_of_getElem? ha) _ b).1 (h2 i a b ha hb)⟩
    · rintro ⟨h1, h2⟩
      exact ⟨h1, fun i a b ha hb => (ih a (List.mem_of_getElem? ha) _ b).2 (h2 i a b ha hb)⟩
  have ha : ∀ as, mapPy (parseAttr (dictOf (ds ++ declared attrs))) (attrs.filter fun p => (declOf p.1).isNone) = .ok as ↔
      Each (Attr (ds ++ declared attrs)) (attrs.filter fun a => prefixOf a.1 = none) as := by
    intro as
    rw [hf, mapPy_each]
    constructor <;> rintro ⟨h1, h2⟩ <;> refine ⟨h1, fun i a b ha hb => ?_⟩
    · exact (parseAttr_iff _ _ _).1 (h2 i a b ha hb)
    · exact (parseAttr_iff _ _ _).2 (h2 i a b ha hb)
  rw [parseElem, declsOf_eq, update_dictOf]
  constructor
  · intro h
    split at h
    · next h0 =>
      simp only [bind_ok_iff] at h
      obtain ⟨q, h1, as, h2, h⟩ := h
      split at h
      · next hn =>
        simp only [bind_ok_iff] at h
        obtain ⟨t, h3, t', h4, ks, h5, h6⟩ := h
        cases h6
        obtain ⟨ns, l, h1', rfl⟩ := (hr q).1 h1
        exact .mk (hd.1 h0) h1' ((ha as).1 h2) hn ((parseText_iff _ _).1 h3) ((parseText_iff _ _).1 h4).1 ((hk ks).1 h5).1 ((hk ks).1 h5).2
      · cases h
    · cases h
  · intro h
    cases h with
    | @mk _ _ _ _ _ text' _ kids' ns l as h0 h1 h2 hn h3 h4 h5 h6 =>
      obtain ⟨t', ht⟩ : ∃ t', parseText tail = .ok t' := by
        cases tail with
        | none => exact ⟨_, rfl⟩
        | some s => rw [parseText, if_pos ((chars_iff s).2 (h4 s rfl))]; exact ⟨_, rfl⟩
      rw [if_pos (hd.2 h0)]
      simp only [bind_ok_iff]
      refine ⟨_, (hr _).2 ⟨ns, l, h1, rfl⟩, as, (ha as).2 h2, ?_⟩
      rw [if_pos hn]
      simp only [bind_ok_iff]
      exact ⟨_, (parseText_iff _ _).2 h3, t', ht, kids', (hk _).2 ⟨h5, h6⟩, rfl⟩

theorem resolved_wf : ∀ (p : PElem) {ds : List (Str × Str)} {e : Elem}, Resolved ds e p → Every (fun q => ∃ m, q.nsmap = some m ∧ m.WF) p := by
  refine PElem.ind fun tag attrs ns text kids ih ds e h => ?_
  cases h with
  | mk h0 h1 h2 hn h3 h4 h5 h6 =>
    refine .mk ⟨_, rfl, dictOf_wf _⟩ fun k hk => ?_
    obtain ⟨i, hi, rfl⟩ := List.mem_iff_getElem.1 hk
    exact ih _ hk (h6 i _ _ (List.getElem?_eq_getElem (h5 ▸ hi)) (List.getElem?_eq_getElem hi))

end

/-! ### Elements -/

theorem qnameSplit_iff (t : Str) (ns : Option Str) (l : Str) : qnameSplit t = .ok (ns, l) ↔ Tag t ns l := by
  constructor
  · intro h
    unfold qnameSplit at h
    split at h
    · next r =>
      split at h
      · next u t' hs =>
        cases h
        obtain ⟨rfl, hu⟩ := splitOnce_ok' hs
        exact ⟨rfl, hu⟩
      · cases h
    · next hh =>
      cases h
      refine ⟨rfl, fun e => ?_⟩
      cases t with
      | nil => cases e
      | cons c r => cases e; exact hh r rfl
  · intro h
    cases ns with
    | none =>
      obtain ⟨rfl, h⟩ := h
      unfold qnameSplit
      split
      · exact absurd rfl h
      · rfl
    | some u =>
      obtain ⟨rfl, h⟩ := h
      show (match splitOnce '}' (u ++ '}' :: l) with
        | some (u, t) => Except.ok (some u, t)
        | none => Except.error PyErr.valueError) = _
      rw [splitOnce_some _ _ h]

theorem get?_value (as : List (Str × Str)) (k : Str) : Dict.get? as k = value as k := by
  unfold value
  induction as with
  | nil => rfl
  | cons p d ih =>
    rw [Dict.get?, List.find?_cons]
    by_cases h : p.1 = k
    · simp [h]
    · simp [h, ih]

section
variable [Uni]

theorem nonBlank_iff (t t' : Option Str) : nonBlank t = t' ↔ Said t t' := by
  unfold nonBlank Said
  by_cases hb : blank t = true
  · rw [if_pos hb]
    rw [blank_iff] at hb
    constructor
    · rintro rfl
      exact .inl ⟨rfl, fun s hs => by subst hs; exact hb⟩
    · rintro (⟨rfl, -⟩ | ⟨-, s, rfl, c, hc, hs⟩)
      · rfl
      · have := hb c hc
        rw [hs] at this
        cases this
  · rw [if_neg hb]
    rw [blank_iff] at hb
    cases t with
    | none => exact absurd (fun c hc => by cases hc) hb
    | some s =>
      obtain ⟨c, hc, hs⟩ : ∃ c ∈ s, Uni.isSpace c = false := by
        apply Classical.byContradiction
        intro h
        apply hb
        intro c hc
        cases hs : Uni.isSpace c with
        | true => rfl
        | false => exact absurd ⟨c, hc, hs⟩ h
      constructor
      · rintro rfl
        exact .inr ⟨rfl, s, rfl, c, hc, hs⟩
      · rintro (⟨-, h⟩ | ⟨rfl, -⟩)
        · rw [h s rfl c hc] at hs
          cases hs
        · rfl

/-- a decoder of elements of a class does what it should -/
def Right (c : Cls) (f : PElem → Py Obj) (p : PElem) : Prop := ∀ y, f p = .ok y ↔ Says c p y ∧ y.Valid

theorem each_valid {f : PElem → Py Obj} {c : Cls} {l : List PElem} (h : ∀ p ∈ l, Right c f p) {ys : List Obj} :
    mapPy f l = .ok ys ↔ l.length = ys.length ∧ (∀ (i : Nat) a b, l[i]? = some a → ys[i]? = some b → Says c a b) ∧ ∀ y ∈ ys, y.Valid := by
  rw [mapPy_each, Each]
  constructor
  · rintro ⟨h1, h2⟩
    refine ⟨h1, fun i a b ha hb => ((h a (List.mem_of_getElem? ha) b).1 (h2 i a b ha hb)).1, fun y hy => ?_⟩
    obtain ⟨i, hi, rfl⟩ := List.mem_iff_getElem.1 hy
    have hi' : i < l.length := h1 ▸ hi
    exact ((h l[i] (List.getElem_mem hi') ys[i]).1 (h2 i _ _ (List.getElem?_eq_getElem hi') (List.getElem?_eq_getElem hi))).2
  · rintro ⟨h1, h2, h3⟩
    exact ⟨h1, fun i a b ha hb => (h a (List.mem_of_getElem? ha) b).2 ⟨h2 i a b ha hb, h3 b (List.mem_of_getElem? hb)⟩⟩

theorem node_iff {c : Cls} {p : PElem} (hw : ∃ m, p.nsmap = some m ∧ m.WF) {fm fk : PElem → Py Obj} (hm : ∀ k ∈ mdOf c p, Right .metadata fm k)
    (hk : ∀ k ∈ kidsOf c p, Right (kidCls c) fk k) (x : Obj) :
    (∃ d, DataSays c p d ∧ ∃ md, mapPy fm (mdOf c p) = .ok md ∧ ∃ kids, mapPy fk (kidsOf c p) = .ok kids ∧ construct d md kids = .ok x) ↔ Says c p x ∧ x.Valid := by
  constructor
  · rintro ⟨d, h1, md, h2, kids, h3, h4⟩
    obtain ⟨rfl, o1, o2, o3, o4⟩ := construct_iff.1 h4
    obtain ⟨a1, a2, a3⟩ := (each_valid hm).1 h2
    obtain ⟨b1, b2, b3⟩ := (each_valid hk).1 h3
    refine ⟨.mk h1 a1 a2 b1 b2, .mk o1 o2 o3 o4 (fun m hn => ?_) a3 b3⟩
    obtain ⟨m', hm', hwf⟩ := hw
    rw [h1.nsmap.1, hm'] at hn
    cases hn
    exact hwf
  · rintro ⟨h, hv⟩
    cases h with
    | @mk _ _ d md kids h1 a1 a2 b1 b2 =>
      cases hv with
      | mk o1 o2 o3 o4 o5 a3 b3 =>
        exact ⟨d, h1, md, (each_valid hm).2 ⟨a1, a2, a3⟩, kids, (each_valid hk).2 ⟨b1, b2, b3⟩, construct_iff.2 ⟨rfl, o1, o2, o3, o4⟩⟩

/-- the data that all decoders make -/
theorem xmlData_iff {c : Cls} {ign : List Str} {exp : Option Str} {p : PElem} {d : Data} : xmlData c ign exp p = .ok d ↔
    ∃ ns l, Tag p.tag ns l ∧ (∀ t, exp = some t → l = t) ∧ p.nsmap ≠ none ∧
      d = { cls := c, id := value p.attrs (lit! "id"), type := value p.attrs (lit! "type"), attrs := getAttrs ign p, ns := ns, nsmap := p.nsmap,
            name := if exp.isNone then some l else none } := by
  unfold xmlData
  simp only [bind_ok_iff, get?_value]
  constructor
  · rintro ⟨⟨ns, l⟩, h1, h⟩
    dsimp only at h
    split at h
    · next he =>
      split at h
      · cases h
      · next hn =>
        cases h
        refine ⟨ns, l, (qnameSplit_iff _ _ _).1 h1, fun t ht => ?_, fun e => ?_, rfl⟩
        · subst ht
          simpa [eq_comm] using he
        · rw [e] at hn
          exact hn rfl
    · cases h
  · rintro ⟨ns, l, h1, h2, h3, rfl⟩
    refine ⟨(ns, l), (qnameSplit_iff _ _ _).2 h1, ?_⟩
    dsimp only
    rw [if_pos, if_neg]
    · intro e
      rw [Option.isNone_iff_eq_none] at e
      exact h3 e
    · cases exp with
      | none => rfl
      | some t => simp [h2 t rfl]

theorem getAttrs_two (p : PElem) : getAttrs IDTYPE p = p.attrs.filter fun a => a.1 ≠ lit! "id" ∧ a.1 ≠ lit! "type" := by
  unfold getAttrs IDTYPE
  congr 1
  funext a
  by_cases h1 : a.1 = lit! "id" <;> by_cases h2 : a.1 = lit! "type" <;> simp [h1, h2]

theorem getAttrs_one (p : PElem) : getAttrs [lit! "id"] p = p.attrs.filter fun a => a.1 ≠ lit! "id" := by
  unfold getAttrs
  congr 1
  funext a
  by_cases h1 : a.1 = lit! "id" <;> simp [h1]

theorem dataSays_iff {c : Cls} {p : PElem} {d : Data} : DataSays c p d ↔
    ∃ ns l, Tag p.tag ns l ∧ (c ≠ .metaChild → l = tagOf c) ∧ p.nsmap ≠ none ∧
      d = { cls := c, id := if c = .metaChild then none else value p.attrs (lit! "id"),
            type := if c = .metaChild ∨ c = .corpus then none else value p.attrs (lit! "type"),
            attrs := p.attrs.filter fun a => a.1 ≠ lit! "id" ∧ (c = .corpus ∨ a.1 ≠ lit! "type"), ns := ns, nsmap := p.nsmap,
            text := if c = .item then p.text else if c = .metaC ∨ c = .metaChild then nonBlank p.text else none,
            name := if c = .metaChild then some l else none } := by
  constructor
  · rintro ⟨h1, ⟨l, h2, h2'⟩, h3, h4, h5, h6, h7⟩
    refine ⟨d.ns, l, h2, fun hc => ?_, h3.2, ?_⟩
    · rw [if_neg hc] at h2'
      exact h2'.1
    · have hn : d.name = if c = .metaChild then some l else none := by
        split at h2'
        · next hc => rw [if_pos hc]; exact h2'
        · next hc => rw [if_neg hc]; exact h2'.2
      have ht : d.text = if c = .item then p.text else if c = .metaC ∨ c = .metaChild then nonBlank p.text else none := by
        split at h7
        · next hc => rw [if_pos hc]; exact h7
        · next hc =>
          rw [if_neg hc]
          split at h7
          · next hc' => rw [if_pos hc']; exact ((nonBlank_iff _ _).2 h7).symm
          · next hc' => rw [if_neg hc']; exact h7
      have hs := h3.1
      cases d
      dsimp only at *
      subst h1
      rw [h4, h5, h6, hs, hn, ht]
  · rintro ⟨ns, l, h1, h2, h3, rfl⟩
    refine ⟨rfl, ⟨l, h1, ?_⟩, ⟨rfl, h3⟩, rfl, rfl, rfl, ?_⟩
    · dsimp only
      split
      · rfl
      · next hc => exact ⟨h2 hc, rfl⟩
    · dsimp only
      split
      · rfl
      · split
        · exact (nonBlank_iff _ _).1 rfl
        · rfl

/-- the same as the decoders have it -/
theorem data_eq {c : Cls} {ign : List Str} {exp : Option Str} {p : PElem} (f : Data → Data)
    (he : (c = .metaChild ∧ exp = none) ∨ (c ≠ .metaChild ∧ exp = some (tagOf c)))
    (hf : ∀ ns l, f ⟨c, value p.attrs (lit! "id"), value p.attrs (lit! "type"), getAttrs ign p, ns, p.nsmap, none, if exp.isNone then some l else none⟩ =
      ⟨c, if c = .metaChild then none else value p.attrs (lit! "id"), if c = .metaChild ∨ c = .corpus then none else value p.attrs (lit! "type"),
        p.attrs.filter fun a => a.1 ≠ lit! "id" ∧ (c = .corpus ∨ a.1 ≠ lit! "type"), ns, p.nsmap,
        if c = .item then p.text else if c = .metaC ∨ c = .metaChild then nonBlank p.text else none, if c = .metaChild then some l else none⟩) {d : Data} :
    DataSays c p d ↔ ∃ d0, xmlData c ign exp p = .ok d0 ∧ d = f d0 := by
  simp only [dataSays_iff, xmlData_iff]
  constructor
  · rintro ⟨ns, l, h1, h2, h3, rfl⟩
    refine ⟨_, ⟨ns, l, h1, fun t ht => ?_, h3, rfl⟩, (hf ns l).symm⟩
    rcases he with ⟨-, e⟩ | ⟨hc, e⟩
    · rw [e] at ht; cases ht
    · rw [e] at ht; cases ht; exact h2 hc
  · rintro ⟨d0, ⟨ns, l, h1, h2, h3, rfl⟩, rfl⟩
    refine ⟨ns, l, h1, fun hc => ?_, h3, hf ns l⟩
    rcases he with ⟨hc', -⟩ | ⟨-, e⟩
    · exact absurd hc' hc
    · exact h2 _ e

/-- namespaces as python has them -/
def W (q : PElem) : Prop := ∃ m, q.nsmap = some m ∧ m.WF

/-- nothing is read -/
def noRead : PElem → Py Obj := fun _ => .error .valueError

theorem no_right {c : Cls} {l : List PElem} (h : l = []) : ∀ k ∈ l, Right c noRead k := by
  subst h
  intro k hk
  cases hk

theorem node_with {c : Cls} {p : PElem} (hw : W p) {fm fk : PElem → Py Obj} (hm : ∀ k ∈ mdOf c p, Right .metadata fm k)
    (hk : ∀ k ∈ kidsOf c p, Right (kidCls c) fk k) {ign : List Str} {exp : Option Str} {f : Data → Data}
    (hd : ∀ {d : Data}, DataSays c p d ↔ ∃ d0, xmlData c ign exp p = .ok d0 ∧ d = f d0) {r : Py Obj}
    (hr : r = do let d ← xmlData c ign exp p; let md ← mapPy fm (mdOf c p); let ks ← mapPy fk (kidsOf c p); construct (f d) md ks) (x : Obj) :
    r = .ok x ↔ Says c p x ∧ x.Valid := by
  rw [← node_iff hw hm hk, hr]
  simp only [bind_ok_iff]
  constructor
  · rintro ⟨d0, h1, md, h2, kids, h3, h4⟩
    exact ⟨f d0, hd.2 ⟨d0, h1, rfl⟩, md, h2, kids, h3, h4⟩
  · rintro ⟨d, h1, md, h2, kids, h3, h4⟩
    obtain ⟨d0, h0, rfl⟩ := hd.1 h1
    exact ⟨d0, h0, md, h2, kids, h3, h4⟩

theorem mcs_eq : ∀ l : List PElem, readMcs l = mapPy readMc l
  | [] => by rw [readMcs, mapPy]
  | x :: xs => by rw [readMcs, mapPy, mcs_eq xs]

theorem right_mc : ∀ p : PElem, Every W p → Right .metaChild readMc p := by
  refine PElem.ind fun tag attrs ns text kids ih hw => ?_
  intro y
  refine node_with (c := .metaChild) hw.here (fm := noRead) (no_right rfl) (fk := readMc) (fun k hk => ih k hk (hw.kids k hk))
    (data_eq (c := .metaChild) (ign := IDTYPE) (exp := none) (fun d => { d with id := none, type := none, text := nonBlank text }) (.inl ⟨rfl, rfl⟩) fun ns l => ?_) ?_ y
  · rw [getAttrs_two]
    simp
    rfl
  · rw [readMc, mcs_eq]
    rfl

theorem right_meta {p : PElem} (hw : Every W p) : Right .metaC readMeta p := by
  intro y
  refine node_with (c := .metaC) hw.here (fm := noRead) (no_right rfl) (fk := readMc) (fun k hk => right_mc k (hw.kids k hk))
    (data_eq (c := .metaC) (ign := IDTYPE) (exp := some (lit! "meta")) (fun d => { d with text := nonBlank p.text }) (.inr ⟨by simp, rfl⟩) fun ns l => ?_) ?_ y
  · rw [getAttrs_two]
    simp
  · rw [readMeta, mcs_eq]
    rfl

theorem with_sub {t : Str} {p k : PElem} (h : k ∈ with_ t p) : k ∈ p.kids := (List.mem_filter.1 h).1

theorem right_md {p : PElem} (hw : Every W p) : Right .metadata readMd p := by
  intro y
  refine node_with (c := .metadata) hw.here (fm := noRead) (no_right rfl) (fk := readMeta) (fun k hk => right_meta (hw.kids k (with_sub hk)))
    (data_eq (c := .metadata) (ign := IDTYPE) (exp := some (lit! "metadata")) (fun d => d) (.inr ⟨by simp, rfl⟩) fun ns l => ?_) ?_ y
  · rw [getAttrs_two]
    simp
  · rw [readMd]
    rfl

theorem right_item {p : PElem} (hw : Every W p) : Right .item readItem p := by
  intro y
  refine node_with (c := .item) hw.here (fm := noRead) (no_right rfl) (fk := noRead) (no_right rfl)
    (data_eq (c := .item) (ign := IDTYPE) (exp := some (lit! "item")) (fun d => { d with text := p.text }) (.inr ⟨by simp, rfl⟩) fun ns l => ?_) ?_ y
  · rw [getAttrs_two]
    simp
  · rw [readItem]
    rfl

theorem right_tier {p : PElem} (hw : Every W p) : Right .tier readTier p := by
  intro y
  refine node_with (c := .tier) hw.here (fm := readMd) (fun k hk => right_md (hw.kids k (with_sub hk))) (fk := readItem) (fun k hk => right_item (hw.kids k (with_sub hk)))
    (data_eq (c := .tier) (ign := IDTYPE) (exp := some (lit! "tier")) (fun d => d) (.inr ⟨by simp, rfl⟩) fun ns l => ?_) ?_ y
  · rw [getAttrs_two]
    simp
  · rw [readTier]
    rfl

theorem right_igt {p : PElem} (hw : Every W p) : Right .igt readIgt p := by
  intro y
  refine node_with (c := .igt) hw.here (fm := readMd) (fun k hk => right_md (hw.kids k (with_sub hk))) (fk := readTier) (fun k hk => right_tier (hw.kids k (with_sub hk)))
    (data_eq (c := .igt) (ign := IDTYPE) (exp := some (lit! "igt")) (fun d => d) (.inr ⟨by simp, rfl⟩) fun ns l => ?_) ?_ y
  · rw [getAttrs_two]
    simp
  · rw [readIgt]
    rfl

theorem right_corpus {p : PElem} (hw : Every W p) : Right .corpus readCorpus p := by
  intro y
  refine node_with (c := .corpus) hw.here (fm := readMd) (fun k hk => right_md (hw.kids k (with_sub hk))) (fk := readIgt) (fun k hk => right_igt (hw.kids k (with_sub hk)))
    (data_eq (c := .corpus) (ign := [lit! "id"]) (exp := some (lit! "xigt-corpus")) (fun d => { d with type := none }) (.inr ⟨by simp, rfl⟩) fun ns l => ?_) ?_ y
  · rw [getAttrs_one]
    simp
  · rw [readCorpus]
    rfl

/-! ### C159 -/

variable [XmlLex]

/-- **C159**: the texts that are read, and the elements that are read from them: the text is in the grammar (C113), and all names are
resolved by the declarations around them -/
theorem C159_names (s : Str) (p : PElem) : readText s = .ok p ↔ ∃ d : Doc, d.OK ∧ eol (dropBom s) = d.show ∧ Resolved [] d.root.elem' p := by
  unfold readText
  rw [bind_ok_iff]
  constructor
  · rintro ⟨e, h1, h2⟩
    obtain ⟨d, h3, h4, rfl⟩ := (C113_exact s e).1 h1
    exact ⟨d, h3, h4, (parse_iff _ [] p).1 h2⟩
  · rintro ⟨d, h3, h4, h5⟩
    exact ⟨_, (C113_exact s _).2 ⟨d, h3, h4, rfl⟩, (parse_iff _ [] p).2 h5⟩

/-- **C159**: each decoder reads an element exactly as it says -/
theorem C159_each {ds : List (Str × Str)} {e : Elem} {p : PElem} (h : Resolved ds e p) (x : Obj) :
    (readCorpus p = .ok x ↔ Says .corpus p x ∧ x.Valid) ∧ (readIgt p = .ok x ↔ Says .igt p x ∧ x.Valid) ∧ (readTier p = .ok x ↔ Says .tier p x ∧ x.Valid) ∧
    (readItem p = .ok x ↔ Says .item p x ∧ x.Valid) ∧ (readMd p = .ok x ↔ Says .metadata p x ∧ x.Valid) ∧ (readMeta p = .ok x ↔ Says .metaC p x ∧ x.Valid) ∧
    (readMc p = .ok x ↔ Says .metaChild p x ∧ x.Valid) := by
  have hw := resolved_wf p h
  exact ⟨right_corpus hw x, right_igt hw x, right_tier hw x, right_item hw x, right_md hw x, right_meta hw x, right_mc p hw x⟩

/-- **C159** for texts in which metadata of the corpus comes before its IGTs and no other elements have the names of these two.
Missing: other texts (`C159_refuted`). -/
theorem C159_partial (s : Str) {p : PElem} (hs : readText s = .ok p) (hl : Layout p) (look : Nat → Nat) (x : Obj) :
    loadsXml look s = .ok x ↔ Says .corpus p x ∧ x.Valid := by
  obtain ⟨d, -, -, hr⟩ := (C159_names s p).1 hs
  rw [← (C159_each hr x).1, loadsXml, hs]
  exact (C42_partial p hl).2.1 look x

/-- **C159**: all other texts are rejected -/
theorem C159_never (s : Str) (h : ∀ d : Doc, ∀ p, d.OK → eol (dropBom s) = d.show → ¬ Resolved [] d.root.elem' p) (look : Nat → Nat) (x : Obj) :
    loadsXml look s ≠ .ok x := by
  intro e
  unfold loadsXml at e
  rw [bind_ok_iff] at e
  obtain ⟨p, hp, -⟩ := e
  obtain ⟨d, h1, h2, h3⟩ := (C159_names s p).1 hp
  exact h d p h1 h2 h3

theorem upto_one {u l u' l' : Str} (h : u ++ '}' :: l = u' ++ '}' :: l') (hu : '}' ∉ u) (hu' : '}' ∉ u') : u = u' ∧ l = l' := by
  induction u generalizing u' with
  | nil =>
    cases u' with
    | nil => exact ⟨rfl, by simpa using h⟩
    | cons c u' => simp only [List.nil_append, List.cons_append, List.cons.injEq] at h; exact absurd (by rw [← h.1]; simp) hu'
  | cons c u ih =>
    cases u' with
    | nil => simp only [List.nil_append, List.cons_append, List.cons.injEq] at h; exact absurd (by rw [h.1]; simp) hu
    | cons c' u' =>
      simp only [List.cons_append, List.cons.injEq] at h
      obtain ⟨h1, h2⟩ := ih h.2 (fun m => hu (List.mem_cons_of_mem _ m)) (fun m => hu' (List.mem_cons_of_mem _ m))
      exact ⟨by rw [h.1, h1], h2⟩

theorem tag_one {t : Str} : ∀ {n n' : Option Str} {l l' : Str}, Tag t n l → Tag t n' l' → n = n' ∧ l = l'
  | none, none, _, _, h, h' => ⟨rfl, h.1.symm.trans h'.1⟩
  | none, some _, _, _, h, h' => absurd (by rw [h'.1]; rfl) h.2
  | some _, none, _, _, h, h' => absurd (by rw [h.1]; rfl) h'.2
  | some u, some u', l, l', h, h' => by
    have e := h.1.symm.trans h'.1
    rw [List.cons.injEq] at e
    obtain ⟨rfl, rfl⟩ := upto_one e.2 h.2 h'.2
    exact ⟨rfl, rfl⟩

theorem said_one {t a b : Option Str} : Said t a → Said t b → a = b := by
  rintro (⟨rfl, h⟩ | ⟨rfl, s, hs, c, hc, hn⟩) (⟨rfl, h'⟩ | ⟨rfl, s', hs', c', hc', hn'⟩)
  · rfl
  · rw [h s' hs' c' hc'] at hn'; cases hn'
  · rw [h' s hs c hc] at hn; cases hn
  · rfl

theorem dataSays_one {c : Cls} {p : PElem} {d d' : Data} (h : DataSays c p d) (h' : DataSays c p d') : d = d' := by
  obtain ⟨a1, ⟨l, a2, a3⟩, a4, a5, a6, a7, a8⟩ := h
  obtain ⟨b1, ⟨l', b2, b3⟩, b4, b5, b6, b7, b8⟩ := h'
  obtain ⟨e1, rfl⟩ := tag_one a2 b2
  have e2 : d.name = d'.name := by
    split at a3
    · next hc => rw [if_pos hc] at b3; exact a3.trans b3.symm
    · next hc => rw [if_neg hc] at b3; exact a3.2.trans b3.2.symm
  have e3 : d.text = d'.text := by
    split at a8
    · next hc => rw [if_pos hc] at b8; exact a8.trans b8.symm
    · next hc =>
      rw [if_neg hc] at b8
      split at a8
      · next hc' => rw [if_pos hc'] at b8; exact said_one a8 b8
      · next hc' => rw [if_neg hc'] at b8; exact a8.trans b8.symm
  have f1 := a1.trans b1.symm
  have f4 := a4.1.trans b4.1.symm
  have f5 := a5.trans b5.symm
  have f6 := a6.trans b6.symm
  have f7 := a7.trans b7.symm
  cases d; cases d'
  simp only [Data.mk.injEq]
  simp only at e1 e2 e3 f1 f4 f5 f6 f7
  simp only [e1, e2, e3, f1, f4, f5, f6, f7, and_self]

/-- **C159**: an element says one object at most -/
theorem C159_one : ∀ (x : Obj) {c : Cls} {p : PElem} {y : Obj}, Says c p x → Says c p y → x = y := by
  refine Obj.ind fun d md kids ih1 ih2 {c p y} h h' => ?_
  cases h with
  | mk h1 a1 a2 b1 b2 =>
    cases h' with
    | mk h1' a1' a2' b1' b2' =>
      cases dataSays_one h1 h1'
      congr 1
      · exact pair_eq (a1.symm.trans a1') fun i x y hx hy => by
          obtain ⟨v, hv⟩ := idx_some (a1.trans (a1.symm.trans a1')).symm hy
          exact ih1 x (List.mem_of_getElem? hx) (a2 i v x hv hx) (a2' i v y hv hy)
      · exact pair_eq (b1.symm.trans b1') fun i x y hx hy => by
          obtain ⟨v, hv⟩ := idx_some (b1.trans (b1.symm.trans b1')).symm hy
          exact ih2 x (List.mem_of_getElem? hx) (b2 i v x hv hx) (b2' i v y hv hy)

end

section
attribute [local instance] asciiUni asciiXml

/-- prefixes declared outside and redeclared inside, a default namespace in a part -/
def exText : Str := lit! "<xigt-corpus xmlns:a='u' id='c'><metadata><meta><a:k xmlns:a='v' a:x='1'> t </a:k><k xmlns='w'/></meta></metadata><igt id='i1'><other/><tier id='t' type='T'><item id='t1'>x</item></tier></igt></xigt-corpus>"

/-- what it says -/
def exSaid : Obj :=
  .mk { cls := .corpus, id := some (lit! "c"), nsmap := some [(lit! "a", lit! "u")] }
    [.mk { cls := .metadata, nsmap := some [(lit! "a", lit! "u")] } []
      [.mk { cls := .metaC, nsmap := some [(lit! "a", lit! "u")] } []
        [.mk { cls := .metaChild, name := some (lit! "k"), ns := some (lit! "v"), nsmap := some [(lit! "a", lit! "v")], attrs := [(lit! "{v}x", lit! "1")], text := some (lit! " t ") } [] [],
         .mk { cls := .metaChild, name := some (lit! "k"), ns := some (lit! "w"), nsmap := some [(lit! "a", lit! "u"), ([], lit! "w")] } [] []]]]
    [.mk { cls := .igt, id := some (lit! "i1"), nsmap := some [(lit! "a", lit! "u")] } []
      [.mk { cls := .tier, id := some (lit! "t"), type := some (lit! "T"), nsmap := some [(lit! "a", lit! "u")] } []
        [.mk { cls := .item, id := some (lit! "t1"), text := some (lit! "x"), nsmap := some [(lit! "a", lit! "u")] } [] []]]]

/-- with its names resolved -/
def exP : PElem :=
  .mk (lit! "xigt-corpus") [(lit! "id", lit! "c")] (some [(lit! "a", lit! "u")]) none
    [.mk (lit! "metadata") [] (some [(lit! "a", lit! "u")]) none
      [.mk (lit! "meta") [] (some [(lit! "a", lit! "u")]) none
        [.mk (lit! "{v}k") [(lit! "{v}x", lit! "1")] (some [(lit! "a", lit! "v")]) (some (lit! " t ")) [],
         .mk (lit! "{w}k") [] (some [(lit! "a", lit! "u"), ([], lit! "w")]) none []]],
     .mk (lit! "igt") [(lit! "id", lit! "i1")] (some [(lit! "a", lit! "u")]) none
      [.mk (lit! "other") [] (some [(lit! "a", lit! "u")]) none [],
       .mk (lit! "tier") [(lit! "id", lit! "t"), (lit! "type", lit! "T")] (some [(lit! "a", lit! "u")]) none
        [.mk (lit! "item") [(lit! "id", lit! "t1")] (some [(lit! "a", lit! "u")]) (some (lit! "x")) []]]]

set_option maxRecDepth 100000 in
theorem exText_read : readText exText = .ok exP := rfl

theorem exP_layout : Layout exP := by
  refine ⟨rfl, by simp [exP, PElem.nsmap], _ :: [], [_], rfl, ?_, ?_⟩
  · intro x hx
    cases List.mem_singleton.1 hx
    refine .mk ⟨by simp [PElem.nsmap], by decide, by decide⟩ fun k hk => ?_
    cases List.mem_singleton.1 hk
    refine .mk ⟨by simp [PElem.nsmap], by decide, by decide⟩ fun k hk => ?_
    rcases List.mem_cons.1 hk with rfl | hk
    · exact .mk ⟨by simp [PElem.nsmap], by decide, by decide⟩ (by simp)
    · cases List.mem_singleton.1 hk
      exact .mk ⟨by simp [PElem.nsmap], by decide, by decide⟩ (by simp)
  · intro k hk
    cases List.mem_singleton.1 hk
    refine ⟨by decide, by decide, by simp [PElem.nsmap], fun x hx => ?_⟩
    rcases List.mem_cons.1 hx with rfl | hx
    · exact .mk ⟨by simp [PElem.nsmap], by decide, by decide⟩ (by simp)
    · cases List.mem_singleton.1 hx
      refine .mk ⟨by simp [PElem.nsmap], by decide, by decide⟩ fun k hk => ?_
      cases List.mem_singleton.1 hk
      exact .mk ⟨by simp [PElem.nsmap], by decide, by decide⟩ (by simp)

/-- it is loaded so, however far the parser reads ahead; the hypotheses of `C159_partial` are met -/
example : (∀ look, loadsXml look exText = .ok exSaid) ∧ readText exText = .ok exP ∧ Layout exP ∧ Says .corpus exP exSaid ∧ exSaid.Valid := by
  have h : Says .corpus exP exSaid ∧ exSaid.Valid := by
    obtain ⟨d, -, -, hr⟩ := (C159_names _ _).1 exText_read
    exact ((C159_each hr exSaid).1).1 rfl
  exact ⟨fun look => (C159_partial exText exText_read exP_layout look exSaid).2 h, exText_read, exP_layout, h⟩

/-- undeclared prefixes, one attribute by two prefixes, and a prefix without namespace are rejected -/
example : readText (lit! "<a:xigt-corpus/>") = .error .parseError ∧ readText (lit! "<x xmlns:a='u' xmlns:b='u' a:k='1' b:k='2'/>") = .error .parseError ∧
    readText (lit! "<x xmlns:a=''/>") = .error .parseError := ⟨rfl, rfl, rfl⟩

/-- metadata after the IGTs is not loaded, though the document says it -/
theorem C159_refuted : ∃ s p x y, readText s = .ok p ∧ Says .corpus p x ∧ x.Valid ∧ loadsXml id s = .ok y ∧ x.md ≠ [] ∧ y.md = [] := by
  have hy : ∃ y, loadsXml id (lit! "<xigt-corpus><igt id='i'/><metadata/></xigt-corpus>") = .ok y ∧ y.md = [] := ⟨_, rfl, rfl⟩
  obtain ⟨d, -, -, hr⟩ := (C159_names _ _).1 (rfl : readText (lit! "<xigt-corpus><igt id='i'/><metadata/></xigt-corpus>") = .ok _)
  have h := ((C159_each hr _).1).1 rfl
  obtain ⟨y, hy, hm⟩ := hy
  exact ⟨_, _, _, y, rfl, h.1, h.2, hy, by simp [Obj.md], hm⟩

end

end Xigt.Xs
