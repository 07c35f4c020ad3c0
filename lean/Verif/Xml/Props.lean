import Verif.Xml.Spec
import Verif.Xml.Indent
import Verif.Json.Props
/- Properties of the XML codec: C40, C41. -/

set_option linter.unusedSectionVars false

namespace Xigt
section
variable [Uni] [XmlLex]

/-! ### Namespaces -/

/-- what holds of the namespaces declared around an object (`scope`) and of the map of its parent -/
structure XCtx (scope eff : Dict Str Str) : Prop where
  scope_wf : scope.WF
  eff_wf : eff.WF
  sub : ∀ p u, Dict.get? eff p = some u → Dict.get? scope p = some u
  good : ∀ p u, Dict.get? eff p = some u → PrefixOK p ∧ UriOK u
  noDflt : Dict.get? scope [] = none

theorem XCtx.top : XCtx [] [] :=
  ⟨Dict.wf_nil, Dict.wf_nil, fun _ _ h => by simp [Dict.get?] at h, fun _ _ h => by simp [Dict.get?] at h, rfl⟩

/-- the declarations written at an object -/
def written (m eff : Dict Str Str) : Dict Str Str := m.filter fun p => !decide (Dict.get? eff p.1 = some p.2)

theorem written_wf {m eff : Dict Str Str} (hm : m.WF) : Dict.WF (written m eff) := by
  unfold Dict.WF Dict.keys written
  exact List.Nodup.sublist (List.Sublist.map _ List.filter_sublist) hm

theorem append_inj_left {a b c : Str} (h : a ++ b = a ++ c) : b = c := List.append_cancel_left h

theorem xmlDecls_eq {m eff : Dict Str Str} (hm : m.WF) :
    xmlDecls m eff = (written m eff).map fun p => (XMLNS ++ p.1, p.2) := by
  have key : ∀ (l acc : Dict Str Str), ((acc ++ l).map Prod.fst).Nodup →
      l.foldl (fun acc p => if Dict.get? eff p.1 = some p.2 then acc else Dict.set acc (XMLNS ++ p.1) p.2)
        (acc.map fun p => (XMLNS ++ p.1, p.2)) =
      (acc ++ written l eff).map fun p => (XMLNS ++ p.1, p.2) := by
    intro l
    induction l with
    | nil => intro acc _; simp [written]
    | cons p l ih =>
      intro acc hn
      obtain ⟨k, v⟩ := p
      rw [List.foldl_cons]
      by_cases hk : Dict.get? eff k = some v
      · simp only [hk, if_true]
        rw [ih acc]
        · simp [written, hk]
        · exact List.Nodup.sublist (List.Sublist.map _ (by simp)) hn
      · simp only [hk, if_false]
        have hnew : XMLNS ++ k ∉ Dict.keys (acc.map fun p => (XMLNS ++ p.1, p.2)) := by
          intro hmem
          simp only [Dict.keys, List.map_map, List.mem_map] at hmem
          obtain ⟨q, hq, he⟩ := hmem
          have : q.1 = k := append_inj_left he
          rw [List.map_append, List.nodup_append] at hn
          exact hn.2.2 q.1 (List.mem_map_of_mem hq) k (by simp) this
        rw [set_append_new hnew]
        have h2 := ih (acc ++ [(k, v)]) (by simpa using hn)
        simp only [List.map_append, List.map_cons, List.map_nil] at h2
        rw [h2]
        simp [written, hk]
  exact key m [] (by simpa [Dict.WF, Dict.keys] using hm)

theorem splitOnce_xmlns (p : Str) : splitOnce ':' (XMLNS ++ p) = some (lit! "xmlns", p) :=
  splitOnce_some (lit! "xmlns") p (by decide)

theorem declOf_xmlns {p : Str} (hp : p ≠ []) : declOf (XMLNS ++ p) = some p := by
  unfold declOf
  rw [if_neg (by simp [XMLNS]), splitOnce_xmlns]
  simp [hp]

theorem declOf_plain {k : Str} (h1 : ':' ∉ k) (h2 : k ≠ lit! "xmlns") : declOf k = none := by
  unfold declOf
  rw [if_neg h2, splitOnce_none h1]

theorem declOf_prefixed {p k : Str} (h1 : ':' ∉ p) (h2 : p ≠ lit! "xmlns") : declOf (p ++ ':' :: k) = none := by
  unfold declOf
  rw [if_neg, splitOnce_some p k h1]
  · simp [h2]
  · intro e
    have : ':' ∈ lit! "xmlns" := by rw [← e]; simp
    revert this; decide

/-! ### Attribute names -/

/-- the name under which an attribute is written -/
def wkey (rev : Dict Str Str) (k : Str) : Str :=
  match k with
  | '{' :: r => match splitOnce '}' r with
    | none => k
    | some (uri, key) => (Dict.get? rev uri).getD (lit! "xml") ++ ':' :: key
  | _ => k

theorem ncName_head {k : Str} (h : XmlLex.ncName k = true) : k.head? ≠ some '{' := by
  intro e
  cases k with
  | nil => cases e
  | cons c k => cases e; exact XmlLex.no_brace _ h (by simp)

theorem wkey_plain {rev : Dict Str Str} {k : Str} (h : k.head? ≠ some '{') : wkey rev k = k ∧ xmlKey rev k = .ok k := by
  unfold wkey xmlKey
  constructor
  all_goals
    split
    · exact absurd rfl h
    · rfl

/-- how a kept attribute name is written and read -/
structure KeyOK (m scope : Dict Str Str) (k : Str) : Prop where
  writes : xmlKey (inverse m) k = .ok (wkey (inverse m) k)
  nodecl : declOf (wkey (inverse m) k) = none
  reads : resolveName scope none (wkey (inverse m) k) = .ok k

theorem keyOK {m scope : Dict Str Str} (hm : m.WF) (hsub : ∀ p u, Dict.get? m p = some u → Dict.get? scope p = some u)
    (hgood : ∀ p u, Dict.get? m p = some u → PrefixOK p ∧ UriOK u) {k : Str} (h : AttrKept m k) : KeyOK m scope k := by
  rcases h with ⟨h1, h2, h3, h4⟩ | ⟨uri, key, rfl, hkey, hu⟩
  · obtain ⟨e1, e2⟩ := wkey_plain (rev := inverse m) (ncName_head h1)
    have hc := XmlLex.no_colon _ h1
    refine ⟨by rw [e1, e2], by rw [e1]; exact declOf_plain hc h4, ?_⟩
    rw [e1, resolveName, splitOnce_none hc]
    simp [h1]
  · -- in a namespace
    have hxml : '}' ∉ xmlNs := by decide
    have hne : uri ≠ [] ∧ '}' ∉ uri := by
      rcases hu with rfl | ⟨p, hp⟩
      · exact ⟨by decide, hxml⟩
      · have := (hgood p uri hp).2
        exact ⟨this.2.2.1, this.2.1⟩
    have hs : splitOnce '}' (uri ++ '}' :: key) = some (uri, key) := splitOnce_some _ _ hne.2
    have hw : wkey (inverse m) (qual uri key) = (Dict.get? (inverse m) uri).getD (lit! "xml") ++ ':' :: key := by
      rw [qual, wkey, hs]
    cases hi : Dict.get? (inverse m) uri with
    | some pre =>
      have hp := inverse_some hm hi
      have hg := (hgood pre uri hp).1
      have hc := XmlLex.no_colon _ hg.1
      refine ⟨by rw [hw, hi, qual, xmlKey, hs]; simp only [if_neg hne.1, hi]; rfl, ?_, ?_⟩
      · rw [hw, hi]; exact declOf_prefixed hc hg.2.2
      · rw [hw, hi, resolveName, Option.getD_some, splitOnce_some _ _ hc]
        simp [hg.1, hkey, hg.2.1, hsub pre uri hp]
    | none =>
      have hux : uri = xmlNs := by
        rcases hu with rfl | ⟨p, hp⟩
        · rfl
        · obtain ⟨q, hq⟩ := inverse_isSome hp
          rw [hq] at hi; cases hi
      subst hux
      refine ⟨by rw [hw, hi, qual, xmlKey, hs]; simp only [if_neg hne.1, hi]; rfl, ?_, ?_⟩
      · rw [hw, hi]; exact declOf_prefixed (p := lit! "xml") (by decide) (by decide)
      · rw [hw, hi, resolveName, Option.getD_none, splitOnce_some (lit! "xml") key (by decide)]
        have : XmlLex.ncName (lit! "xml") = true := XmlLex.names _ (by simp)
        simp [this, hkey]

theorem KeyOK.inj {m scope : Dict Str Str} {k k' : Str} (h : KeyOK m scope k) (h' : KeyOK m scope k')
    (e : wkey (inverse m) k = wkey (inverse m) k') : k = k' := by
  have := h.reads
  rw [e, h'.reads] at this
  cases this; rfl

theorem nodup_map_on {α β : Type} {f : α → β} : ∀ {l : List α}, (∀ x ∈ l, ∀ y ∈ l, f x = f y → x = y) → l.Nodup → (l.map f).Nodup := by
  intro l
  induction l with
  | nil => intro _ _; simp
  | cons a l ih =>
    intro h hn
    rw [List.nodup_cons] at hn
    rw [List.map_cons, List.nodup_cons]
    refine ⟨?_, ih (fun x hx y hy => h x (by simp [hx]) y (by simp [hy])) hn.2⟩
    intro hm
    obtain ⟨b, hb, he⟩ := List.mem_map.1 hm
    exact hn.1 (h b (by simp [hb]) a (by simp) he ▸ hb)

/-- an attribute that is there if it has a value -/
def optAttr (k : Str) : Option Str → Dict Str Str
  | none => []
  | some v => [(k, v)]

theorem setSome_new {acc : Dict Str Str} {k : Str} {v : Option Str} (h : k ∉ Dict.keys acc) :
    setSome acc k v = acc ++ optAttr k v := by
  cases v with
  | none => simp [setSome, optAttr]
  | some v => simp only [setSome, optAttr]; exact set_append_new h

theorem xmlAttrs_eq {rev : Dict Str Str} : ∀ (l acc : Dict Str Str), (∀ p ∈ l, xmlKey rev p.1 = .ok (wkey rev p.1)) →
    (Dict.keys acc ++ l.map fun p => wkey rev p.1).Nodup →
    xmlAttrs rev acc l = .ok (acc ++ l.map fun p => (wkey rev p.1, p.2)) := by
  intro l
  induction l with
  | nil => intro acc _ _; simp [xmlAttrs]
  | cons p l ih =>
    intro acc h hn
    obtain ⟨k, v⟩ := p
    have hk := h (k, v) (by simp)
    simp only [xmlAttrs, hk, bind, Except.bind]
    have hnew : wkey rev k ∉ Dict.keys acc := by
      intro hm
      rw [List.nodup_append] at hn
      exact hn.2.2 _ hm _ (by simp) rfl
    rw [set_append_new hnew, ih]
    · simp
    · intro p hp; exact h p (by simp [hp])
    · simpa [Dict.keys] using hn

/-- the namespaces declared inside an object -/
def scopeIn (d : Data) (scope eff : Dict Str Str) : Dict Str Str := Dict.update scope (written (effNs d eff) eff)

theorem XCtx.step {scope eff : Dict Str Str} (h : XCtx scope eff) {d : Data} (hd : ∀ m, d.nsmap = some m → m.WF)
    (hk : XmlDataKept (effNs d eff) d) : XCtx (scopeIn d scope eff) (effNs d eff) := by
  have hwf : (effNs d eff).WF := by
    unfold effNs
    cases hm : d.nsmap with
    | none => exact h.eff_wf
    | some m => exact hd m hm
  have hgood : ∀ p u, Dict.get? (effNs d eff) p = some u → PrefixOK p ∧ UriOK u := by
    intro p u hp
    unfold effNs at hp
    cases hm : d.nsmap with
    | none => rw [hm] at hp; exact h.good p u hp
    | some m => rw [hm] at hp; exact hk.decls m hm p u (Dict.get?_mem hp)
  have hget : ∀ p, Dict.get? (scopeIn d scope eff) p = (Dict.get? (written (effNs d eff) eff) p).or (Dict.get? scope p) :=
    fun p => get?_update _ (written_wf hwf) _ _
  refine ⟨WF_update _ _ h.scope_wf, hwf, ?_, hgood, ?_⟩
  · intro p u hp
    rw [hget]
    by_cases he : Dict.get? eff p = some u
    · have : Dict.get? (written (effNs d eff) eff) p = none := by
        rw [Dict.get?_eq_none_iff]
        intro hmem
        simp only [Dict.keys, List.mem_map] at hmem
        obtain ⟨q, hq, rfl⟩ := hmem
        have hq' := List.mem_filter.1 hq
        have h1 := Dict.get?_of_mem hwf hq'.1
        rw [hp] at h1
        cases h1
        simp [he] at hq'
      rw [this, h.sub p u he]
      rfl
    · have : (p, u) ∈ written (effNs d eff) eff := List.mem_filter.2 ⟨Dict.get?_mem hp, by simp [he]⟩
      rw [Dict.get?_of_mem (written_wf hwf) this]
      rfl
  · rw [hget, h.noDflt]
    have : Dict.get? (written (effNs d eff) eff) [] = none := by
      rw [Dict.get?_eq_none_iff]
      intro hmem
      simp only [Dict.keys, List.mem_map] at hmem
      obtain ⟨q, hq, he⟩ := hmem
      have hq' := List.mem_filter.1 hq
      have h1 := (hgood q.1 q.2 (Dict.get?_of_mem hwf hq'.1)).1.1
      rw [he, XmlLex.not_nil] at h1
      cases h1
    rw [this]; rfl

theorem all_chars {s : Str} (h : XmlChars s) : s.all isXmlChar = true := List.all_eq_true.2 h

theorem ncName_of {s : Str} (h : s ∈ [lit! "xigt-corpus", lit! "igt", lit! "tier", lit! "item", lit! "metadata", lit! "meta",
    lit! "id", lit! "type", lit! "xml"]) : XmlLex.ncName s = true := XmlLex.names s h

/-- Writing the element of an object and reading it back. -/
theorem node_rt {scope eff : Dict Str Str} (h : XCtx scope eff) {d : Data} (hd : ∀ m, d.nsmap = some m → m.WF) (ha : d.attrs.WF)
    (hk : XmlDataKept (effNs d eff) d) {tag tag' : Str} {text text' : Option Str} (ht : parseText text = .ok text')
    (htag : resolveName (scopeIn d scope eff) none (xmlTag (inverse (effNs d eff)) tag d.ns) = .ok tag')
    {ks : List Elem} {ks' : List PElem} (hks : parseElems (scopeIn d scope eff) ks = .ok ks') :
    ∃ e, buildElem tag d eff text ks = .ok e ∧
      parseElem scope e = .ok (.mk tag' (optAttr (lit! "id") d.id ++ optAttr (lit! "type") d.type ++ d.attrs)
        (scopeIn d scope eff) text' ks') := by
  have hs := h.step hd hk
  have hkeys : ∀ k v, (k, v) ∈ d.attrs → KeyOK (effNs d eff) (scopeIn d scope eff) k := fun k v hkv =>
    keyOK hs.eff_wf hs.sub hs.good (hk.attrs k v hkv).2
  have hD := xmlDecls_eq (eff := eff) hs.eff_wf
  have hwne : ∀ q ∈ written (effNs d eff) eff, q.1 ≠ [] := by
    intro q hq e
    have hq' := List.mem_filter.1 hq
    have h1 := (hs.good q.1 q.2 (Dict.get?_of_mem hs.eff_wf hq'.1)).1.1
    rw [e, XmlLex.not_nil] at h1
    cases h1
  have hmemD : ∀ k ∈ Dict.keys (xmlDecls (effNs d eff) eff), ∃ p, p ≠ [] ∧ k = XMLNS ++ p := by
    intro k hmem
    rw [hD] at hmem
    simp only [Dict.keys, List.map_map, List.mem_map] at hmem
    obtain ⟨q, hq, he⟩ := hmem
    exact ⟨q.1, hwne q hq, he.symm⟩
  have hid : lit! "id" ∉ Dict.keys (xmlDecls (effNs d eff) eff) := by
    intro hm
    obtain ⟨p, _, hp⟩ := hmemD _ hm
    simp [XMLNS] at hp
  have htype : lit! "type" ∉ Dict.keys (xmlDecls (effNs d eff) eff ++ optAttr (lit! "id") d.id) := by
    intro hm
    simp only [Dict.keys, List.map_append, List.mem_append] at hm
    rcases hm with hm | hm
    · obtain ⟨p, _, hp⟩ := hmemD _ hm
      simp [XMLNS] at hp
    · cases hi : d.id with
      | none => rw [hi] at hm; cases hm
      | some i => rw [hi] at hm; simp [optAttr] at hm
  have hattrs0 : setSome (setSome (xmlDecls (effNs d eff) eff) (lit! "id") d.id) (lit! "type") d.type =
      xmlDecls (effNs d eff) eff ++ optAttr (lit! "id") d.id ++ optAttr (lit! "type") d.type := by
    rw [setSome_new hid, setSome_new htype]
  have hoptkeys : ∀ k o, ∀ x ∈ Dict.keys (optAttr k o), x = k := by
    intro k o x hx
    cases o with
    | none => cases hx
    | some v => simpa [optAttr, Dict.keys] using hx
  have hattrsId : ∀ k ∈ [lit! "id", lit! "type"], ∀ p ∈ d.attrs, wkey (inverse (effNs d eff)) p.1 ≠ k := by
    intro k hk' p hp e
    have hko := hkeys p.1 p.2 hp
    have hr := hko.reads
    rw [e, resolveName, splitOnce_none (by rcases List.mem_cons.1 hk' with rfl | hk'; decide; rw [List.mem_singleton.1 hk']; decide)] at hr
    have hnc : XmlLex.ncName k = true := ncName_of (by rcases List.mem_cons.1 hk' with rfl | hk'; simp; rw [List.mem_singleton.1 hk']; simp)
    simp only [hnc, if_true, Except.ok.injEq] at hr
    rcases (hk.attrs p.1 p.2 hp).2 with ⟨_, h2, h3, _⟩ | ⟨uri, key, he, _⟩
    · rcases List.mem_cons.1 hk' with rfl | hk'
      · exact h2 hr.symm
      · rw [List.mem_singleton.1 hk'] at hr; exact h3 hr.symm
    · rw [he] at hr
      have hkk := ncName_head hnc
      rw [hr] at hkk
      exact hkk rfl
  have hnodupW : (d.attrs.map fun p => wkey (inverse (effNs d eff)) p.1).Nodup := by
    have h1 : (d.attrs.map Prod.fst).Nodup := ha
    have : (d.attrs.map fun p => wkey (inverse (effNs d eff)) p.1) = (d.attrs.map Prod.fst).map (wkey (inverse (effNs d eff))) := by
      rw [List.map_map]; rfl
    rw [this]
    refine nodup_map_on ?_ h1
    intro x hx y hy e
    obtain ⟨p, hp, rfl⟩ := List.mem_map.1 hx
    obtain ⟨q, hq, rfl⟩ := List.mem_map.1 hy
    exact (hkeys p.1 p.2 hp).inj (hkeys q.1 q.2 hq) e
  have hXmlns : ∀ q, q ≠ [] → ∀ p ∈ d.attrs, wkey (inverse (effNs d eff)) p.1 ≠ XMLNS ++ q := by
    intro q hq0 p hp e
    have hko := (hkeys p.1 p.2 hp).nodecl
    rw [e, declOf_xmlns hq0] at hko
    cases hko
  have hnodup : (Dict.keys (xmlDecls (effNs d eff) eff ++ optAttr (lit! "id") d.id ++ optAttr (lit! "type") d.type) ++
      d.attrs.map fun p => wkey (inverse (effNs d eff)) p.1).Nodup := by
    simp only [Dict.keys, List.map_append]
    have hDn : ((xmlDecls (effNs d eff) eff).map Prod.fst).Nodup := by
      rw [hD, List.map_map]
      have : (List.map (Prod.fst ∘ fun p : Str × Str => (XMLNS ++ p.1, p.2)) (written (effNs d eff) eff)) =
          ((written (effNs d eff) eff).map Prod.fst).map (XMLNS ++ ·) := by rw [List.map_map]; rfl
      rw [this]
      exact nodup_map_on (fun x _ y _ e => append_inj_left e) (written_wf hs.eff_wf)
    have hoN : ∀ k o, ((optAttr k o).map Prod.fst).Nodup := by
      intro k o; cases o <;> simp [optAttr]
    rw [List.nodup_append, List.nodup_append, List.nodup_append]
    refine ⟨⟨⟨hDn, hoN _ _, ?_⟩, hoN _ _, ?_⟩, hnodupW, ?_⟩
    · intro a ha' b hb e
      have := hoptkeys _ _ b hb
      obtain ⟨p, _, hp⟩ := hmemD a ha'
      rw [hp, this] at e
      simp [XMLNS] at e
    · intro a ha' b hb e
      have hb' := hoptkeys _ _ b hb
      rcases List.mem_append.1 ha' with ha' | ha'
      · obtain ⟨p, _, hp⟩ := hmemD a ha'
        rw [hp, hb'] at e
        simp [XMLNS] at e
      · have ha'' := hoptkeys _ _ a ha'
        rw [ha'', hb'] at e
        simp at e
    · intro a ha' b hb e
      obtain ⟨p, hp, rfl⟩ := List.mem_map.1 hb
      rcases List.mem_append.1 ha' with ha' | ha'
      · rcases List.mem_append.1 ha' with ha' | ha'
        · obtain ⟨q, hq0, hq⟩ := hmemD a ha'
          exact hXmlns q hq0 p hp (e.symm.trans hq)
        · exact hattrsId _ (by simp) p hp (e.symm.trans (hoptkeys _ _ a ha'))
      · exact hattrsId _ (by simp) p hp (e.symm.trans (hoptkeys _ _ a ha'))
  have hX := xmlAttrs_eq (rev := inverse (effNs d eff)) d.attrs _ (fun p hp => (hkeys p.1 p.2 hp).writes) hnodup
  -- declarations and attributes of the element
  have hdeclO : ∀ k o, declOf k = none → declsOf (optAttr k o) = [] ∧ (optAttr k o).filter (fun p => (declOf p.1).isNone) = optAttr k o := by
    intro k o hko
    cases o <;> simp [optAttr, declsOf, hko]
  have hid' : declOf (lit! "id") = none := declOf_plain (by decide) (by decide)
  have htype' : declOf (lit! "type") = none := declOf_plain (by decide) (by decide)
  have hdA : declsOf (d.attrs.map fun p => (wkey (inverse (effNs d eff)) p.1, p.2)) = [] := by
    unfold declsOf
    rw [List.filterMap_eq_nil_iff]
    intro p hp
    obtain ⟨q, hq, rfl⟩ := List.mem_map.1 hp
    simp [(hkeys q.1 q.2 hq).nodecl]
  have hfA : (d.attrs.map fun p => (wkey (inverse (effNs d eff)) p.1, p.2)).filter (fun p => (declOf p.1).isNone) =
      d.attrs.map fun p => (wkey (inverse (effNs d eff)) p.1, p.2) := by
    rw [List.filter_eq_self]
    intro p hp
    obtain ⟨q, hq, rfl⟩ := List.mem_map.1 hp
    simp [(hkeys q.1 q.2 hq).nodecl]
  have hdD : declsOf (xmlDecls (effNs d eff) eff) = written (effNs d eff) eff := by
    rw [hD]
    unfold declsOf
    rw [List.filterMap_map]
    have : ∀ l : Dict Str Str, (∀ q ∈ l, q.1 ≠ []) →
        l.filterMap ((fun p => (declOf p.1).map fun q => (q, p.2)) ∘ fun p : Str × Str => (XMLNS ++ p.1, p.2)) = l := by
      intro l hl
      induction l with
      | nil => rfl
      | cons p l ih =>
        rw [List.filterMap_cons, ih fun q hq => hl q (by simp [hq])]
        simp [declOf_xmlns (hl p (by simp))]
    exact this _ hwne
  have hfD : (xmlDecls (effNs d eff) eff).filter (fun p => (declOf p.1).isNone) = [] := by
    rw [hD, List.filter_eq_nil_iff]
    intro p hp
    obtain ⟨q, hq, rfl⟩ := List.mem_map.1 hp
    simp [declOf_xmlns (hwne q hq)]
  refine ⟨.mk (xmlTag (inverse (effNs d eff)) tag d.ns)
      (xmlDecls (effNs d eff) eff ++ optAttr (lit! "id") d.id ++ optAttr (lit! "type") d.type ++
        d.attrs.map fun p => (wkey (inverse (effNs d eff)) p.1, p.2)) text none ks, ?_, ?_⟩
  · simp only [buildElem, hattrs0, hX, bind, Except.bind, pure, Except.pure]
  · have hdecls : declsOf (xmlDecls (effNs d eff) eff ++ optAttr (lit! "id") d.id ++ optAttr (lit! "type") d.type ++
        d.attrs.map fun p => (wkey (inverse (effNs d eff)) p.1, p.2)) = written (effNs d eff) eff := by
      have happ : ∀ a b : Dict Str Str, declsOf (a ++ b) = declsOf a ++ declsOf b := by
        intro a b; simp [declsOf]
      rw [happ, happ, happ, hdA, (hdeclO _ _ hid').1, (hdeclO _ _ htype').1, hdD]
      simp
    rw [parseElem_ok_iff, hdecls]
    refine ⟨?_, tag', _, text', none, ks', ?_, ?_, ?_, ht, rfl, hks, rfl⟩
    · rw [List.all_eq_true]
      intro p hp
      have hp' := List.mem_filter.1 hp
      obtain ⟨⟨g1, g2, g3⟩, u1, u2, u3, u4, u5⟩ := hs.good p.1 p.2 (Dict.get?_of_mem hs.eff_wf hp'.1)
      have hne : p.1 ≠ [] := by
        intro e; rw [e, XmlLex.not_nil] at g1; cases g1
      simp [declOK, all_chars u1, u2, u3, u4, u5, g1, g2, g3, hne]
    · show resolveName (scopeIn d scope eff) (Dict.get? (scopeIn d scope eff) []) _ = _
      rw [hs.noDflt]; exact htag
    · show mapPy (parseAttr (scopeIn d scope eff)) _ = _
      rw [List.filter_append, List.filter_append, List.filter_append, hfD, hfA, (hdeclO _ _ hid').2, (hdeclO _ _ htype').2, mapPy_ok_iff]
      have happ : ∀ {α β : Type} {R : α → β → Prop} {a b : List α} {a' b' : List β}, All2 R a a' → All2 R b b' → All2 R (a ++ b) (a' ++ b') := by
        intro α β R a b a' b' h1 h2
        induction h1 with
        | nil => exact h2
        | cons hx _ ih => exact .cons hx ih
      have hopt : ∀ k o, ':' ∉ k → XmlLex.ncName k = true → (∀ v, o = some v → XmlChars v) →
          All2 (fun x y => parseAttr (scopeIn d scope eff) x = .ok y) (optAttr k o) (optAttr k o) := by
        intro k o hc hn hv
        cases o with
        | none => exact .nil
        | some v =>
          refine .cons ?_ .nil
          simp only [parseAttr, resolveName, splitOnce_none hc, hn, if_true, bind, Except.bind, all_chars (hv v rfl)]
      refine happ (happ (hopt _ _ (by decide) (ncName_of (by simp)) hk.id) (hopt _ _ (by decide) (ncName_of (by simp)) hk.type)) ?_
      have : ∀ l : Dict Str Str, (∀ p ∈ l, p ∈ d.attrs) →
          All2 (fun x y => parseAttr (scopeIn d scope eff) x = .ok y) (l.map fun p => (wkey (inverse (effNs d eff)) p.1, p.2)) l := by
        intro l
        induction l with
        | nil => intro _; exact .nil
        | cons p l ih =>
          intro hl
          refine .cons ?_ (ih fun q hq => hl q (by simp [hq]))
          have hp := hl p (by simp)
          simp only [parseAttr, (hkeys p.1 p.2 hp).reads, bind, Except.bind, all_chars (hk.attrs p.1 p.2 hp).1, if_true]
      exact this _ fun _ h => h
    · rw [List.map_append, List.map_append, List.nodup_append, List.nodup_append]
      have hoN : ∀ k o, ((optAttr k o).map Prod.fst).Nodup := by
        intro k o; cases o <;> simp [optAttr]
      have hplain : ∀ p ∈ d.attrs, p.1 ≠ lit! "id" ∧ p.1 ≠ lit! "type" := by
        intro p hp
        rcases (hk.attrs p.1 p.2 hp).2 with ⟨_, h2, h3, _⟩ | ⟨uri, key, he, _⟩
        · exact ⟨h2, h3⟩
        · rw [he]; exact ⟨qual_ne (by decide), qual_ne (by decide)⟩
      refine ⟨⟨hoN _ _, hoN _ _, ?_⟩, ha, ?_⟩
      · intro a ha' b hb e
        rw [hoptkeys _ _ a ha', hoptkeys _ _ b hb] at e
        simp at e
      · intro a ha' b hb e
        obtain ⟨p, hp, rfl⟩ := List.mem_map.1 hb
        rcases List.mem_append.1 ha' with ha' | ha'
        · exact (hplain p hp).1 (e.symm.trans (hoptkeys _ _ a ha'))
        · exact (hplain p hp).2 (e.symm.trans (hoptkeys _ _ a ha'))

/-! ### What is read back -/

mutual
/-- the object read back: the same, but with all namespaces declared around it -/
def xres (scope eff : Dict Str Str) : Obj → Obj
  | .mk d md kids => .mk { d with nsmap := some (scopeIn d scope eff) }
      (xresL (scopeIn d scope eff) (effNs d eff) md) (xresL (scopeIn d scope eff) (effNs d eff) kids)
def xresL (scope eff : Dict Str Str) : List Obj → List Obj
  | [] => []
  | x :: xs => xres scope eff x :: xresL scope eff xs
end

theorem xresL_eq (scope eff : Dict Str Str) (xs : List Obj) : xresL scope eff xs = xs.map (xres scope eff) := by
  induction xs with
  | nil => simp [xresL]
  | cons x xs ih => simp [xresL, ih]

theorem xres_mk (scope eff : Dict Str Str) (d md kids) : xres scope eff (.mk d md kids) =
    .mk { d with nsmap := some (scopeIn d scope eff) } (md.map (xres (scopeIn d scope eff) (effNs d eff)))
      (kids.map (xres (scopeIn d scope eff) (effNs d eff))) := by
  rw [xres, xresL_eq, xresL_eq]

theorem xres_id (scope eff : Dict Str Str) (x : Obj) : (xres scope eff x).data.id = x.data.id := by
  cases x; simp [xres]

theorem ids_xres (scope eff : Dict Str Str) (xs : List Obj) :
    ((xs.map (xres scope eff)).filterMap fun x => x.data.id) = xs.filterMap fun x => x.data.id := by
  rw [List.filterMap_map]
  congr 1
  funext x
  exact xres_id scope eff x

theorem xres_same : ∀ (x : Obj) (scope eff : Dict Str Str), SameData (xres scope eff x) x := by
  refine Obj.ind fun d md kids hm hk scope eff => ?_
  rw [xres_mk]
  refine .mk rfl rfl rfl rfl rfl rfl (List.Perm.refl _) (by simp) (by simp) ?_ ?_
  · intro i x y hx hy
    rw [List.getElem?_map, hy] at hx
    cases hx
    exact hm y (List.mem_of_getElem? hy) _ _
  · intro i x y hx hy
    rw [List.getElem?_map, hy] at hx
    cases hx
    exact hk y (List.mem_of_getElem? hy) _ _

theorem xres_cls (scope eff : Dict Str Str) (x : Obj) : (xres scope eff x).cls = x.cls := by
  cases x; simp [xres]

theorem xres_wf : ∀ (x : Obj), x.WF → ∀ (scope eff : Dict Str Str), (xres scope eff x).WF := by
  refine Obj.ind fun d md kids hm hk hwf scope eff => ?_
  cases hwf with
  | mk h1 h2 h3 h4 h5 h6 h7 h8 =>
    rw [xres_mk]
    refine .mk h1 h2 h3 (fun h => by rw [h4 h]; rfl) ?_ ?_ ?_ ?_
    all_goals
      intro x hx
      obtain ⟨y, hy, rfl⟩ := List.mem_map.1 hx
    · rw [xres_cls]; exact h5 y hy
    · rw [xres_cls]; exact h6 y hy
    · exact hm y hy (h7 y hy) _ _
    · exact hk y hy (h8 y hy) _ _

/-! ### Round trip, class by class -/

/-- the object is one of the class and everything about it is in order -/
structure XNode (eff : Dict Str Str) (cls : Cls) (d : Data) (md kids : List Obj) : Prop where
  cls_eq : d.cls = cls
  wf : (Obj.mk d md kids).WF
  valid : (Obj.mk d md kids).Valid
  kept : XmlDataKept (effNs d eff) d
  kept_md : ∀ x ∈ md, XmlKept (effNs d eff) x
  kept_kids : ∀ x ∈ kids, XmlKept (effNs d eff) x

namespace XNode
variable {eff : Dict Str Str} {cls : Cls} {d : Data} {md kids : List Obj} (n : XNode eff cls d md kids)

theorem of {x : Obj} (hc : x.cls = cls) (hw : x.WF) (hv : x.Valid) (hk : XmlKept eff x) :
    XNode eff cls x.data x.md x.kids := by
  cases hk with
  | mk k1 k2 k3 => exact ⟨hc, hw, hv, k1, k2, k3⟩

include n
theorem nsmap_wf : ∀ m, d.nsmap = some m → m.WF := by have := n.valid; cases this; assumption
theorem attrs_wf : d.attrs.WF := by have := n.wf; cases this; assumption
theorem id_ok : ∀ i, d.id = some i → idAccepted i = true := by have := n.valid; cases this; assumption
theorem name_ok : ∀ i, d.name = some i → nameOK i = true := by have := n.valid; cases this; assumption
theorem md_ids : (md.filterMap fun x => x.data.id).Nodup := by have := n.valid; cases this; assumption
theorem kid_ids : (kids.filterMap fun x => x.data.id).Nodup := by have := n.valid; cases this; assumption
theorem name_none (h : cls ≠ .metaChild) : d.name = none := by
  have := n.wf
  cases this with
  | mk w1 w2 w3 =>
    cases hn : d.name with
    | none => rfl
    | some m => exact absurd (n.cls_eq.symm.trans (w3.1 (by simp [hn]))) h
theorem text_none (h : cls.hasText = false) : d.text = none := by
  have := n.wf
  cases this with
  | mk w1 w2 w3 => exact w2 (by rw [n.cls_eq]; exact h)
theorem md_nil (h : cls.hasMd = false) : md = [] := by
  have := n.wf
  cases this with
  | mk w1 w2 w3 w4 => exact w4 (by rw [n.cls_eq]; exact h)
theorem kids_cls : ∀ x ∈ kids, some x.cls = cls.contained := by
  have := n.wf
  cases this with
  | mk w1 w2 w3 w4 w5 w6 => rw [← n.cls_eq]; exact w6
theorem md_cls : ∀ x ∈ md, x.cls = .metadata := by have := n.wf; cases this; assumption
theorem md_wf : ∀ x ∈ md, x.WF := by have := n.wf; cases this; assumption
theorem kids_wf : ∀ x ∈ kids, x.WF := by have := n.wf; cases this; assumption
theorem md_valid : ∀ x ∈ md, x.Valid := by have := n.valid; cases this; assumption
theorem kids_valid : ∀ x ∈ kids, x.Valid := by have := n.valid; cases this; assumption
theorem ns_none (h : cls ≠ .metaChild) : d.ns = none := n.kept.ns (by rw [n.cls_eq]; exact h)

theorem parse_text (ht : d.text ≠ some []) : parseText d.text = .ok d.text := by
  cases hd : d.text with
  | none => rfl
  | some t =>
    obtain ⟨h1, h2⟩ := n.kept.text t hd
    rw [parseText, if_pos (all_chars h1), eol_id h2]
    cases t with
    | nil => exact absurd hd ht
    | cons c t => rfl

theorem text_meta (h : cls = .metaC ∨ cls = .metaChild) : d.text ≠ some [] ∧ nonBlank d.text = d.text := by
  have hm := n.kept.metas (by rw [n.cls_eq]; exact h)
  constructor
  · intro e
    obtain ⟨c, hc, _⟩ := hm [] e
    cases hc
  · unfold nonBlank
    cases hd : d.text with
    | none => simp
    | some t =>
      obtain ⟨c, hc, hs⟩ := hm t hd
      rw [if_neg]
      intro hb
      have := (blank_iff.1 hb) c hc
      rw [this] at hs; cases hs
end XNode

theorem read_attrs {d : Data} (ignore : List Str) (hi : ∀ k ∈ ignore, k = lit! "id" ∨ k = lit! "type")
    (hid : lit! "id" ∈ ignore) (ht : lit! "type" ∈ ignore ∨ d.type = none)
    (ha : ∀ p ∈ d.attrs, p.1 ≠ lit! "id" ∧ p.1 ≠ lit! "type") :
    (optAttr (lit! "id") d.id ++ optAttr (lit! "type") d.type ++ d.attrs).filter (fun p => !ignore.contains p.1) = d.attrs := by
  rw [List.filter_append, List.filter_append]
  have h1 : (optAttr (lit! "id") d.id).filter (fun p => !ignore.contains p.1) = [] := by
    cases d.id <;> simp [optAttr, hid]
  have h2 : (optAttr (lit! "type") d.type).filter (fun p => !ignore.contains p.1) = [] := by
    rcases ht with ht | ht
    · cases d.type <;> simp [optAttr, ht]
    · rw [ht]; rfl
  have h3 : d.attrs.filter (fun p => !ignore.contains p.1) = d.attrs := by
    rw [List.filter_eq_self]
    intro p hp
    have := ha p hp
    simp only [Bool.not_eq_true', List.contains_eq_mem, decide_eq_false_iff_not]
    intro hm
    rcases hi _ hm with h | h
    · exact this.1 h
    · exact this.2 h
  rw [h1, h2, h3]; rfl

theorem attrs_plain {m : Dict Str Str} {d : Data} (hk : XmlDataKept m d) : ∀ p ∈ d.attrs, p.1 ≠ lit! "id" ∧ p.1 ≠ lit! "type" := by
  intro p hp
  rcases (hk.attrs p.1 p.2 hp).2 with ⟨_, h2, h3, _⟩ | ⟨uri, key, he, _⟩
  · exact ⟨h2, h3⟩
  · rw [he]; exact ⟨qual_ne (by decide), qual_ne (by decide)⟩

theorem get?_id {d : Data} (ha : ∀ p ∈ d.attrs, p.1 ≠ lit! "id" ∧ p.1 ≠ lit! "type") :
    Dict.get? (optAttr (lit! "id") d.id ++ optAttr (lit! "type") d.type ++ d.attrs) (lit! "id") = d.id ∧
    Dict.get? (optAttr (lit! "id") d.id ++ optAttr (lit! "type") d.type ++ d.attrs) (lit! "type") = d.type := by
  have h : ∀ k, (∀ p ∈ d.attrs, p.1 ≠ k) → Dict.get? d.attrs k = none := by
    intro k hk
    rw [Dict.get?_eq_none_iff]
    intro hm
    obtain ⟨p, hp, he⟩ := List.mem_map.1 hm
    exact hk p hp he
  simp only [get?_append, h _ fun p hp => (ha p hp).1, h _ fun p hp => (ha p hp).2]
  cases d.id <;> cases d.type <;> simp [optAttr, Dict.get?]

/-- what the decoders read from a written element of a class other than MetaChild -/
theorem read_data {eff : Dict Str Str} {cls : Cls} {d : Data} {md kids : List Obj} (n : XNode eff cls d md kids)
    (hc : cls ≠ .metaChild) {tag : Str} (htag : tag.head? ≠ some '{') (sc : Dict Str Str) (text : Option Str) (ks : List PElem)
    (ignore : List Str) (hi : ∀ k ∈ ignore, k = lit! "id" ∨ k = lit! "type")
    (hid : lit! "id" ∈ ignore) (ht : lit! "type" ∈ ignore ∨ d.type = none) :
    xmlData cls ignore (some tag) (.mk tag (optAttr (lit! "id") d.id ++ optAttr (lit! "type") d.type ++ d.attrs) sc text ks) =
      .ok ⟨cls, d.id, d.type, d.attrs, d.ns, some sc, none, none⟩ := by
  have hq : qnameSplit tag = .ok (none, tag) := by
    unfold qnameSplit
    split
    · exact absurd rfl htag
    · rfl
  have ha := attrs_plain n.kept
  simp only [xmlData, PElem.tag, hq, bind, Except.bind, Option.all_some, decide_true, if_true, PElem.attrs, (get?_id ha).1, (get?_id ha).2,
    getAttrs, read_attrs ignore hi hid ht ha, PElem.nsmap, n.ns_none hc]
  rfl

/-- building and parsing a written element of a class other than MetaChild -/
theorem XNode.elem {scope eff : Dict Str Str} {cls : Cls} {d : Data} {md kids : List Obj} (n : XNode eff cls d md kids)
    (h : XCtx scope eff) (hc : cls ≠ .metaChild) {tag : Str} (htag : XmlLex.ncName tag = true)
    {text text' : Option Str} (ht : parseText text = .ok text')
    {ks : List Elem} {ks' : List PElem} (hks : parseElems (scopeIn d scope eff) ks = .ok ks') :
    ∃ e, buildElem tag d eff text ks = .ok e ∧
      parseElem scope e = .ok (.mk tag (optAttr (lit! "id") d.id ++ optAttr (lit! "type") d.type ++ d.attrs)
        (scopeIn d scope eff) text' ks') := by
  refine node_rt h n.nsmap_wf n.attrs_wf n.kept ht ?_ hks
  rw [xmlTag, n.ns_none hc, Option.bind_none, resolveName, splitOnce_none (XmlLex.no_colon _ htag)]
  simp [htag]

/-- children that survive, and have the given tag -/
theorem mapPy_xrt {build : Obj → Py Elem} {read : PElem → Py Obj} {f : Obj → Obj} {P : PElem → Prop} {scope : Dict Str Str} :
    ∀ {xs : List Obj}, (∀ x ∈ xs, ∃ e p, build x = .ok e ∧ parseElem scope e = .ok p ∧ P p ∧ read p = .ok (f x)) →
    ∃ es ps, mapPy build xs = .ok es ∧ mapPy (parseElem scope) es = .ok ps ∧ (∀ p ∈ ps, P p) ∧ mapPy read ps = .ok (xs.map f) := by
  intro xs
  induction xs with
  | nil => intro _; exact ⟨[], [], rfl, rfl, by simp, rfl⟩
  | cons x xs ih =>
    intro h
    obtain ⟨e, p, h1, h2, h3, h4⟩ := h x (by simp)
    obtain ⟨es, ps, i1, i2, i3, i4⟩ := ih fun y hy => h y (by simp [hy])
    refine ⟨e :: es, p :: ps, ?_, ?_, ?_, ?_⟩
    · simp only [mapPy, h1, i1, bind, Except.bind, pure, Except.pure]
    · simp only [mapPy, h2, i2, bind, Except.bind, pure, Except.pure]
    · intro q hq
      rcases List.mem_cons.1 hq with rfl | hq
      · exact h3
      · exact i3 q hq
    · simp only [mapPy, h4, i4, bind, Except.bind, pure, Except.pure, List.map_cons]

theorem mapPy_append {α β : Type} {f : α → Py β} {a b : List α} {a' b' : List β} (h1 : mapPy f a = .ok a') (h2 : mapPy f b = .ok b') :
    mapPy f (a ++ b) = .ok (a' ++ b') := by
  rw [mapPy_ok_iff] at h1 h2 ⊢
  induction h1 with
  | nil => exact h2
  | cons hx _ ih => exact .cons hx ih

/-- the last step for classes other than MetaChild -/
theorem x_construct {scope eff} {cls : Cls} {d : Data} {md kids : List Obj} (n : XNode eff cls d md kids)
    (hc1 : cls ≠ .metaChild) :
    construct ⟨cls, d.id, d.type, d.attrs, d.ns, some (scopeIn d scope eff), d.text, none⟩
      (md.map (xres (scopeIn d scope eff) (effNs d eff))) (kids.map (xres (scopeIn d scope eff) (effNs d eff))) =
    .ok (xres scope eff (.mk d md kids)) := by
  refine (construct_ok ?_ ?_ ?_ ?_).trans ?_
  · exact n.id_ok
  · intro m hm; cases hm
  · rw [ids_xres]; exact n.md_ids
  · rw [ids_xres]; exact n.kid_ids
  rw [xres_mk]
  have hname := n.name_none hc1
  have hcls := n.cls_eq
  clear n
  obtain ⟨cls, id, type, attrs, ns, nsmap, text, name⟩ := d
  simp only at hcls hname
  subst hcls hname
  rfl

theorem idtype_iff : ∀ k ∈ IDTYPE, k = lit! "id" ∨ k = lit! "type" := by
  intro k hk
  simpa [IDTYPE] using hk

theorem x_item {scope eff} (h : XCtx scope eff) {x : Obj} (hc : x.cls = .item) (hw : x.WF) (hv : x.Valid) (hk : XmlKept eff x) :
    ∃ e p, buildItem eff x = .ok e ∧ parseElem scope e = .ok p ∧ p.tag = lit! "item" ∧ readItem p = .ok (xres scope eff x) := by
  have n := XNode.of hc hw hv hk
  obtain ⟨d, md, kids⟩ := x
  simp only [Obj.data_mk, Obj.md_mk, Obj.kids_mk] at n
  have hmd := n.md_nil rfl
  have hkids : kids = [] := by
    cases kids with
    | nil => rfl
    | cons y ys => have := n.kids_cls y (by simp); cases this
  subst hmd hkids
  obtain ⟨e, h1, h2⟩ := n.elem h (by decide) (tag := lit! "item") (ncName_of (by simp)) (n.parse_text (n.kept.item n.cls_eq))
    (ks := []) (ks' := []) (by rw [parseElems])
  refine ⟨e, _, h1, h2, rfl, ?_⟩
  rw [readItem, read_data n (by decide) (by decide) _ _ _ IDTYPE idtype_iff (by simp [IDTYPE]) (.inl (by simp [IDTYPE]))]
  exact x_construct n (by decide)

theorem buildMcs_eq (eff : Dict Str Str) (xs : List Obj) : buildMcs eff xs = mapPy (buildMc eff) xs := by
  induction xs with
  | nil => simp [buildMcs, mapPy]
  | cons x xs ih => simp [buildMcs, mapPy, ih]

theorem x_mc : ∀ (x : Obj), x.cls = .metaChild → x.WF → x.Valid → ∀ {scope eff}, XCtx scope eff → XmlKept eff x →
    ∃ e p, buildMc eff x = .ok e ∧ parseElem scope e = .ok p ∧ True ∧ readMc p = .ok (xres scope eff x) := by
  refine Obj.ind fun d md kids _ ih hc hw hv scope eff h hk => ?_
  have n := XNode.of hc hw hv hk
  simp only [Obj.data_mk, Obj.md_mk, Obj.kids_mk] at n
  have hmd := n.md_nil rfl
  subst hmd
  have hs := h.step n.nsmap_wf n.kept
  obtain ⟨es, ps, k1, k2, _, k3⟩ := mapPy_xrt (build := buildMc (effNs d eff)) (read := readMc) (P := fun _ => True)
    (f := xres (scopeIn d scope eff) (effNs d eff)) (scope := scopeIn d scope eff) (xs := kids) (fun x hx => by
      have hcx := n.kids_cls x hx
      exact ih x hx (by injection hcx) (n.kids_wf x hx) (n.kids_valid x hx) hs (n.kept_kids x hx))
  obtain ⟨name, hname⟩ : ∃ m, d.name = some m := by
    have := n.wf
    cases this with
    | mk w1 w2 w3 => exact Option.isSome_iff_exists.1 (w3.2 n.cls_eq)
  obtain ⟨hid, htype, hnc, hnsd⟩ := n.kept.child n.cls_eq
  have hnc := hnc name hname
  have hcolon := XmlLex.no_colon _ hnc
  obtain ⟨ht1, ht2⟩ := n.text_meta (.inr rfl)
  have ha := attrs_plain n.kept
  obtain ⟨tag', htag, hq⟩ : ∃ tag', resolveName (scopeIn d scope eff) none (xmlTag (inverse (effNs d eff)) name d.ns) = .ok tag' ∧
      qnameSplit tag' = .ok (d.ns, name) := by
    cases hns : d.ns with
    | none =>
      refine ⟨name, ?_, ?_⟩
      · rw [xmlTag, Option.bind_none, resolveName, splitOnce_none hcolon]
        simp [hnc]
      · have := ncName_head hnc
        unfold qnameSplit
        split
        · exact absurd rfl this
        · rfl
    | some u =>
      obtain ⟨p, hp⟩ := hnsd u hns
      obtain ⟨q, hq⟩ := inverse_isSome hp
      have hqm := inverse_some hs.eff_wf hq
      obtain ⟨⟨g1, g2, g3⟩, gu⟩ := hs.good q u hqm
      refine ⟨qual u name, ?_, ?_⟩
      · rw [xmlTag, Option.bind_some, hq]
        simp only []
        rw [resolveName, splitOnce_some _ _ (XmlLex.no_colon _ g1)]
        simp [g1, hnc, g2, hs.sub q u hqm]
      · rw [qual, qnameSplit, splitOnce_some _ _ gu.2.1]
  obtain ⟨e, h1, h2⟩ := node_rt h n.nsmap_wf n.attrs_wf n.kept (n.parse_text ht1) htag (ks := es) (ks' := ps)
    (by rw [parseElems_eq]; exact k2)
  refine ⟨e, _, ?_, h2, trivial, ?_⟩
  · simp only [buildMc, buildMcs_eq, k1, bind, Except.bind, hname, Option.getD_some]
    exact h1
  · have hx : xmlData .metaChild IDTYPE none (.mk tag' (optAttr (lit! "id") d.id ++ optAttr (lit! "type") d.type ++ d.attrs)
        (scopeIn d scope eff) d.text ps) = .ok ⟨.metaChild, d.id, d.type, d.attrs, d.ns, some (scopeIn d scope eff), none, some name⟩ := by
      simp only [xmlData, PElem.tag, hq, bind, Except.bind, Option.all_none, if_true, PElem.attrs, (get?_id ha).1, (get?_id ha).2,
        getAttrs, read_attrs IDTYPE idtype_iff (by simp [IDTYPE]) (.inl (by simp [IDTYPE])) ha, PElem.nsmap]
      rfl
    simp only [readMc, hx, readMcs_eq, k3, bind, Except.bind, ht2]
    refine (construct_ok ?_ ?_ ?_ ?_).trans ?_
    · intro i hi; cases hi
    · intro m hm; cases hm; exact n.name_ok name hname
    · simp
    · rw [ids_xres]; exact n.kid_ids
    rw [xres_mk]
    have hcls := n.cls_eq
    clear n hx ha h1 h2 htag hq hs ht1 ht2 k1 k2 k3 hw hv hk hc
    obtain ⟨cls, id, type, attrs, ns, nsmap, text, name⟩ := d
    simp only at hcls hname hid htype
    subst hcls hname hid htype
    rfl

theorem x_meta {scope eff} (h : XCtx scope eff) {x : Obj} (hc : x.cls = .metaC) (hw : x.WF) (hv : x.Valid) (hk : XmlKept eff x) :
    ∃ e p, buildMeta eff x = .ok e ∧ parseElem scope e = .ok p ∧ p.tag = lit! "meta" ∧ readMeta p = .ok (xres scope eff x) := by
  have n := XNode.of hc hw hv hk
  obtain ⟨d, md, kids⟩ := x
  simp only [Obj.data_mk, Obj.md_mk, Obj.kids_mk] at n
  have hmd := n.md_nil rfl
  subst hmd
  have hs := h.step n.nsmap_wf n.kept
  obtain ⟨es, ps, k1, k2, _, k3⟩ := mapPy_xrt (build := buildMc (effNs d eff)) (read := readMc) (P := fun _ => True)
    (f := xres (scopeIn d scope eff) (effNs d eff)) (scope := scopeIn d scope eff) (xs := kids) (fun x hx => by
      have hcx := n.kids_cls x hx
      exact x_mc x (by injection hcx) (n.kids_wf x hx) (n.kids_valid x hx) hs (n.kept_kids x hx))
  obtain ⟨ht1, ht2⟩ := n.text_meta (.inl rfl)
  obtain ⟨e, h1, h2⟩ := n.elem h (by decide) (tag := lit! "meta") (ncName_of (by simp)) (n.parse_text ht1)
    (ks := es) (ks' := ps) (by rw [parseElems_eq]; exact k2)
  refine ⟨e, _, ?_, h2, rfl, ?_⟩
  · simp only [buildMeta, Obj.data_mk, Obj.kids_mk, buildMcs_eq, k1, bind, Except.bind]
    exact h1
  · simp only [readMeta, read_data n (by decide) (tag := lit! "meta") (by decide) _ _ _ IDTYPE idtype_iff (by simp [IDTYPE]) (.inl (by simp [IDTYPE])),
      bind, Except.bind, PElem.kids, PElem.text, readMcs_eq, k3, ht2]
    exact x_construct n (by decide)

theorem x_md {scope eff} (h : XCtx scope eff) {x : Obj} (hc : x.cls = .metadata) (hw : x.WF) (hv : x.Valid) (hk : XmlKept eff x) :
    ∃ e p, buildMd eff x = .ok e ∧ parseElem scope e = .ok p ∧ p.tag = lit! "metadata" ∧ readMd p = .ok (xres scope eff x) := by
  have n := XNode.of hc hw hv hk
  obtain ⟨d, md, kids⟩ := x
  simp only [Obj.data_mk, Obj.md_mk, Obj.kids_mk] at n
  have hmd := n.md_nil rfl
  subst hmd
  have hs := h.step n.nsmap_wf n.kept
  obtain ⟨es, ps, k1, k2, kt, k3⟩ := mapPy_xrt (build := buildMeta (effNs d eff)) (read := readMeta) (P := fun p => p.tag = lit! "meta")
    (f := xres (scopeIn d scope eff) (effNs d eff)) (scope := scopeIn d scope eff) (xs := kids) (fun x hx => by
      have hcx := n.kids_cls x hx
      exact x_meta hs (by injection hcx) (n.kids_wf x hx) (n.kids_valid x hx) (n.kept_kids x hx))
  obtain ⟨e, h1, h2⟩ := n.elem h (by decide) (tag := lit! "metadata") (ncName_of (by simp)) (text := none) (text' := none) rfl
    (ks := es) (ks' := ps) (by rw [parseElems_eq]; exact k2)
  refine ⟨e, _, ?_, h2, rfl, ?_⟩
  · simp only [buildMd, Obj.data_mk, Obj.kids_mk, k1, bind, Except.bind]
    exact h1
  · have hf : ps.filter (fun k => decide (k.tag = lit! "meta")) = ps := by
      rw [List.filter_eq_self]; intro p hp; simpa using kt p hp
    simp only [readMd, read_data n (by decide) (tag := lit! "metadata") (by decide) _ _ _ IDTYPE idtype_iff (by simp [IDTYPE]) (.inl (by simp [IDTYPE])),
      bind, Except.bind, findall, PElem.kids, hf, k3]
    have := x_construct (scope := scope) n (by decide)
    rw [n.text_none rfl] at this
    exact this

/-- metadata and contents of corpora, igts and tiers -/
theorem x_outer {scope eff} (h : XCtx scope eff) {cls : Cls} {d : Data} {md kids : List Obj} (n : XNode eff cls d md kids)
    (hc1 : cls ≠ .metaChild) {tag : Str} (htag : XmlLex.ncName tag = true) {ktag : Str} (hkt : ktag ≠ lit! "metadata")
    (buildK : Dict Str Str → Obj → Py Elem) (readK : PElem → Py Obj)
    (hK : ∀ x ∈ kids, ∀ scope, XCtx scope (effNs d eff) →
      ∃ e p, buildK (effNs d eff) x = .ok e ∧ parseElem scope e = .ok p ∧ p.tag = ktag ∧ readK p = .ok (xres scope (effNs d eff) x)) :
    ∃ ms ks e ps, mapPy (buildMd (effNs d eff)) md = .ok ms ∧ mapPy (buildK (effNs d eff)) kids = .ok ks ∧
      buildElem tag d eff none (ms ++ ks) = .ok e ∧
      parseElem scope e = .ok (.mk tag (optAttr (lit! "id") d.id ++ optAttr (lit! "type") d.type ++ d.attrs)
        (scopeIn d scope eff) none ps) ∧
      mapPy readMd (ps.filter fun k => k.tag = lit! "metadata") = .ok (md.map (xres (scopeIn d scope eff) (effNs d eff))) ∧
      mapPy readK (ps.filter fun k => k.tag = ktag) = .ok (kids.map (xres (scopeIn d scope eff) (effNs d eff))) := by
  have hs := h.step n.nsmap_wf n.kept
  obtain ⟨ms, pm, m1, m2, mt, m3⟩ := mapPy_xrt (build := buildMd (effNs d eff)) (read := readMd) (P := fun p => p.tag = lit! "metadata")
    (f := xres (scopeIn d scope eff) (effNs d eff)) (scope := scopeIn d scope eff) (xs := md) (fun x hx =>
      x_md hs (n.md_cls x hx) (n.md_wf x hx) (n.md_valid x hx) (n.kept_md x hx))
  obtain ⟨ks, pk, k1, k2, kt, k3⟩ := mapPy_xrt (build := buildK (effNs d eff)) (read := readK) (P := fun p => p.tag = ktag)
    (f := xres (scopeIn d scope eff) (effNs d eff)) (scope := scopeIn d scope eff) (xs := kids) (fun x hx => hK x hx _ hs)
  obtain ⟨e, h1, h2⟩ := n.elem h hc1 htag (text := none) (text' := none) rfl
    (ks := ms ++ ks) (ks' := pm ++ pk) (by rw [parseElems_eq]; exact mapPy_append m2 k2)
  refine ⟨ms, ks, e, pm ++ pk, m1, k1, h1, h2, ?_, ?_⟩
  · have f1 : pm.filter (fun k => decide (k.tag = lit! "metadata")) = pm := by
      rw [List.filter_eq_self]; intro p hp; simpa using mt p hp
    have f2 : pk.filter (fun k => decide (k.tag = lit! "metadata")) = [] := by
      rw [List.filter_eq_nil_iff]; intro p hp; rw [kt p hp]; simpa using hkt
    rw [List.filter_append, f1, f2, List.append_nil]
    exact m3
  · have f1 : pk.filter (fun k => decide (k.tag = ktag)) = pk := by
      rw [List.filter_eq_self]; intro p hp; simpa using kt p hp
    have f2 : pm.filter (fun k => decide (k.tag = ktag)) = [] := by
      rw [List.filter_eq_nil_iff]; intro p hp; rw [mt p hp]; simpa using fun e => hkt (e.symm)
    rw [List.filter_append, f1, f2, List.nil_append]
    exact k3

theorem x_tier {scope eff} (h : XCtx scope eff) {x : Obj} (hc : x.cls = .tier) (hw : x.WF) (hv : x.Valid) (hk : XmlKept eff x) :
    ∃ e p, buildTier eff x = .ok e ∧ parseElem scope e = .ok p ∧ p.tag = lit! "tier" ∧ readTier p = .ok (xres scope eff x) := by
  have n := XNode.of hc hw hv hk
  obtain ⟨d, md, kids⟩ := x
  simp only [Obj.data_mk, Obj.md_mk, Obj.kids_mk] at n
  obtain ⟨ms, ks, e, ps, m1, k1, h1, h2, r1, r2⟩ := x_outer h n (by decide) (tag := lit! "tier") (ncName_of (by simp))
    (ktag := lit! "item") (by decide) buildItem readItem (fun x hx scope hs => by
      have hcx := n.kids_cls x hx
      exact x_item hs (by injection hcx) (n.kids_wf x hx) (n.kids_valid x hx) (n.kept_kids x hx))
  refine ⟨e, _, ?_, h2, rfl, ?_⟩
  · simp only [buildTier, Obj.data_mk, Obj.md_mk, Obj.kids_mk, m1, k1, bind, Except.bind]
    exact h1
  · simp only [readTier, read_data n (by decide) (tag := lit! "tier") (by decide) _ _ _ IDTYPE idtype_iff (by simp [IDTYPE]) (.inl (by simp [IDTYPE])),
      bind, Except.bind, findall, PElem.kids, r1, r2]
    have := x_construct (scope := scope) n (by decide)
    rw [n.text_none rfl] at this
    exact this

theorem x_igt {scope eff} (h : XCtx scope eff) {x : Obj} (hc : x.cls = .igt) (hw : x.WF) (hv : x.Valid) (hk : XmlKept eff x) :
    ∃ e p, buildIgt eff x = .ok e ∧ parseElem scope e = .ok p ∧ p.tag = lit! "igt" ∧ readIgt p = .ok (xres scope eff x) := by
  have n := XNode.of hc hw hv hk
  obtain ⟨d, md, kids⟩ := x
  simp only [Obj.data_mk, Obj.md_mk, Obj.kids_mk] at n
  obtain ⟨ms, ks, e, ps, m1, k1, h1, h2, r1, r2⟩ := x_outer h n (by decide) (tag := lit! "igt") (ncName_of (by simp))
    (ktag := lit! "tier") (by decide) buildTier readTier (fun x hx scope hs => by
      have hcx := n.kids_cls x hx
      exact x_tier hs (by injection hcx) (n.kids_wf x hx) (n.kids_valid x hx) (n.kept_kids x hx))
  refine ⟨e, _, ?_, h2, rfl, ?_⟩
  · simp only [buildIgt, Obj.data_mk, Obj.md_mk, Obj.kids_mk, m1, k1, bind, Except.bind]
    exact h1
  · simp only [readIgt, read_data n (by decide) (tag := lit! "igt") (by decide) _ _ _ IDTYPE idtype_iff (by simp [IDTYPE]) (.inl (by simp [IDTYPE])),
      bind, Except.bind, findall, PElem.kids, r1, r2]
    have := x_construct (scope := scope) n (by decide)
    rw [n.text_none rfl] at this
    exact this

theorem x_corpus {x : Obj} (hc : x.cls = .corpus) (hw : x.WF) (hv : x.Valid) (hk : XmlKept [] x) :
    ∃ e p, buildCorpus x = .ok e ∧ parseElem [] e = .ok p ∧ p.tag = lit! "xigt-corpus" ∧ readCorpus p = .ok (xres [] [] x) := by
  have n := XNode.of hc hw hv hk
  obtain ⟨d, md, kids⟩ := x
  simp only [Obj.data_mk, Obj.md_mk, Obj.kids_mk] at n
  obtain ⟨ms, ks, e, ps, m1, k1, h1, h2, r1, r2⟩ := x_outer XCtx.top n (by decide) (tag := lit! "xigt-corpus") (ncName_of (by simp))
    (ktag := lit! "igt") (by decide) buildIgt readIgt (fun x hx scope hs => by
      have hcx := n.kids_cls x hx
      exact x_igt hs (by injection hcx) (n.kids_wf x hx) (n.kids_valid x hx) (n.kept_kids x hx))
  have htype := n.kept.corpus n.cls_eq
  refine ⟨e, _, ?_, h2, rfl, ?_⟩
  · simp only [buildCorpus, Obj.data_mk, Obj.md_mk, Obj.kids_mk, m1, k1, bind, Except.bind]
    exact h1
  · simp only [readCorpus, read_data n (by decide) (tag := lit! "xigt-corpus") (by decide) _ _ _ [lit! "id"] (by simp) (by simp) (.inr htype),
      bind, Except.bind, findall, PElem.kids, r1, r2]
    have := x_construct (scope := []) n (by decide)
    rw [n.text_none rfl, htype] at this
    exact this

end

/-! ### Examples and refutations -/

def asciiNameStart (c : Char) : Bool := c.isAlpha || c = '_'
def asciiNc : Str → Bool
  | [] => false
  | c :: cs => asciiNameStart c && cs.all fun c => c.isAlphanum || c = '_' || c = '-' || c = '.'

/-- names of ASCII characters -/
@[reducible] def asciiXml : XmlLex where
  ncName := asciiNc
  not_nil := rfl
  no_colon := by
    intro s h hm
    cases s with
    | nil => cases hm
    | cons c cs =>
      rw [asciiNc, Bool.and_eq_true] at h
      rcases List.mem_cons.1 hm with rfl | hm
      · exact absurd h.1 (by decide)
      · exact absurd (List.all_eq_true.1 h.2 _ hm) (by decide)
  no_brace := by
    intro s h hm
    cases s with
    | nil => cases hm
    | cons c cs =>
      rw [asciiNc, Bool.and_eq_true] at h
      rcases List.mem_cons.1 hm with rfl | hm
      · exact absurd h.1 (by decide)
      · exact absurd (List.all_eq_true.1 h.2 _ hm) (by decide)
  no_delim := by
    intro s h c hm
    cases hd : nameEnd c with
    | false => rfl
    | true =>
      exfalso
      cases s with
      | nil => cases hm
      | cons d ds =>
        rw [asciiNc, Bool.and_eq_true] at h
        simp only [nameEnd, List.contains_eq_mem, decide_eq_true_eq, List.mem_cons, List.not_mem_nil, or_false] at hd
        rcases List.mem_cons.1 hm with rfl | hm
        · have h := h.1
          rcases hd with rfl | rfl | rfl | rfl | rfl | rfl | rfl | rfl | rfl | rfl | rfl | rfl | rfl <;> exact absurd h (by decide)
        · have h := List.all_eq_true.1 h.2 _ hm
          rcases hd with rfl | rfl | rfl | rfl | rfl | rfl | rfl | rfl | rfl | rfl | rfl | rfl | rfl <;> exact absurd h (by decide)
  names := by decide

end Xigt
