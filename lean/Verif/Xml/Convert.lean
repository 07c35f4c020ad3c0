import Verif.Xml.Again
import Verif.Json.TextProps
/- C119: from XML to JSON and back. -/

set_option linter.unusedSectionVars false

namespace Xigt.Cnv

/-! ### Specification -/

/-- every object has the namespaces `m` (by itself or from its parent) and no empty type -/
inductive Uniform (m : Dict Str Str) : Obj → Prop
  | mk {d md kids} : (d.nsmap = none ∨ d.nsmap = some m) → d.type ≠ some [] → (∀ x ∈ md, Uniform m x) → (∀ x ∈ kids, Uniform m x) →
      Uniform m (.mk d md kids)

mutual
/-- the object with the declarations in another order -/
def setNs (m : Dict Str Str) : Obj → Obj
  | .mk d md kids => .mk { d with nsmap := d.nsmap.map fun _ => m } (setNsL m md) (setNsL m kids)
def setNsL (m : Dict Str Str) : List Obj → List Obj
  | [] => []
  | x :: xs => setNs m x :: setNsL m xs
end

/-- a corpus from JSON with the declarations `m`, in another order: the order in which JSON has them is that of a set
(xigtjson.py:189), which python does not determine -/
def withNs (m : Dict Str Str) (y : Obj) : Obj := .mk { y.data with nsmap := y.data.nsmap.map fun _ => m } y.md y.kids

/-- `m'` is `m` in another order, which may change the prefix of a namespace only if it has several -/
def Reord (m m' : Dict Str Str) : Prop := m' = m ∨ (m'.Perm m ∧ (m.map Prod.snd).Nodup)

/-! ### Names of attributes in JSON -/

section
variable [Uni] [XmlLex]

/-- the name under which an attribute is in JSON -/
def rkey (m : Dict Str Str) (k : Str) : Str := match jsonKey (inverse m) k with
  | .ok k' => k'
  | .error _ => k

/-- the declarations are fit for XML -/
def Good (m : Dict Str Str) : Prop := m.WF ∧ ∀ p u, Dict.get? m p = some u → PrefixOK p ∧ UriOK u

/-- what JSON does to a name, and XML to what comes out -/
structure RKey (m : Dict Str Str) (k : Str) : Prop where
  json : jsonKey (inverse m) k = .ok (rkey m k)
  kept : KeyKept (Dict.get? m) (rkey m k)
  xml : xmlKey (inverse m) (rkey m k) = xmlKey (inverse m) k
  wk : wkey (inverse m) (rkey m k) = wkey (inverse m) k

theorem jsonKey_plain {rev : Dict Str Str} {k : Str} (h : k.head? ≠ some '{') : jsonKey rev k = .ok k := by
  unfold jsonKey
  split
  · exact absurd rfl h
  · rfl

theorem keyKept_plain {P : Str → Option Str} {k : Str} (h : k.head? ≠ some '{') : KeyKept P k := by
  rintro r rfl
  exact absurd rfl h

theorem rkey_ok {m : Dict Str Str} (hm : Good m) {k : Str} (h : AttrKept m k) : RKey m k := by
  rcases h with ⟨h1, h2, h3, h4⟩ | ⟨uri, key, rfl, hkey, hu⟩
  · have hh := ncName_head h1
    have e := jsonKey_plain (rev := inverse m) hh
    have er : rkey m k = k := by rw [rkey, e]
    exact ⟨by rw [er, e], by rw [er]; exact keyKept_plain hh, by rw [er], by rw [er]⟩
  · have hne : uri ≠ [] ∧ '}' ∉ uri := by
      rcases hu with rfl | ⟨p, hp⟩
      · exact ⟨by decide, by decide⟩
      · have := (hm.2 p uri hp).2
        exact ⟨this.2.2.1, this.2.1⟩
    have hs : splitOnce '}' (uri ++ '}' :: key) = some (uri, key) := splitOnce_some _ _ hne.2
    cases hi : Dict.get? (inverse m) uri with
    | some pre =>
      have hg := (hm.2 pre uri (inverse_some hm.1 hi)).1
      have e : jsonKey (inverse m) (qual uri key) = .ok (pre ++ ':' :: key) := by
        rw [qual, jsonKey, hs]; simp only [hi]
      have er : rkey m (qual uri key) = pre ++ ':' :: key := by rw [rkey, e]
      have hh : (pre ++ ':' :: key).head? ≠ some '{' := by
        cases pre with
        | nil => simp
        | cons c pre =>
          have := ncName_head hg.1
          simpa using this
      refine ⟨by rw [er, e], by rw [er]; exact keyKept_plain hh, ?_, ?_⟩
      · rw [er, (wkey_plain hh).2, qual, xmlKey, hs]
        simp only [if_neg hne.1, hi]
      · rw [er, (wkey_plain hh).1, qual, wkey, hs]
        simp only [hi, Option.getD_some]
    | none =>
      have e : jsonKey (inverse m) (qual uri key) = .ok (qual uri key) := by
        rw [qual, jsonKey, hs]; simp only [hi]
      have er : rkey m (qual uri key) = qual uri key := by rw [rkey, e]
      refine ⟨by rw [er, e], ?_, by rw [er], by rw [er]⟩
      rw [er]
      intro r hr
      cases hr
      refine ⟨uri, key, rfl, hne.2, fun p hp => ?_⟩
      obtain ⟨q, hq⟩ := inverse_isSome hp
      rw [hq] at hi; cases hi

theorem rkey_inj {m : Dict Str Str} (hm : Good m) {k k' : Str} (h : AttrKept m k) (h' : AttrKept m k') (e : rkey m k = rkey m k') : k = k' :=
  (keyOK (scope := m) hm.1 (fun _ _ h => h) hm.2 h).inj (keyOK (scope := m) hm.1 (fun _ _ h => h) hm.2 h')
    (by rw [← (rkey_ok hm h).wk, ← (rkey_ok hm h').wk, e])

/-- attributes with these names -/
def renA (m attrs : Dict Str Str) : Dict Str Str := attrs.map fun p => (rkey m p.1, p.2)

theorem renA_json {m : Dict Str Str} (hm : Good m) : ∀ (l acc : Dict Str Str), (∀ p ∈ l, AttrKept m p.1) →
    jsonAttrs (inverse m) acc (renA m l) = jsonAttrs (inverse m) acc l := by
  intro l
  induction l with
  | nil => intro _ _; rfl
  | cons p l ih =>
    intro acc h
    have hk := rkey_ok hm (h p (by simp))
    have e : jsonKey (inverse m) (rkey m p.1) = .ok (rkey m p.1) := jsonKey_kept hm.1 hk.kept
    obtain ⟨k, v⟩ := p
    have ih := fun acc => ih acc fun p hp => h p (by simp [hp])
    simp only [renA] at ih
    simp only [renA, List.map_cons, jsonAttrs, e, hk.json, bind, Except.bind, ih]

theorem renA_xml {m : Dict Str Str} (hm : Good m) : ∀ (l acc : Dict Str Str), (∀ p ∈ l, AttrKept m p.1) →
    xmlAttrs (inverse m) acc (renA m l) = xmlAttrs (inverse m) acc l := by
  intro l
  induction l with
  | nil => intro _ _; rfl
  | cons p l ih =>
    intro acc h
    have hk := rkey_ok hm (h p (by simp))
    obtain ⟨k, v⟩ := p
    have ih := fun acc => ih acc fun p hp => h p (by simp [hp])
    simp only [renA] at ih
    simp only [renA, List.map_cons, xmlAttrs, hk.xml, bind, Except.bind, ih]

mutual
/-- the object with these names of attributes -/
def ren (m : Dict Str Str) : Obj → Obj
  | .mk d md kids => .mk { d with attrs := renA m d.attrs } (renL m md) (renL m kids)
def renL (m : Dict Str Str) : List Obj → List Obj
  | [] => []
  | x :: xs => ren m x :: renL m xs
end

theorem renL_eq (m : Dict Str Str) (xs : List Obj) : renL m xs = xs.map (ren m) := by
  induction xs with
  | nil => simp [renL]
  | cons x xs ih => simp [renL, ih]

theorem ren_mk (m : Dict Str Str) (d md kids) : ren m (.mk d md kids) = .mk { d with attrs := renA m d.attrs } (md.map (ren m)) (kids.map (ren m)) := by
  rw [ren, renL_eq, renL_eq]

theorem ren_cls (m : Dict Str Str) (x : Obj) : (ren m x).cls = x.cls := by cases x; rw [ren_mk]; rfl
theorem ren_id (m : Dict Str Str) (x : Obj) : (ren m x).data.id = x.data.id := by cases x; rw [ren_mk]; rfl

theorem ids_ren (m : Dict Str Str) (xs : List Obj) :
    ((xs.map (ren m)).filterMap fun x => x.data.id) = xs.filterMap fun x => x.data.id := by
  rw [List.filterMap_map]
  congr 1
  funext x
  exact ren_id m x

/-- what is needed of each object: `e` is the namespace map of the parent, and everything is in the map `m` -/
structure Fit (m : Dict Str Str) (d : Data) : Prop where
  ns : d.nsmap = none ∨ d.nsmap = some m
  type : d.type ≠ some []
  kept : XmlDataKept m d

inductive FitAll (m : Dict Str Str) : Obj → Prop
  | mk {d md kids} : Fit m d → (∀ x ∈ md, FitAll m x) → (∀ x ∈ kids, FitAll m x) → FitAll m (.mk d md kids)

theorem fitAll {m : Dict Str Str} : ∀ (x : Obj), Uniform m x → XmlKept m x → FitAll m x := by
  refine Obj.ind fun d md kids h1 h2 hu hk => ?_
  cases hu with
  | mk u1 u2 u3 u4 =>
    cases hk with
    | mk k1 k2 k3 =>
      have e : d.nsmap.getD m = m := by rcases u1 with h | h <;> simp [h]
      rw [e] at k1 k2 k3
      exact .mk ⟨u1, u2, k1⟩ (fun x hx => h1 x hx (u3 x hx) (k2 x hx)) fun x hx => h2 x hx (u4 x hx) (k3 x hx)

theorem ren_wf {m : Dict Str Str} (hm : Good m) : ∀ (x : Obj), x.WF → FitAll m x → (ren m x).WF := by
  refine Obj.ind fun d md kids h1 h2 hw hf => ?_
  cases hw with
  | mk w1 w2 w3 w4 w5 w6 w7 w8 =>
    cases hf with
    | mk f1 f2 f3 =>
      rw [ren_mk]
      refine .mk ?_ w2 w3 (fun h => by simp [w4 h]) ?_ ?_ ?_ ?_
      · show Dict.WF (renA m d.attrs)
        unfold Dict.WF Dict.keys renA
        rw [List.map_map]
        have : (d.attrs.map Prod.fst).Nodup := w1
        rw [show (Prod.fst ∘ fun p : Str × Str => (rkey m p.1, p.2)) = rkey m ∘ Prod.fst from rfl, ← List.map_map]
        refine nodup_map_on (fun a ha b hb he => ?_) this
        obtain ⟨p, hp, rfl⟩ := List.mem_map.1 ha
        obtain ⟨q, hq, rfl⟩ := List.mem_map.1 hb
        exact rkey_inj hm (f1.kept.attrs p.1 p.2 hp).2 (f1.kept.attrs q.1 q.2 hq).2 he
      · intro x hx
        obtain ⟨y, hy, rfl⟩ := List.mem_map.1 hx
        rw [ren_cls]; exact w5 y hy
      · intro x hx
        obtain ⟨y, hy, rfl⟩ := List.mem_map.1 hx
        rw [ren_cls]; exact w6 y hy
      · intro x hx
        obtain ⟨y, hy, rfl⟩ := List.mem_map.1 hx
        exact h1 y hy (w7 y hy) (f2 y hy)
      · intro x hx
        obtain ⟨y, hy, rfl⟩ := List.mem_map.1 hx
        exact h2 y hy (w8 y hy) (f3 y hy)

theorem ren_valid {m : Dict Str Str} : ∀ (x : Obj), x.Valid → (ren m x).Valid := by
  refine Obj.ind fun d md kids h1 h2 hv => ?_
  cases hv with
  | mk v1 v2 v3 v4 v5 v6 v7 =>
    rw [ren_mk]
    refine .mk v1 v2 (by rw [ids_ren]; exact v3) (by rw [ids_ren]; exact v4) v5 ?_ ?_
    · intro x hx
      obtain ⟨y, hy, rfl⟩ := List.mem_map.1 hx
      exact h1 y hy (v6 y hy)
    · intro x hx
      obtain ⟨y, hy, rfl⟩ := List.mem_map.1 hx
      exact h2 y hy (v7 y hy)

/-- inside an object with the map `m`, or none, where `m` or nothing is in scope -/
theorem inner_uniform {m : Dict Str Str} {own : Option (Dict Str Str)} {scope : Str → Option Str} (h : own = none ∨ own = some m)
    (hs : scope = Dict.get? m ∨ (scope = noScope ∧ (own = none → m = []))) : inner own scope = Dict.get? m := by
  funext p
  rcases h with rfl | rfl
  · rcases hs with rfl | ⟨rfl, hs⟩
    · rfl
    · rw [hs rfl]; rfl
  · rcases hs with rfl | ⟨rfl, hs⟩ <;> simp only [inner] <;> cases Dict.get? m p <;> rfl

theorem ren_kept {m : Dict Str Str} (hm : Good m) : ∀ (x : Obj), FitAll m x → ∀ scope : Str → Option Str,
    (scope = Dict.get? m ∨ (scope = noScope ∧ (x.data.nsmap = none → m = []))) → JsonKept scope (ren m x) := by
  refine Obj.ind fun d md kids h1 h2 hf scope hs => ?_
  cases hf with
  | mk f1 f2 f3 =>
    have hin : inner d.nsmap scope = Dict.get? m := inner_uniform f1.ns hs
    rw [ren_mk]
    refine .mk ?_ ?_ ?_
    · show DataKept (inner d.nsmap scope) _
      rw [hin]
      refine ⟨f1.type, ?_, f1.kept.corpus, f1.kept.item, ?_, ?_⟩
      · intro hn
        by_cases hc : d.cls = .metaChild
        · obtain ⟨p, hp⟩ := (f1.kept.child hc).2.2.2 [] hn
          exact (hm.2 p [] hp).2.2.2.1 rfl
        · rw [show d.ns = none from f1.kept.ns hc] at hn
          cases hn
      · intro k v hkv
        obtain ⟨p, hp, he⟩ := List.mem_map.1 hkv
        cases he
        exact (rkey_ok hm (f1.kept.attrs p.1 p.2 hp).2).kept
      · intro hc
        obtain ⟨c1, c2, -, c4⟩ := f1.kept.child hc
        exact ⟨c1, c2, fun u hu => ⟨fun p hp => XmlLex.no_colon _ (hm.2 p u hp).1.1, .inl (c4 u hu)⟩⟩
    · intro x hx
      obtain ⟨y, hy, rfl⟩ := List.mem_map.1 hx
      exact h1 y hy (f2 y hy) _ (.inl hin)
    · intro x hx
      obtain ⟨y, hy, rfl⟩ := List.mem_map.1 hx
      exact h2 y hy (f3 y hy) _ (.inl hin)

/-! ### JSON is the same -/

theorem Fit.eff {m : Dict Str Str} {d : Data} (h : Fit m d) : effNs d m = m := by
  rcases h.ns with h | h <;> simp [effNs, h]

theorem Fit.active {m : Dict Str Str} (hm : m.WF) {d : Data} (h : Fit m d) : activeNs d m m = m := by
  rw [activeNs, h.eff, update_self hm]

theorem ren_makeObj {m : Dict Str Str} (hm : Good m) {d : Data} (h : Fit m d) {eff ctx : Dict Str Str} (ha : activeNs d eff ctx = m) :
    makeObj { d with attrs := renA m d.attrs } eff ctx = makeObj d eff ctx := by
  have e : activeNs { d with attrs := renA m d.attrs } eff ctx = m := ha
  have e2 : (renA m d.attrs).isEmpty = d.attrs.isEmpty := by rw [renA]; cases d.attrs <;> rfl
  simp only [makeObj, e, ha, renA_json hm d.attrs [] (fun p hp => (h.kept.attrs p.1 p.2 hp).2), e2]

theorem mapPy_congr {α β : Type} {f g : α → Py β} : ∀ {l : List α}, (∀ x ∈ l, f x = g x) → mapPy f l = mapPy g l := by
  intro l
  induction l with
  | nil => intro _; rfl
  | cons a l ih =>
    intro h
    simp only [mapPy, h a (by simp), ih fun x hx => h x (by simp [hx])]

theorem mapPy_map {α β γ : Type} {f : β → Py γ} {g : α → β} : ∀ (l : List α), mapPy f (l.map g) = mapPy (fun x => f (g x)) l := by
  intro l
  induction l with
  | nil => rfl
  | cons a l ih => simp only [List.map_cons, mapPy, ih]

theorem encodeMcs_mapPy (eff ctx : Dict Str Str) (xs : List Obj) : encodeMcs eff ctx xs = mapPy (encodeMc eff ctx) xs := by
  induction xs with
  | nil => rfl
  | cons x xs ih => simp only [encodeMcs, mapPy, ih]

section
variable {m : Dict Str Str} (hm : Good m)
include hm

theorem ren_mc : ∀ (x : Obj), FitAll m x → encodeMc m m (ren m x) = encodeMc m m x := by
  refine Obj.ind fun d md kids _ h2 hf => ?_
  cases hf with
  | mk f1 f2 f3 =>
    have e1 : effNs { d with attrs := renA m d.attrs } m = m := f1.eff
    have e2 : activeNs { d with attrs := renA m d.attrs } m m = m := f1.active hm.1
    rw [ren_mk, encodeMc, encodeMc, ren_makeObj hm f1 (f1.active hm.1), e1, e2, f1.eff, f1.active hm.1, encodeMcs_mapPy, encodeMcs_mapPy, mapPy_map,
      mapPy_congr fun x hx => h2 x hx (f3 x hx)]

theorem ren_meta (x : Obj) (hf : FitAll m x) : encodeMeta m m (ren m x) = encodeMeta m m x := by
  cases hf with
  | @mk d md kids f1 f2 f3 =>
    have e1 : effNs { d with attrs := renA m d.attrs } m = m := f1.eff
    have e2 : activeNs { d with attrs := renA m d.attrs } m m = m := f1.active hm.1
    rw [ren_mk]
    simp only [encodeMeta, Obj.data_mk, Obj.kids_mk, ren_makeObj hm f1 (f1.active hm.1), e1, e2, f1.eff, f1.active hm.1, encodeMcs_mapPy, mapPy_map,
      mapPy_congr fun x hx => ren_mc hm x (f3 x hx)]

theorem ren_md (x : Obj) (hf : FitAll m x) : encodeMd m m (ren m x) = encodeMd m m x := by
  cases hf with
  | @mk d md kids f1 f2 f3 =>
    have e1 : effNs { d with attrs := renA m d.attrs } m = m := f1.eff
    have e2 : activeNs { d with attrs := renA m d.attrs } m m = m := f1.active hm.1
    rw [ren_mk]
    simp only [encodeMd, Obj.data_mk, Obj.kids_mk, ren_makeObj hm f1 (f1.active hm.1), e1, e2, f1.eff, f1.active hm.1, mapPy_map,
      mapPy_congr fun x hx => ren_meta hm x (f3 x hx)]

theorem ren_item (x : Obj) (hf : FitAll m x) : encodeItem m m (ren m x) = encodeItem m m x := by
  cases hf with
  | @mk d md kids f1 f2 f3 =>
    rw [ren_mk]
    simp only [encodeItem, Obj.data_mk, ren_makeObj hm f1 (f1.active hm.1)]

theorem ren_tier (x : Obj) (hf : FitAll m x) : encodeTier m m (ren m x) = encodeTier m m x := by
  cases hf with
  | @mk d md kids f1 f2 f3 =>
    have e1 : effNs { d with attrs := renA m d.attrs } m = m := f1.eff
    have e2 : activeNs { d with attrs := renA m d.attrs } m m = m := f1.active hm.1
    rw [ren_mk]
    simp only [encodeTier, Obj.data_mk, Obj.kids_mk, Obj.md_mk, ren_makeObj hm f1 (f1.active hm.1), e1, e2, f1.eff, f1.active hm.1, mapPy_map,
      mapPy_congr fun x hx => ren_md hm x (f2 x hx), mapPy_congr fun x hx => ren_item hm x (f3 x hx)]

theorem ren_igt (x : Obj) (hf : FitAll m x) : encodeIgt m m (ren m x) = encodeIgt m m x := by
  cases hf with
  | @mk d md kids f1 f2 f3 =>
    have e1 : effNs { d with attrs := renA m d.attrs } m = m := f1.eff
    have e2 : activeNs { d with attrs := renA m d.attrs } m m = m := f1.active hm.1
    rw [ren_mk]
    simp only [encodeIgt, Obj.data_mk, Obj.kids_mk, Obj.md_mk, ren_makeObj hm f1 (f1.active hm.1), e1, e2, f1.eff, f1.active hm.1, mapPy_map,
      mapPy_congr fun x hx => ren_md hm x (f2 x hx), mapPy_congr fun x hx => ren_tier hm x (f3 x hx)]

theorem ren_corpus (x : Obj) (hf : FitAll m x) (h0 : x.data.nsmap.getD [] = m) : encodeCorpus (ren m x) = encodeCorpus x := by
  cases hf with
  | @mk d md kids f1 f2 f3 =>
    have g1 : effNs d [] = m := h0
    have g2 : activeNs d [] [] = m := by rw [activeNs, g1, update_nil hm.1]
    have e1 : effNs { d with attrs := renA m d.attrs } [] = m := g1
    have e2 : activeNs { d with attrs := renA m d.attrs } [] [] = m := g2
    rw [ren_mk]
    simp only [encodeCorpus, Obj.data_mk, Obj.kids_mk, Obj.md_mk, ren_makeObj hm f1 g2, e1, e2, g1, g2, mapPy_map,
      mapPy_congr fun x hx => ren_md hm x (f2 x hx), mapPy_congr fun x hx => ren_igt hm x (f3 x hx)]

/-! ### XML is the same -/

/-- what JSON makes of the objects inside -/
theorem jres_ren {d : Data} {md kids : List Obj} (f : Fit m d) :
    jres m m (ren m (.mk d md kids)) = .mk { d with attrs := renA m d.attrs, nsmap := none } (md.map fun x => jres m m (ren m x)) (kids.map fun x => jres m m (ren m x)) := by
  have e1 : effNs { d with attrs := renA m d.attrs } m = m := f.eff
  have e2 : activeNs { d with attrs := renA m d.attrs } m m = m := f.active hm.1
  have e3 : newNs m m = [] := by
    rw [newNs, List.filter_eq_nil_iff]
    intro a ha; simp [ha]
  rw [ren_mk, jres_mk, e1, e2, e3, List.map_map, List.map_map]
  rfl

theorem xml_elem {d : Data} (f : Fit m d) (tag : Str) (text : Option Str) (kids : List Elem) :
    buildElem tag { d with attrs := renA m d.attrs, nsmap := none } m text kids = buildElem tag d m text kids := by
  have e : effNs { d with attrs := renA m d.attrs, nsmap := none } m = m := rfl
  simp only [buildElem, e, f.eff, renA_xml hm d.attrs _ (fun p hp => (f.kept.attrs p.1 p.2 hp).2)]

theorem xml_mc : ∀ (x : Obj), FitAll m x → buildMc m (jres m m (ren m x)) = buildMc m x := by
  refine Obj.ind fun d md kids _ h2 hf => ?_
  cases hf with
  | mk f1 f2 f3 =>
    have e : effNs { d with attrs := renA m d.attrs, nsmap := none } m = m := rfl
    rw [jres_ren hm f1, buildMc, buildMc, e, f1.eff, buildMcs_eq, buildMcs_eq, mapPy_map, mapPy_congr fun x hx => h2 x hx (f3 x hx)]
    simp only [xml_elem hm f1]

theorem xml_meta (x : Obj) (hf : FitAll m x) : buildMeta m (jres m m (ren m x)) = buildMeta m x := by
  cases hf with
  | @mk d md kids f1 f2 f3 =>
    have e : effNs { d with attrs := renA m d.attrs, nsmap := none } m = m := rfl
    rw [jres_ren hm f1]
    simp only [buildMeta, Obj.data_mk, Obj.kids_mk, e, f1.eff, buildMcs_eq, mapPy_map, mapPy_congr fun x hx => xml_mc hm x (f3 x hx), xml_elem hm f1]

theorem xml_md (x : Obj) (hf : FitAll m x) : buildMd m (jres m m (ren m x)) = buildMd m x := by
  cases hf with
  | @mk d md kids f1 f2 f3 =>
    have e : effNs { d with attrs := renA m d.attrs, nsmap := none } m = m := rfl
    rw [jres_ren hm f1]
    simp only [buildMd, Obj.data_mk, Obj.kids_mk, e, f1.eff, mapPy_map, mapPy_congr fun x hx => xml_meta hm x (f3 x hx), xml_elem hm f1]

theorem xml_item (x : Obj) (hf : FitAll m x) : buildItem m (jres m m (ren m x)) = buildItem m x := by
  cases hf with
  | @mk d md kids f1 f2 f3 =>
    rw [jres_ren hm f1]
    simp only [buildItem, Obj.data_mk, xml_elem hm f1]

theorem xml_tier (x : Obj) (hf : FitAll m x) : buildTier m (jres m m (ren m x)) = buildTier m x := by
  cases hf with
  | @mk d md kids f1 f2 f3 =>
    have e : effNs { d with attrs := renA m d.attrs, nsmap := none } m = m := rfl
    rw [jres_ren hm f1]
    simp only [buildTier, Obj.data_mk, Obj.md_mk, Obj.kids_mk, e, f1.eff, mapPy_map, mapPy_congr fun x hx => xml_md hm x (f2 x hx),
      mapPy_congr fun x hx => xml_item hm x (f3 x hx), xml_elem hm f1]

theorem xml_igt (x : Obj) (hf : FitAll m x) : buildIgt m (jres m m (ren m x)) = buildIgt m x := by
  cases hf with
  | @mk d md kids f1 f2 f3 =>
    have e : effNs { d with attrs := renA m d.attrs, nsmap := none } m = m := rfl
    rw [jres_ren hm f1]
    simp only [buildIgt, Obj.data_mk, Obj.md_mk, Obj.kids_mk, e, f1.eff, mapPy_map, mapPy_congr fun x hx => xml_md hm x (f2 x hx),
      mapPy_congr fun x hx => xml_tier hm x (f3 x hx), xml_elem hm f1]

theorem xml_corpus (x : Obj) (hf : FitAll m x) (h0 : x.data.nsmap.getD [] = m) : buildCorpus (jres [] [] (ren m x)) = buildCorpus x := by
  cases hf with
  | @mk d md kids f1 f2 f3 =>
    have g1 : effNs d [] = m := h0
    have g2 : activeNs d [] [] = m := by rw [activeNs, g1, update_nil hm.1]
    have e1 : effNs { d with attrs := renA m d.attrs } [] = m := g1
    have e2 : activeNs { d with attrs := renA m d.attrs } [] [] = m := g2
    have e3 : newNs m [] = m := by
      rw [newNs, List.filter_eq_self]
      intro a _; simp
    have e4 : effNs { d with attrs := renA m d.attrs, nsmap := decNs m } [] = m := decNs_getD m
    rw [ren_mk, jres_mk, e1, e2, e3]
    simp only [buildCorpus, Obj.data_mk, Obj.md_mk, Obj.kids_mk, e4, g1, mapPy_map, mapPy_congr fun x hx => xml_md hm x (f2 x hx),
      mapPy_congr fun x hx => xml_igt hm x (f3 x hx), buildElem, renA_xml hm d.attrs _ (fun p hp => (f1.kept.attrs p.1 p.2 hp).2)]

end

/-! ### The order of declarations -/

theorem setNsL_eq (m : Dict Str Str) (xs : List Obj) : setNsL m xs = xs.map (setNs m) := by
  induction xs with
  | nil => simp [setNsL]
  | cons x xs ih => simp [setNsL, ih]

theorem setNs_mk (m : Dict Str Str) (d md kids) :
    setNs m (.mk d md kids) = .mk { d with nsmap := d.nsmap.map fun _ => m } (md.map (setNs m)) (kids.map (setNs m)) := by
  rw [setNs, setNsL_eq, setNsL_eq]

theorem setNs_cls (m : Dict Str Str) (x : Obj) : (setNs m x).cls = x.cls := by cases x; rw [setNs_mk]; rfl
theorem setNs_id (m : Dict Str Str) (x : Obj) : (setNs m x).data.id = x.data.id := by cases x; rw [setNs_mk]; rfl
theorem ids_setNs (m : Dict Str Str) (xs : List Obj) :
    ((xs.map (setNs m)).filterMap fun x => x.data.id) = xs.filterMap fun x => x.data.id := by
  rw [List.filterMap_map]
  congr 1
  funext x
  exact setNs_id m x

section
variable {m m' : Dict Str Str} (hr : Reord m m') (hm : m.WF)
include hr

omit hr in
theorem inj_of_nodup_map {α β : Type} {f : α → β} : ∀ {l : List α}, (l.map f).Nodup → ∀ {a b : α}, a ∈ l → b ∈ l → f a = f b → a = b := by
  intro l
  induction l with
  | nil => intro _ a _ ha; cases ha
  | cons c l ih =>
    intro h a b ha hb e
    rw [List.map_cons, List.nodup_cons] at h
    rcases List.mem_cons.1 ha with h1 | h1 <;> rcases List.mem_cons.1 hb with h2 | h2
    · rw [h1, h2]
    · exact absurd (List.mem_map.2 ⟨b, h2, by rw [← e, h1]⟩) h.1
    · exact absurd (List.mem_map.2 ⟨a, h1, by rw [e, h2]⟩) h.1
    · exact ih h.2 h1 h2 e

theorem Reord.perm : m'.Perm m := by
  rcases hr with rfl | h
  · exact List.Perm.refl _
  · exact h.1

include hm

theorem Reord.wf : m'.WF := by
  have := (hr.perm.map Prod.fst).nodup_iff
  exact this.2 hm

theorem Reord.get (p : Str) : Dict.get? m' p = Dict.get? m p := by
  cases h : Dict.get? m p with
  | some u => exact Dict.get?_of_mem (hr.wf hm) (hr.perm.mem_iff.2 (Dict.get?_mem h))
  | none =>
    cases h' : Dict.get? m' p with
    | none => rfl
    | some u => rw [Dict.get?_of_mem hm (hr.perm.mem_iff.1 (Dict.get?_mem h'))] at h; cases h

theorem Reord.inv (u : Str) : Dict.get? (inverse m') u = Dict.get? (inverse m) u := by
  rcases id hr with rfl | ⟨-, hn⟩
  · rfl
  · have uniq : ∀ p q, Dict.get? m p = some u → Dict.get? m q = some u → p = q := by
      intro p q hp hq
      have hp := Dict.get?_mem hp
      have hq := Dict.get?_mem hq
      exact congrArg Prod.fst (inj_of_nodup_map hn hp hq rfl)
    cases h : Dict.get? (inverse m) u with
    | some p =>
      have hp := inverse_some hm h
      obtain ⟨q, hq⟩ := inverse_isSome (m := m') (p := p) (u := u) (by rw [hr.get hm]; exact hp)
      have := inverse_some (hr.wf hm) hq
      rw [hr.get hm] at this
      rw [hq, uniq p q hp this]
    | none =>
      refine inverse_none (fun p hp => ?_) (hr.wf hm)
      rw [hr.get hm] at hp
      obtain ⟨q, hq⟩ := inverse_isSome hp
      rw [hq] at h; cases h

theorem Reord.rkey (k : Str) : rkey m' k = rkey m k := by
  have : jsonKey (inverse m') k = jsonKey (inverse m) k := by
    unfold jsonKey
    split
    · split
      · rfl
      · simp only [hr.inv hm]
    · rfl
  rw [Cnv.rkey, Cnv.rkey, this]

theorem Reord.kept {d : Data} (h : XmlDataKept m d) (hn : d.nsmap = none ∨ d.nsmap = some m) :
    XmlDataKept m' { d with nsmap := d.nsmap.map fun _ => m' } := by
  refine ⟨?_, h.ns, ?_, h.corpus, h.item, h.metas, h.text, h.id, h.type, ?_⟩
  · intro own ho p u hp
    rcases hn with hn | hn
    · simp [hn] at ho
    · simp only [hn, Option.map_some, Option.some.injEq] at ho
      subst ho
      exact h.decls m hn p u (hr.perm.mem_iff.1 hp)
  · intro hc
    obtain ⟨c1, c2, c3, c4⟩ := h.child hc
    refine ⟨c1, c2, c3, fun u hu => ?_⟩
    obtain ⟨p, hp⟩ := c4 u hu
    exact ⟨p, by rw [hr.get hm]; exact hp⟩
  · intro k v hkv
    obtain ⟨a1, a2⟩ := h.attrs k v hkv
    refine ⟨a1, ?_⟩
    rcases a2 with a2 | ⟨uri, key, e, e1, e2⟩
    · exact .inl a2
    · refine .inr ⟨uri, key, e, e1, ?_⟩
      rcases e2 with e2 | ⟨p, hp⟩
      · exact .inl e2
      · exact .inr ⟨p, by rw [hr.get hm]; exact hp⟩

theorem setNs_fit : ∀ x : Obj, FitAll m x → FitAll m' (setNs m' x) := by
  refine Obj.ind fun d md kids h1 h2 hf => ?_
  cases hf with
  | mk f1 f2 f3 =>
    rw [setNs_mk]
    refine .mk ⟨?_, f1.type, hr.kept hm f1.kept f1.ns⟩ ?_ ?_
    · rcases f1.ns with h | h <;> simp [h]
    · intro x hx
      obtain ⟨y, hy, rfl⟩ := List.mem_map.1 hx
      exact h1 y hy (f2 y hy)
    · intro x hx
      obtain ⟨y, hy, rfl⟩ := List.mem_map.1 hx
      exact h2 y hy (f3 y hy)

theorem renA_reord (l : Dict Str Str) : renA m' l = renA m l := by
  unfold renA
  exact List.map_congr_left fun p _ => by rw [hr.rkey hm]

end

/-- what JSON makes of the objects inside does not depend on the order -/
theorem jres_setNs {m m' : Dict Str Str} (hr : Reord m m') (hm : Good m) (hm' : Good m') : ∀ x : Obj, FitAll m x →
    jres m' m' (ren m' (setNs m' x)) = jres m m (ren m x) := by
  refine Obj.ind fun d md kids h1 h2 hf => ?_
  have hf' := setNs_fit hr hm.1 _ hf
  cases hf with
  | mk f1 f2 f3 =>
    rw [setNs_mk] at hf' ⊢
    cases hf' with
    | mk g1 _ _ =>
      rw [jres_ren hm' g1, jres_ren hm f1, renA_reord hr hm.1, List.map_map, List.map_map]
      congr 1
      · exact List.map_congr_left fun x hx => h1 x hx (f2 x hx)
      · exact List.map_congr_left fun x hx => h2 x hx (f3 x hx)

theorem jres_withNs {m m' : Dict Str Str} (hr : Reord m m') (hm : Good m) (hm' : Good m') (x : Obj) (hf : FitAll m x)
    (h0 : x.data.nsmap.getD [] = m) : withNs m' (jres [] [] (ren m x)) = jres [] [] (ren m' (setNs m' x)) := by
  cases hf with
  | @mk d md kids f1 f2 f3 =>
    have e0 : m = [] → m' = [] := fun h => by have := hr.perm; rw [h] at this; exact List.Perm.eq_nil this
    have g1 : effNs { d with attrs := renA m d.attrs } [] = m := h0
    have g2 : activeNs { d with attrs := renA m d.attrs } [] [] = m := by rw [activeNs, g1, update_nil hm.1]
    have k1 : effNs { d with attrs := renA m' d.attrs, nsmap := d.nsmap.map fun _ => m' } [] = m' := by
      show (d.nsmap.map fun _ => m').getD [] = m'
      rcases f1.ns with h | h
      · have : d.nsmap.getD [] = m := h0
        rw [h] at this ⊢
        exact (e0 this.symm).symm
      · rw [h]; rfl
    have k2 : activeNs { d with attrs := renA m' d.attrs, nsmap := d.nsmap.map fun _ => m' } [] [] = m' := by rw [activeNs, k1, update_nil hm'.1]
    have e3 : ∀ n : Dict Str Str, newNs n [] = n := by
      intro n
      rw [newNs, List.filter_eq_self]
      intro a _; simp
    rw [setNs_mk, ren_mk, ren_mk, jres_mk, jres_mk, g1, g2, k1, k2, e3, e3]
    simp only [withNs, Obj.data_mk, Obj.md_mk, Obj.kids_mk, List.map_map, renA_reord hr hm.1]
    have en : ((decNs m).map fun _ => m') = decNs m' := by
      cases m with
      | nil => rw [e0 rfl]; rfl
      | cons p m0 =>
        cases m' with
        | nil => have := hr.perm.length_eq; simp at this
        | cons q m1 => rfl
    rw [en]
    congr 1
    · exact List.map_congr_left fun x hx => (jres_setNs hr hm hm' x (f2 x hx)).symm
    · exact List.map_congr_left fun x hx => (jres_setNs hr hm hm' x (f3 x hx)).symm

theorem setNs_stable {m m' : Dict Str Str} (hr : Reord m m') (hm : m.WF) : ∀ (x : Obj) (scope scope' : Dict Str Str), FitAll m x →
    scope'.WF → scope'.keys <+: m'.keys → Stable scope x → Stable scope' (setNs m' x) := by
  refine Obj.ind fun d md kids h1 h2 scope scope' hf hsw hsk hs => ?_
  cases hf with
  | mk f1 f2 f3 =>
    cases hs with
    | mk s1 s2 s3 s4 s5 s6 s7 s8 s9 s10 s11 s12 s13 s14 s15 s16 s17 s18 =>
      rename_i sc
      have hd : d.nsmap = some m := by
        rcases f1.ns with h | h
        · rw [h] at s4; cases s4
        · exact h
      rw [hd] at s4; cases s4
      rw [setNs_mk]
      refine .mk (sc := m') hsw (hr.wf hm) hsk (by simp [hd]) ?_ s6 s7 s8 (fun h => by simp [s9 h]) ?_ ?_ ?_ s13 s14 (by rw [ids_setNs]; exact s15)
        (by rw [ids_setNs]; exact s16) ?_ ?_
      · exact hr.kept hm s5 (.inr hd)
      · intro x hx
        obtain ⟨y, hy, rfl⟩ := List.mem_map.1 hx
        rw [setNs_cls]; exact s10 y hy
      · intro x hx
        obtain ⟨y, hy, rfl⟩ := List.mem_map.1 hx
        rw [setNs_cls]; exact s11 y hy
      · intro n hn h
        exact s12 n hn fun u hu p => by rw [← hr.get hm]; exact h u hu p
      · intro x hx
        obtain ⟨y, hy, rfl⟩ := List.mem_map.1 hx
        exact h1 y hy _ _ (f2 y hy) (hr.wf hm) (List.prefix_refl _) (s17 y hy)
      · intro x hx
        obtain ⟨y, hy, rfl⟩ := List.mem_map.1 hx
        exact h2 y hy _ _ (f3 y hy) (hr.wf hm) (List.prefix_refl _) (s18 y hy)

/-! ### Theorems -/

theorem uniform_good (x : Obj) (hv : x.Valid) (hk : XmlKept [] x) (m : Dict Str Str) (h0 : x.data.nsmap.getD [] = m) (hu : Uniform m x) :
    Good m ∧ FitAll m x := by
  have hwf : m.WF := by
    cases hv with
    | mk _ _ _ _ v5 _ _ =>
      simp only [Obj.data_mk] at h0
      subst h0
      rename_i d _ _ _ _ _ _ _ _
      cases hn : d.nsmap with
      | none => exact Dict.wf_nil
      | some m' => exact v5 m' hn
  have hk' : XmlKept m x := by
    cases hk with
    | mk k1 k2 k3 =>
      simp only [Obj.data_mk] at h0
      rename_i d md kids
      cases hu with
      | mk u1 _ _ _ =>
        have e : d.nsmap.getD m = m := by rcases u1 with h | h <;> simp [h]
        rw [h0] at k1 k2 k3
        exact .mk (by rw [e]; exact k1) (by rw [e]; exact k2) (by rw [e]; exact k3)
  have hf := fitAll x hu hk'
  refine ⟨⟨hwf, fun p u hp => ?_⟩, hf⟩
  cases hf with
  | mk f1 _ _ =>
    simp only [Obj.data_mk] at h0
    rename_i d _ _ _ _
    cases hn : d.nsmap with
    | none => rw [hn] at h0; subst h0; cases hp
    | some m' =>
      rw [hn] at h0; cases h0
      exact f1.kept.decls _ hn p u (Dict.get?_mem hp)

/-- C119 for all corpora that XML keeps (C40), in which no object has other namespaces than the corpus and no type is empty:
the corpus can be written as JSON, with any indentation, and what is read from that is written as XML with the
same text as the corpus, up to the order of the namespace declarations. -/
theorem C119_text (x : Obj) (hc : x.cls = .corpus) (hw : x.WF) (hv : x.Valid) (hk : XmlKept [] x)
    (hu : Uniform (x.data.nsmap.getD []) x) (i : Option Int) :
    ∃ t y, dumpsJson i x = .ok t ∧ loadsJson t = .ok y ∧ y.data.nsmap.getD [] = x.data.nsmap.getD [] ∧
      ∀ m' i', Reord (x.data.nsmap.getD []) m' → dumpsXml i' (withNs m' y) = dumpsXml i' (setNs m' x) := by
  generalize h0 : x.data.nsmap.getD [] = m at hu
  obtain ⟨hm, hf⟩ := uniform_good x hv hk m h0 hu
  obtain ⟨j, j1, j2⟩ := rt_corpus (x := ren m x) (by rw [ren_cls]; exact hc) (ren_wf hm x hw hf) (ren_valid x hv)
    (ren_kept hm x hf noScope (.inr ⟨rfl, fun h => by rw [h] at h0; exact h0.symm⟩))
  rw [ren_corpus hm x hf h0] at j1
  refine ⟨jsonDumps i j, jres [] [] (ren m x), ?_, ?_, ?_, fun m' i' hr => ?_⟩
  · simp only [dumpsJson, j1, bind, Except.bind, pure, Except.pure]
  · simp only [loadsJson, C91_layer i j (jok_corpus x j j1), bind, Except.bind, j2]
  · obtain ⟨d, md, kids⟩ := x
    have g1 : effNs { d with attrs := renA m d.attrs } [] = m := h0
    have g2 : activeNs { d with attrs := renA m d.attrs } [] [] = m := by rw [activeNs, g1, update_nil hm.1]
    have e3 : newNs m [] = m := by
      rw [newNs, List.filter_eq_self]
      intro a _; simp
    rw [ren_mk, jres_mk, g2, e3]
    exact decNs_getD m
  · have hm' : Good m' := ⟨hr.wf hm.1, fun p u h => hm.2 p u (by rw [← hr.get hm.1]; exact h)⟩
    rw [jres_withNs hr hm hm' x hf h0]
    simp only [dumpsXml]
    rw [xml_corpus hm' _ (setNs_fit hr hm.1 x hf)]
    cases x with
    | mk d md kids =>
      rw [setNs_mk]
      simp only [Obj.data_mk] at h0 ⊢
      cases hn : d.nsmap with
      | some _ => rfl
      | none =>
        rw [hn] at h0
        subst h0
        exact (List.Perm.eq_nil hr.perm).symm

/-- C119 for documents as in C109: a corpus that was read from XML, in which no object has other namespaces than the
corpus and no type is empty, is the same after it was written as JSON, read, written as XML, and read again
(with its namespaces in the order JSON had them).
Missing: other namespaces and empty types (`C119_refuted`, `C119_refuted_type`). -/
theorem C119_partial (s : Str) (p : PElem) (hs : readText s = .ok p) (hl : Layout p) (hc : Every Clean p)
    (hty : Dict.get? p.attrs (lit! "type") = none) (look : Nat → Nat) (x : Obj) (hx : loadsXml look s = .ok x)
    (hu : Uniform (x.data.nsmap.getD []) x) (i i' : Option Int) :
    ∃ t y, dumpsJson i x = .ok t ∧ loadsJson t = .ok y ∧ y.data.nsmap.getD [] = x.data.nsmap.getD [] ∧
      ∀ m', Reord (x.data.nsmap.getD []) m' → ∃ t', dumpsXml i' (withNs m' y) = .ok t' ∧ ∀ look', loadsXml look' t' = .ok (setNs m' x) := by
  have h := loaded_stable hs hl hc hty hx
  obtain ⟨g1, g2, g3, g4, g5⟩ := stable_spec x [] h.2
  obtain ⟨t, y, y1, y2, y3, y4⟩ := C119_text x h.1 g1 g2 g3 hu i
  refine ⟨t, y, y1, y2, y3, fun m' hr => ?_⟩
  obtain ⟨hm, hf⟩ := uniform_good x g2 g3 _ rfl hu
  obtain ⟨t', t1, t2⟩ := stable_again (x := setNs m' x) (by rw [setNs_cls]; exact h.1)
    (setNs_stable hr hm.1 x [] [] hf Dict.wf_nil (List.nil_prefix) h.2) i'
  exact ⟨t', (y4 m' i' hr).trans t1, t2⟩

/-- the corpus with its namespaces in another order is equal, and the same if the order is -/
theorem C119_same {m m' : Dict Str Str} (x : Obj) (hw : x.WF) (hu : Uniform m x) :
    SameData (setNs m' x) x ∧ setNs m x = x := by
  constructor
  · clear hu
    revert hw
    refine Obj.ind (P := fun x => x.WF → SameData (setNs m' x) x) (fun d md kids h1 h2 hw => ?_) x
    rw [setNs_mk]
    cases hw with
    | mk w1 w2 w3 w4 w5 w6 w7 w8 =>
      refine .mk rfl rfl rfl rfl rfl rfl (List.Perm.refl _) (by simp) (by simp) ?_ ?_
      · intro i a b ha hb
        rw [List.getElem?_map, hb] at ha
        cases ha
        exact h1 b (List.mem_of_getElem? hb) (w7 b (List.mem_of_getElem? hb))
      · intro i a b ha hb
        rw [List.getElem?_map, hb] at ha
        cases ha
        exact h2 b (List.mem_of_getElem? hb) (w8 b (List.mem_of_getElem? hb))
  · clear hw
    revert hu
    refine Obj.ind (P := fun x => Uniform m x → setNs m x = x) (fun d md kids h1 h2 hu => ?_) x
    cases hu with
    | mk u1 u2 u3 u4 =>
      rw [setNs_mk, map_same fun x hx => h1 x hx (u3 x hx), map_same fun x hx => h2 x hx (u4 x hx)]
      have : (d.nsmap.map fun _ => m) = d.nsmap := by rcases u1 with h | h <;> simp [h]
      rw [this]

end

/-! ### Cases -/

mutual
def uniformB (m : Dict Str Str) : Obj → Bool
  | .mk d md kids => (d.nsmap = none || d.nsmap = some m) && d.type ≠ some [] && uniformBs m md && uniformBs m kids
def uniformBs (m : Dict Str Str) : List Obj → Bool
  | [] => true
  | x :: xs => uniformB m x && uniformBs m xs
end

theorem uniformBs_all (m : Dict Str Str) (xs : List Obj) : uniformBs m xs = xs.all (uniformB m) := by
  induction xs with
  | nil => rfl
  | cons x xs ih => rw [uniformBs, ih, List.all_cons]

theorem uniform_of_B {m : Dict Str Str} : ∀ x, uniformB m x = true → Uniform m x := by
  refine Obj.ind fun d md kids h1 h2 h => ?_
  simp only [uniformB, uniformBs_all, Bool.and_eq_true, Bool.or_eq_true, decide_eq_true_eq, List.all_eq_true] at h
  exact .mk h.1.1.1 h.1.1.2 (fun x hx => h1 x hx (h.1.2 x hx)) fun x hx => h2 x hx (h.2 x hx)

section
attribute [local instance] asciiUni asciiXml

def exJsonText : Str := lit! "{\"namespaces\": {\"dc\": \"http://dc\"}, \"metadata\": [{\"metas\": [{\"type\": \"t\", \"children\": [{\"attributes\": {\"iso\": \"en\"}, \"name\": \"dc:lang\", \"text\": \"x\"}]}]}], \"igts\": [{\"id\": \"i1\", \"attributes\": {\"dc:n\": \"1\"}, \"tiers\": [{\"id\": \"w\", \"items\": [{\"id\": \"w1\", \"text\": \" dog&\"}]}]}]}"

/-- the conditions of `C119_partial` are met, by a document with an attribute in a namespace, of which JSON has only the
name with its prefix (C39) -/
example : ∃ p x t, readText againDoc = .ok p ∧ Layout p ∧ Every Clean p ∧ Dict.get? p.attrs (lit! "type") = none ∧ loadsXml id againDoc = .ok x ∧
    Uniform (x.data.nsmap.getD []) x ∧ dumpsJson none x = .ok t ∧ t = exJsonText := by
  obtain ⟨p, h1, h2⟩ := ok_of_B (r := readText againDoc) (f := fun p => layoutB 1 p && everyB cleanB p && (Dict.get? p.attrs (lit! "type")).isNone) (by decide +kernel)
  obtain ⟨x, g1, g2⟩ := ok_of_B (r := loadsXml id againDoc) (f := fun x => uniformB (x.data.nsmap.getD []) x &&
    okWith (dumpsJson none x) fun t => decide (t = exJsonText)) (by decide +kernel)
  simp only [Bool.and_eq_true, Option.isNone_iff_eq_none] at h2 g2
  obtain ⟨t, t1, t2⟩ := ok_of_B g2.2
  exact ⟨p, x, t, h1, layout_of_B h2.1.1, clean_of_B h2.1.2, h2.2, g1, uniform_of_B x g2.1, t1, of_decide_eq_true t2⟩

def nestedDoc : Str := lit! "<xigt-corpus xmlns:a=\"u\"><igt xmlns:b=\"w\"><metadata><meta><a:x/></meta></metadata></igt></xigt-corpus>"

/-- **C119** refuted: in JSON an object that declares a namespace has only the new one (C67), so the prefix of another
namespace is not found when it is written as XML (xigtxml.py:359-361): the element comes out of its namespace -/
theorem C119_refuted : ∃ p x t y t' z, readText nestedDoc = .ok p ∧ Layout p ∧ Every Clean p ∧ Dict.get? p.attrs (lit! "type") = none ∧
    loadsXml id nestedDoc = .ok x ∧ dumpsJson none x = .ok t ∧ loadsJson t = .ok y ∧ dumpsXml none y = .ok t' ∧ loadsXml id t' = .ok z ∧
    Obj.eq z x = false ∧ t' = lit! "<xigt-corpus xmlns:a=\"u\"><igt xmlns:b=\"w\"><metadata><meta><x /></meta></metadata></igt></xigt-corpus>" := by
  obtain ⟨p, h1, h2⟩ := ok_of_B (r := readText nestedDoc) (f := fun p => layoutB 0 p && everyB cleanB p && (Dict.get? p.attrs (lit! "type")).isNone) (by decide +kernel)
  obtain ⟨x, g1, g2⟩ := ok_of_B (r := loadsXml id nestedDoc) (f := fun x => okWith (dumpsJson none x) fun t => okWith (loadsJson t) fun y =>
    okWith (dumpsXml none y) fun t' => okWith (loadsXml id t') fun z => !Obj.eq z x &&
      decide (t' = lit! "<xigt-corpus xmlns:a=\"u\"><igt xmlns:b=\"w\"><metadata><meta><x /></meta></metadata></igt></xigt-corpus>")) (by decide +kernel)
  obtain ⟨t, t1, g2⟩ := ok_of_B g2
  obtain ⟨y, y1, g2⟩ := ok_of_B g2
  obtain ⟨t', t1', g2⟩ := ok_of_B g2
  obtain ⟨z, z1, g2⟩ := ok_of_B g2
  simp only [Bool.and_eq_true, Option.isNone_iff_eq_none, Bool.not_eq_true', decide_eq_true_eq] at h2 g2
  exact ⟨p, x, t, y, t', z, h1, layout_of_B h2.1.1, clean_of_B h2.1.2, h2.2, g1, t1, y1, t1', z1, g2.1, g2.2⟩

/-- **C119** refuted of an empty type, which JSON leaves out (xigtjson.py:192-193) -/
theorem C119_refuted_type : ∃ x t y t' z, loadsXml id (lit! "<xigt-corpus><igt type=\"\"/></xigt-corpus>") = .ok x ∧ dumpsJson none x = .ok t ∧
    loadsJson t = .ok y ∧ dumpsXml none y = .ok t' ∧ loadsXml id t' = .ok z ∧ Obj.eq z x = false := by
  obtain ⟨x, g1, g2⟩ := ok_of_B (r := loadsXml id (lit! "<xigt-corpus><igt type=\"\"/></xigt-corpus>")) (f := fun x => okWith (dumpsJson none x) fun t =>
    okWith (loadsJson t) fun y => okWith (dumpsXml none y) fun t' => okWith (loadsXml id t') fun z => !Obj.eq z x) (by decide +kernel)
  obtain ⟨t, t1, g2⟩ := ok_of_B g2
  obtain ⟨y, y1, g2⟩ := ok_of_B g2
  obtain ⟨t', t1', g2⟩ := ok_of_B g2
  obtain ⟨z, z1, g2⟩ := ok_of_B g2
  rw [Bool.not_eq_true'] at g2
  exact ⟨x, t, y, t', z, g1, t1, y1, t1', z1, g2⟩

end

end Xigt.Cnv
