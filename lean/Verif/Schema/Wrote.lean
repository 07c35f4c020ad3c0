import Verif.Schema.Props
/-
What a written document looks like, in terms of the object, for use with any schema.
-/

set_option linter.unusedSectionVars false

namespace Xigt.Rng
section
variable [Uni] [XmlLex] [Xsd]

/-- the names of elements, but for MetaChilds -/
def clsTag : Cls → Str
  | .corpus => lit! "xigt-corpus"
  | .igt => lit! "igt"
  | .tier => lit! "tier"
  | .item => lit! "item"
  | .metadata => lit! "metadata"
  | .metaC => lit! "meta"
  | .metaChild => []

/-- the names of elements for MetaChilds -/
def childTag (d : Data) : Str :=
  match d.ns with
  | none => d.name.getD []
  | some u => qual u (d.name.getD [])

/-- a document as it is written for an object: its attributes, its text, its metadata and contents in
order, and perhaps white space for indentation. -/
inductive Wrote : Obj → Node → Prop
  | mk {d md kids t ns} : d.cls ≠ .metaChild → ((attrsOf d).map Prod.fst).Nodup → (t = d.text ∨ (blank d.text = true ∧ Ws (t.getD []))) →
      WsOnly ns → All2 Wrote (md ++ kids) (elems ns) → Wrote (.mk d md kids) (.elem (clsTag d.cls) (attrsOf d) (textNode t ++ ns))
  | child {d kids t ns} : d.cls = .metaChild → (d.attrs.map Prod.fst).Nodup → (t = d.text ∨ (blank d.text = true ∧ Ws (t.getD []))) →
      WsOnly ns → All2 Wrote kids (elems ns) → Wrote (.mk d [] kids) (.elem (childTag d) d.attrs (textNode t ++ ns))

theorem Wrote.inv {d : Data} {md kids n} (h : Wrote (.mk d md kids) n) (hc : d.cls ≠ .metaChild) :
    ∃ t ns, n = .elem (clsTag d.cls) (attrsOf d) (textNode t ++ ns) ∧ ((attrsOf d).map Prod.fst).Nodup ∧
      (t = d.text ∨ (blank d.text = true ∧ Ws (t.getD []))) ∧ WsOnly ns ∧ All2 Wrote (md ++ kids) (elems ns) := by
  cases h with
  | mk h1 h2 h3 h4 h5 => exact ⟨_, _, rfl, h2, h3, h4, h5⟩
  | child h => exact absurd h hc

/-- `x` is written and read back, and the document describes it -/
def Wr (scope : Dict Str Str) (build : Py Elem) (x : Obj) : Prop :=
  ∃ e p, build = .ok e ∧ parseElem scope e = .ok p ∧ ∀ n, Shp p n → Wrote x n

theorem mapPy_wr {build : Obj → Py Elem} {scope : Dict Str Str} : ∀ {xs : List Obj}, (∀ x ∈ xs, Wr scope (build x) x) →
    ∃ es ps, mapPy build xs = .ok es ∧ mapPy (parseElem scope) es = .ok ps ∧ ps.length = xs.length ∧
      ∀ ns, All2 Shp ps ns → All2 Wrote xs ns := by
  intro xs
  induction xs with
  | nil =>
    intro _
    refine ⟨[], [], rfl, rfl, rfl, ?_⟩
    intro ns h; cases h; exact .nil
  | cons x xs ih =>
    intro h
    obtain ⟨e, p, h1, h2, h3⟩ := h x (by simp)
    obtain ⟨es, ps, i1, i2, i3, i4⟩ := ih fun y hy => h y (by simp [hy])
    refine ⟨e :: es, p :: ps, ?_, ?_, by simp [i3], ?_⟩
    · simp only [mapPy, h1, i1, bind, Except.bind, pure, Except.pure]
    · simp only [mapPy, h2, i2, bind, Except.bind, pure, Except.pure]
    · intro ns hns
      cases hns with
      | cons a b => exact .cons (h3 _ a) (i4 _ b)

theorem Wrote.inv_child {d : Data} {md kids n} (h : Wrote (.mk d md kids) n) (hc : d.cls = .metaChild) :
    ∃ t ns, n = .elem (childTag d) d.attrs (textNode t ++ ns) ∧ (d.attrs.map Prod.fst).Nodup ∧
      (t = d.text ∨ (blank d.text = true ∧ Ws (t.getD []))) ∧ WsOnly ns ∧ All2 Wrote kids (elems ns) := by
  cases h with
  | mk h1 => exact absurd hc h1
  | child _ h2 h3 h4 h5 => exact ⟨_, _, rfl, h2, h3, h4, h5⟩

theorem w_mc : ∀ (x : Obj), x.cls = .metaChild → x.WF → x.Valid → ∀ {scope eff}, XCtx scope eff → XmlKept eff x →
    Wr scope (buildMc eff x) x := by
  refine Obj.ind fun d md kids _ ih hc hw hv scope eff h hk => ?_
  have n := XNode.of hc hw hv hk
  simp only [Obj.data_mk, Obj.md_mk, Obj.kids_mk] at n
  have hmd := n.md_nil rfl
  subst hmd
  have hs := h.step n.nsmap_wf n.kept
  obtain ⟨es, ps, k1, k2, kl, k3⟩ := mapPy_wr (build := buildMc (effNs d eff)) (scope := scopeIn d scope eff) (xs := kids) (fun x hx => by
      have hcx := n.kids_cls x hx
      exact ih x hx (by injection hcx) (n.kids_wf x hx) (n.kids_valid x hx) hs (n.kept_kids x hx))
  obtain ⟨name, hname⟩ : ∃ m, d.name = some m := by
    have := n.wf
    cases this with
    | mk w1 w2 w3 => exact Option.isSome_iff_exists.1 (w3.2 n.cls_eq)
  obtain ⟨hid, htype, hnc, hnsd⟩ := n.kept.child n.cls_eq
  have hnc := hnc name hname
  have hcolon := XmlLex.no_colon _ hnc
  obtain ⟨ht1, ht2⟩ := n.text_meta (.inr rfl)
  have htag : resolveName (scopeIn d scope eff) none (xmlTag (inverse (effNs d eff)) name d.ns) = .ok (childTag d) := by
    rw [childTag, hname, Option.getD_some]
    cases hns : d.ns with
    | none =>
      rw [xmlTag, Option.bind_none, resolveName, splitOnce_none hcolon]
      simp [hnc]
    | some u =>
      obtain ⟨p, hp⟩ := hnsd u hns
      obtain ⟨q, hq⟩ := inverse_isSome hp
      have hqm := inverse_some hs.eff_wf hq
      obtain ⟨⟨g1, g2, g3⟩, gu⟩ := hs.good q u hqm
      rw [xmlTag, Option.bind_some, hq]
      simp only []
      rw [resolveName, splitOnce_some _ _ (XmlLex.no_colon _ g1)]
      simp [g1, hnc, g2, hs.sub q u hqm]
  obtain ⟨e, h1, h2⟩ := node_rt h n.nsmap_wf n.attrs_wf n.kept (n.parse_text ht1) htag (ks := es) (ks' := ps)
    (by rw [parseElems_eq]; exact k2)
  refine ⟨e, _, ?_, h2, fun nd hsh => ?_⟩
  · simp only [buildMc, buildMcs_eq, k1, bind, Except.bind, hname, Option.getD_some]
    exact h1
  · rw [hid, htype] at hsh
    simp only [optAttr, List.nil_append] at hsh
    cases hsh with
    | mk g1 g2 g3 g4 =>
      exact .child hc g1 (g2.imp_right fun g => g.2) g3 (k3 _ g4)

theorem all2_append' {α β : Type} {R : α → β → Prop} : ∀ {a b : List α} {u v : List β}, All2 R a u → All2 R b v → All2 R (a ++ b) (u ++ v) := by
  intro a b u v h1 h2
  induction h1 with
  | nil => exact h2
  | cons hx _ ih => exact .cons hx ih

/-- from the contents to the object -/
theorem wrote_of {scope eff} {cls : Cls} {d : Data} {md kids : List Obj} (n : XNode eff cls d md kids) (hc : cls ≠ .metaChild)
    {ps : List PElem} (hl : ps.length = (md ++ kids).length) (hps : ∀ ns, All2 Shp ps ns → All2 Wrote (md ++ kids) ns) {nd : Node}
    (h : Shp (.mk (clsTag cls) (attrsOf d) scope d.text ps) nd) : Wrote (.mk d md kids) nd := by
  cases h with
  | @mk _ _ _ _ t' _ ns h1 h2 h3 h4 =>
    rw [← n.cls_eq]
    exact .mk (n.cls_eq ▸ hc) h1 (h2.imp_right fun g => g.2) h3 (hps _ h4)

theorem w_item {scope eff} (h : XCtx scope eff) {x : Obj} (hc : x.cls = .item) (hw : x.WF) (hv : x.Valid) (hk : XmlKept eff x) :
    Wr scope (buildItem eff x) x := by
  have n := XNode.of hc hw hv hk
  obtain ⟨d, md, kids⟩ := x
  simp only [Obj.data_mk, Obj.md_mk, Obj.kids_mk] at n
  obtain ⟨e, h1, h2⟩ := n.elem h (by decide) (tag := lit! "item") (ncName_of (by simp)) (n.parse_text (n.kept.item n.cls_eq))
    (ks := []) (ks' := []) (by rw [parseElems])
  have hmd : md = [] := n.md_nil rfl
  have hkids : kids = [] := by
    rw [List.eq_nil_iff_forall_not_mem]
    intro x hx
    cases n.kids_cls x hx
  subst hmd hkids
  exact ⟨e, _, h1, h2, fun nd hs => wrote_of n (by decide) rfl (fun ns h => by cases h; exact .nil) hs⟩

theorem w_meta {scope eff} (h : XCtx scope eff) {x : Obj} (hc : x.cls = .metaC) (hw : x.WF) (hv : x.Valid) (hk : XmlKept eff x) :
    Wr scope (buildMeta eff x) x := by
  have n := XNode.of hc hw hv hk
  obtain ⟨d, md, kids⟩ := x
  simp only [Obj.data_mk, Obj.md_mk, Obj.kids_mk] at n
  have hs := h.step n.nsmap_wf n.kept
  obtain ⟨es, ps, k1, k2, kl, k3⟩ := mapPy_wr (build := buildMc (effNs d eff)) (scope := scopeIn d scope eff) (xs := kids) (fun x hx => by
      have hcx := n.kids_cls x hx
      exact w_mc x (by injection hcx) (n.kids_wf x hx) (n.kids_valid x hx) hs (n.kept_kids x hx))
  obtain ⟨ht1, ht2⟩ := n.text_meta (.inl rfl)
  obtain ⟨e, h1, h2⟩ := n.elem h (by decide) (tag := lit! "meta") (ncName_of (by simp)) (n.parse_text ht1)
    (ks := es) (ks' := ps) (by rw [parseElems_eq]; exact k2)
  have hmd : md = [] := n.md_nil rfl
  subst hmd
  refine ⟨e, _, ?_, h2, fun nd hsh => wrote_of n (by decide) kl k3 hsh⟩
  simp only [buildMeta, Obj.data_mk, Obj.kids_mk, buildMcs_eq, k1, bind, Except.bind]
  exact h1

theorem w_md {scope eff} (h : XCtx scope eff) {x : Obj} (hc : x.cls = .metadata) (hw : x.WF) (hv : x.Valid) (hk : XmlKept eff x) :
    Wr scope (buildMd eff x) x := by
  have n := XNode.of hc hw hv hk
  obtain ⟨d, md, kids⟩ := x
  simp only [Obj.data_mk, Obj.md_mk, Obj.kids_mk] at n
  have hs := h.step n.nsmap_wf n.kept
  obtain ⟨es, ps, k1, k2, kl, k3⟩ := mapPy_wr (build := buildMeta (effNs d eff)) (scope := scopeIn d scope eff) (xs := kids) (fun x hx => by
      have hcx := n.kids_cls x hx
      exact w_meta hs (by injection hcx) (n.kids_wf x hx) (n.kids_valid x hx) (n.kept_kids x hx))
  obtain ⟨e, h1, h2⟩ := n.elem h (by decide) (tag := lit! "metadata") (ncName_of (by simp)) (text := none) (text' := none) rfl
    (ks := es) (ks' := ps) (by rw [parseElems_eq]; exact k2)
  have hmd : md = [] := n.md_nil rfl
  subst hmd
  refine ⟨e, _, ?_, h2, fun nd hsh => wrote_of n (by decide) kl k3 (by rw [n.text_none (by decide)]; exact hsh)⟩
  simp only [buildMd, Obj.data_mk, Obj.kids_mk, k1, bind, Except.bind]
  exact h1

theorem w_outer {scope eff} (h : XCtx scope eff) {cls : Cls} {d : Data} {md kids : List Obj} (n : XNode eff cls d md kids)
    (hc1 : cls ≠ .metaChild) (htxt : d.text = none) (htag : XmlLex.ncName (clsTag cls) = true)
    (buildK : Dict Str Str → Obj → Py Elem)
    (hK : ∀ x ∈ kids, ∀ scope, XCtx scope (effNs d eff) → Wr scope (buildK (effNs d eff) x) x) :
    ∃ ms ks e ps, mapPy (buildMd (effNs d eff)) md = .ok ms ∧ mapPy (buildK (effNs d eff)) kids = .ok ks ∧
      buildElem (clsTag cls) d eff none (ms ++ ks) = .ok e ∧
      parseElem scope e = .ok (.mk (clsTag cls) (attrsOf d) (scopeIn d scope eff) none ps) ∧
      ∀ nd, Shp (.mk (clsTag cls) (attrsOf d) (scopeIn d scope eff) none ps) nd → Wrote (.mk d md kids) nd := by
  have hs := h.step n.nsmap_wf n.kept
  obtain ⟨ms, pm, m1, m2, ml, m3⟩ := mapPy_wr (build := buildMd (effNs d eff)) (scope := scopeIn d scope eff) (xs := md)
    (fun x hx => w_md hs (n.md_cls x hx) (n.md_wf x hx) (n.md_valid x hx) (n.kept_md x hx))
  obtain ⟨ks, pk, k1, k2, kl, k3⟩ := mapPy_wr (build := buildK (effNs d eff)) (scope := scopeIn d scope eff) (xs := kids) (fun x hx => hK x hx _ hs)
  obtain ⟨e, h1, h2⟩ := n.elem h hc1 htag (text := none) (text' := none) rfl
    (ks := ms ++ ks) (ks' := pm ++ pk) (by rw [parseElems_eq]; exact mapPy_append m2 k2)
  refine ⟨ms, ks, e, pm ++ pk, m1, k1, h1, h2, fun nd hsh => wrote_of n hc1 (ps := pm ++ pk) (by simp [ml, kl]) (fun ns h => ?_) (by rw [htxt]; exact hsh)⟩
  obtain ⟨u, v, rfl, hu, hv⟩ := all2_append h
  exact all2_append' (m3 _ hu) (k3 _ hv)

theorem w_tier {scope eff} (h : XCtx scope eff) {x : Obj} (hc : x.cls = .tier) (hw : x.WF) (hv : x.Valid) (hk : XmlKept eff x) :
    Wr scope (buildTier eff x) x := by
  have n := XNode.of hc hw hv hk
  obtain ⟨d, md, kids⟩ := x
  simp only [Obj.data_mk, Obj.md_mk, Obj.kids_mk] at n
  obtain ⟨ms, ks, e, ps, m1, k1, h1, h2, r⟩ := w_outer h n (by decide) (n.text_none (by decide)) (ncName_of (by simp [clsTag])) buildItem (fun x hx scope hs => by
      have hcx := n.kids_cls x hx
      exact w_item hs (by injection hcx) (n.kids_wf x hx) (n.kids_valid x hx) (n.kept_kids x hx))
  refine ⟨e, _, ?_, h2, r⟩
  simp only [buildTier, Obj.data_mk, Obj.md_mk, Obj.kids_mk, m1, k1, bind, Except.bind]
  exact h1

theorem w_igt {scope eff} (h : XCtx scope eff) {x : Obj} (hc : x.cls = .igt) (hw : x.WF) (hv : x.Valid) (hk : XmlKept eff x) :
    Wr scope (buildIgt eff x) x := by
  have n := XNode.of hc hw hv hk
  obtain ⟨d, md, kids⟩ := x
  simp only [Obj.data_mk, Obj.md_mk, Obj.kids_mk] at n
  obtain ⟨ms, ks, e, ps, m1, k1, h1, h2, r⟩ := w_outer h n (by decide) (n.text_none (by decide)) (ncName_of (by simp [clsTag])) buildTier (fun x hx scope hs => by
      have hcx := n.kids_cls x hx
      exact w_tier hs (by injection hcx) (n.kids_wf x hx) (n.kids_valid x hx) (n.kept_kids x hx))
  refine ⟨e, _, ?_, h2, r⟩
  simp only [buildIgt, Obj.data_mk, Obj.md_mk, Obj.kids_mk, m1, k1, bind, Except.bind]
  exact h1

theorem w_corpus {x : Obj} (hc : x.cls = .corpus) (hw : x.WF) (hv : x.Valid) (hk : XmlKept [] x) : Wr [] (buildCorpus x) x := by
  have n := XNode.of hc hw hv hk
  obtain ⟨d, md, kids⟩ := x
  simp only [Obj.data_mk, Obj.md_mk, Obj.kids_mk] at n
  obtain ⟨ms, ks, e, ps, m1, k1, h1, h2, r⟩ := w_outer XCtx.top n (by decide) (n.text_none (by decide)) (ncName_of (by simp [clsTag])) buildIgt (fun x hx scope hs => by
      have hcx := n.kids_cls x hx
      exact w_igt hs (by injection hcx) (n.kids_wf x hx) (n.kids_valid x hx) (n.kept_kids x hx))
  refine ⟨e, _, ?_, h2, r⟩
  simp only [buildCorpus, Obj.data_mk, Obj.md_mk, Obj.kids_mk, m1, k1, bind, Except.bind]
  exact h1

/-- every corpus that can be written gives, with whatever indentation, a text whose document describes it -/
theorem wrote_corpus (x : Obj) (hc : x.cls = .corpus) (hw : x.WF) (hv : x.Valid) (hk : XmlKept [] x) (ind : Option Int) :
    ∃ s doc, dumpsXml ind x = .ok s ∧ docText s = .ok doc ∧ Distinct doc ∧ Wrote x doc := by
  obtain ⟨e, p, h1, h2, h4⟩ := w_corpus hc hw hv hk
  obtain ⟨q, hq, hs⟩ := shp_any ind (buildCorpus_noTails x e h1) h2
  have hd := docText_ser (indent ind e) (indent_keys' (buildCorpus_keys x e h1) ind) (indent_tail (buildOf_tail (c := .corpus) (m := []) h1) ind) q hq
  exact ⟨ser (indent ind e), _, by simp only [dumpsXml, h1, bind, Except.bind, pure, Except.pure], hd, hs.distinct, h4 _ hs⟩

end
end Xigt.Rng
