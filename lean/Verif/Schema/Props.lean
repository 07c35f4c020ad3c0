import Verif.Schema.Docs
/- C98: which corpora are written as documents valid against xigt-structure.rnc. -/

set_option linter.unusedSectionVars false

namespace Xigt.Rng
section
variable [Uni] [XmlLex] [Xsd]

theorem buildElem_noTails {tag d eff text kids e} (h : buildElem tag d eff text kids = .ok e) (hk : ∀ k ∈ kids, NoTails k) : NoTails e := by
  simp only [buildElem, bind, Except.bind, pure, Except.pure] at h
  split at h
  · cases h
  · cases h; exact .mk hk

theorem mapPy_noTails {f : Obj → Py Elem} {xs : List Obj} {es : List Elem} (h : mapPy f xs = .ok es)
    (hf : ∀ x ∈ xs, ∀ e, f x = .ok e → NoTails e) : ∀ e ∈ es, NoTails e := by
  rw [mapPy_ok_iff] at h
  intro e he
  have : ∀ {xs : List Obj} {es : List Elem}, All2 (fun x y => f x = .ok y) xs es → (∀ x ∈ xs, ∀ e, f x = .ok e → NoTails e) → ∀ e ∈ es, NoTails e := by
    intro xs es h hf e he
    obtain ⟨x, hx, hr⟩ := mem_all2 h he
    exact hf x hx e hr
  exact this h hf e he

theorem buildMc_noTails : ∀ (x : Obj) (eff : Dict Str Str) (e : Elem), buildMc eff x = .ok e → NoTails e := by
  refine Obj.ind fun d md kids _ ih eff e h => ?_
  simp only [buildMc, buildMcs_eq, bind, Except.bind] at h
  split at h
  · cases h
  · rename_i ks hks
    exact buildElem_noTails h (mapPy_noTails hks fun x hx e he => ih x hx _ e he)

theorem buildMeta_noTails (x : Obj) (eff : Dict Str Str) (e : Elem) (h : buildMeta eff x = .ok e) : NoTails e := by
  simp only [buildMeta, buildMcs_eq, bind, Except.bind] at h
  split at h
  · cases h
  · rename_i ks hks
    exact buildElem_noTails h (mapPy_noTails hks fun x hx e he => buildMc_noTails x _ e he)

theorem buildMd_noTails (x : Obj) (eff : Dict Str Str) (e : Elem) (h : buildMd eff x = .ok e) : NoTails e := by
  simp only [buildMd, bind, Except.bind] at h
  split at h
  · cases h
  · rename_i ks hks
    exact buildElem_noTails h (mapPy_noTails hks fun x hx e he => buildMeta_noTails x _ e he)

theorem buildItem_noTails (x : Obj) (eff : Dict Str Str) (e : Elem) (h : buildItem eff x = .ok e) : NoTails e :=
  buildElem_noTails h (by simp)

theorem outer_noTails {tag : Str} {d : Data} {eff m : Dict Str Str} {md kids : List Obj} {bk : Obj → Py Elem} {e : Elem}
    (h : (do let ms ← mapPy (buildMd m) md; let ks ← mapPy bk kids; buildElem tag d eff none (ms ++ ks)) = .ok e)
    (hb : ∀ x ∈ kids, ∀ e, bk x = .ok e → NoTails e) : NoTails e := by
  simp only [bind, Except.bind] at h
  split at h
  · cases h
  · rename_i ms hms
    split at h
    · cases h
    · rename_i ks hks
      refine buildElem_noTails h fun k hk => ?_
      rcases List.mem_append.1 hk with hk | hk
      · exact mapPy_noTails hms (fun x _ e he => buildMd_noTails x _ e he) k hk
      · exact mapPy_noTails hks hb k hk

theorem buildTier_noTails (x : Obj) (eff : Dict Str Str) (e : Elem) (h : buildTier eff x = .ok e) : NoTails e :=
  outer_noTails h fun y _ e he => buildItem_noTails y _ e he

theorem buildIgt_noTails (x : Obj) (eff : Dict Str Str) (e : Elem) (h : buildIgt eff x = .ok e) : NoTails e :=
  outer_noTails h fun y _ e he => buildTier_noTails y _ e he

theorem buildCorpus_noTails (x : Obj) (e : Elem) (h : buildCorpus x = .ok e) : NoTails e :=
  outer_noTails h fun y _ e he => buildIgt_noTails y _ e he

/-! ### Attributes -/

/-- the attributes that are written -/
def attrsOf (d : Data) : List (Str × Str) := optAttr (lit! "id") d.id ++ optAttr (lit! "type") d.type ++ d.attrs

theorem mem_optAttr {k : Str} {v : Option Str} {x : Str × Str} : x ∈ optAttr k v ↔ x.1 = k ∧ v = some x.2 := by
  cases v with
  | none => simp [optAttr]
  | some v =>
    obtain ⟨a, b⟩ := x
    simp only [optAttr, List.mem_singleton, Prod.mk.injEq, Option.some.injEq]
    exact ⟨fun h => ⟨h.1, h.2.symm⟩, fun h => ⟨h.1, h.2.symm⟩⟩

theorem mem_attrsOf {d : Data} {k v : Str} (h1 : k ≠ lit! "id") (h2 : k ≠ lit! "type") : (k, v) ∈ attrsOf d ↔ (k, v) ∈ d.attrs := by
  simp only [attrsOf, List.mem_append, mem_optAttr, h1, h2, false_and, false_or]

theorem mem_attrsOf_id {m : Dict Str Str} {d : Data} (hk : XmlDataKept m d) {v : Str} : (lit! "id", v) ∈ attrsOf d ↔ d.id = some v := by
  have := attrs_plain hk
  simp only [attrsOf, List.mem_append, mem_optAttr, true_and]
  constructor
  · rintro ((h | h) | h)
    · exact h
    · exact absurd h.1 (by decide)
    · exact absurd rfl (this _ h).1
  · exact fun h => .inl (.inl h)

theorem mem_attrsOf_type {m : Dict Str Str} {d : Data} (hk : XmlDataKept m d) {v : Str} : (lit! "type", v) ∈ attrsOf d ↔ d.type = some v := by
  have := attrs_plain hk
  simp only [attrsOf, List.mem_append, mem_optAttr, true_and]
  constructor
  · rintro ((h | h) | h)
    · exact absurd h.1 (by decide)
    · exact h
    · exact absurd rfl (this _ h).2
  · exact fun h => .inl (.inr h)

theorem optId_attrsOf {m : Dict Str Str} {d : Data} (hk : XmlDataKept m d) : OptIdAttr (attrsOf d) ↔ OptId d := by
  simp only [OptIdAttr, OptId, mem_attrsOf_id hk]

theorem hasId_attrsOf {m : Dict Str Str} {d : Data} (hk : XmlDataKept m d) : HasIdAttr (attrsOf d) ↔ HasId d := by
  simp only [HasIdAttr, HasId, mem_attrsOf_id hk]

theorem noRefs_attrsOf {d : Data} : NoRefs (attrsOf d) ↔ NoRefs d.attrs := by
  simp only [NoRefs, Lacks, mem_attrsOf (show ALN ≠ lit! "id" by decide) (show ALN ≠ lit! "type" by decide),
    mem_attrsOf (show CNT ≠ lit! "id" by decide) (show CNT ≠ lit! "type" by decide),
    mem_attrsOf (show SEG ≠ lit! "id" by decide) (show SEG ≠ lit! "type" by decide)]

theorem refsFit_attrsOf {d : Data} : RefsFit (attrsOf d) ↔ RefsFit d.attrs := by
  simp only [RefsFit, Lacks, mem_attrsOf (show ALN ≠ lit! "id" by decide) (show ALN ≠ lit! "type" by decide),
    mem_attrsOf (show CNT ≠ lit! "id" by decide) (show CNT ≠ lit! "type" by decide),
    mem_attrsOf (show SEG ≠ lit! "id" by decide) (show SEG ≠ lit! "type" by decide)]

theorem onlyId_attrsOf {m : Dict Str Str} {d : Data} (hk : XmlDataKept m d) :
    (∀ x ∈ attrsOf d, x.1 = lit! "id" ∨ x.1 = lit! "type") ↔ d.attrs = [] := by
  constructor
  · intro h
    rw [List.eq_nil_iff_forall_not_mem]
    intro x hx
    have := attrs_plain hk x hx
    rcases h x (by rw [attrsOf]; exact List.mem_append_right _ hx) with h | h
    · exact this.1 h
    · exact this.2 h
  · intro h x hx
    rw [attrsOf, h, List.append_nil, List.mem_append, mem_optAttr, mem_optAttr] at hx
    exact hx.imp (·.1) (·.1)

/-! ### Classes -/

omit [Uni] [XmlLex] [Xsd] in
theorem all2_length {α β : Type} {R : α → β → Prop} {xs : List α} {ys : List β} (h : All2 R xs ys) : xs.length = ys.length := by
  induction h with
  | nil => rfl
  | cons _ _ ih => simp [ih]

/-- `f` is written and read back as `p`; its documents satisfy `D` just if `F` holds -/
def Doc (D : Node → Prop) (scope : Dict Str Str) (build : Py Elem) (tag : Str) (F : Prop) : Prop :=
  ∃ e p, build = .ok e ∧ parseElem scope e = .ok p ∧ p.tag = tag ∧ ∀ n, Shp p n → (D n ↔ F)

theorem mapPy_doc {build : Obj → Py Elem} {D : Node → Prop} {F : Obj → Prop} {scope : Dict Str Str} {tag : Str} :
    ∀ {xs : List Obj}, (∀ x ∈ xs, Doc D scope (build x) tag (F x)) →
    ∃ es ps, mapPy build xs = .ok es ∧ mapPy (parseElem scope) es = .ok ps ∧ (∀ p ∈ ps, p.tag = tag) ∧
      ∀ ns, All2 Shp ps ns → ((∀ n ∈ ns, D n) ↔ ∀ x ∈ xs, F x) := by
  intro xs
  induction xs with
  | nil =>
    intro _
    refine ⟨[], [], rfl, rfl, by simp, ?_⟩
    intro ns h; cases h; simp
  | cons x xs ih =>
    intro h
    obtain ⟨e, p, h1, h2, h3, h4⟩ := h x (by simp)
    obtain ⟨es, ps, i1, i2, i3, i4⟩ := ih fun y hy => h y (by simp [hy])
    refine ⟨e :: es, p :: ps, ?_, ?_, ?_, ?_⟩
    · simp only [mapPy, h1, i1, bind, Except.bind, pure, Except.pure]
    · simp only [mapPy, h2, i2, bind, Except.bind, pure, Except.pure]
    · intro q hq
      rcases List.mem_cons.1 hq with rfl | hq
      · exact h3
      · exact i3 q hq
    · intro ns hns
      cases hns with
      | cons a b =>
        simp only [List.forall_mem_cons, h4 _ a, i4 _ b]

theorem Shp.inv {tag as m t ps n} (h : Shp (.mk tag as m t ps) n) : ∃ t' ns, n = .elem tag as (textNode t' ++ ns) ∧
    (t' = t ∨ (ps ≠ [] ∧ blank t = true ∧ Ws (t'.getD []))) ∧ WsOnly ns ∧ All2 Shp ps (elems ns) := by
  cases h with
  | mk h1 h2 h3 h4 => exact ⟨_, _, rfl, h2, h3, h4⟩

theorem Shp.tag_eq {p : PElem} {n : Node} (h : Shp p n) : ∃ as ns, n = .elem p.tag as ns := by
  cases h; exact ⟨_, _, rfl⟩

theorem elems_text_append (t : Option Str) (ns : List Node) : elems (textNode t ++ ns) = elems ns := by
  rw [elems_append, elems_textNode, List.nil_append]

/-- elements without text of their own have white space only -/
theorem wsOnly_none {t' : Option Str} {ps : List PElem} {ns : List Node} (h : t' = none ∨ (ps ≠ [] ∧ blank none = true ∧ Ws (t'.getD [])))
    (hw : WsOnly ns) : WsOnly (textNode t' ++ ns) := by
  refine wsOnly_append.2 ⟨?_, hw⟩
  rcases h with rfl | ⟨_, _, h⟩
  · simp [textNode, WsOnly]
  · exact wsOnly_textNode h

theorem d_item {scope eff} (h : XCtx scope eff) {x : Obj} (hc : x.cls = .item) (hw : x.WF) (hv : x.Valid) (hk : XmlKept eff x) :
    Doc ItemDoc scope (buildItem eff x) (lit! "item") (ItemFits x) := by
  have n := XNode.of hc hw hv hk
  obtain ⟨d, md, kids⟩ := x
  simp only [Obj.data_mk, Obj.md_mk, Obj.kids_mk] at n
  obtain ⟨e, h1, h2⟩ := n.elem h (by decide) (tag := lit! "item") (ncName_of (by simp)) (n.parse_text (n.kept.item n.cls_eq))
    (ks := []) (ks' := []) (by rw [parseElems])
  refine ⟨e, _, h1, h2, rfl, fun nd hs => ?_⟩
  obtain ⟨t', ns, rfl, -, -, h4⟩ := hs.inv
  have he : elems ns = [] := by
    revert h4; generalize elems ns = l; intro h4; cases h4; rfl
  simp only [ItemDoc, ItemFits, elems_text_append, he, Obj.data_mk, and_true, true_and]
  rw [show optAttr (lit! "id") d.id ++ optAttr (lit! "type") d.type ++ d.attrs = attrsOf d from rfl, hasId_attrsOf n.kept, refsFit_attrsOf]

theorem d_mc (x : Obj) (hc : x.cls = .metaChild) (hw : x.WF) (hv : x.Valid) {scope eff} (h : XCtx scope eff) (hk : XmlKept eff x) :
    ∃ e p, buildMc eff x = .ok e ∧ parseElem scope e = .ok p := by
  obtain ⟨e, p, h1, h2, -⟩ := x_mc x hc hw hv h hk
  exact ⟨e, p, h1, h2⟩

theorem d_meta {scope eff} (h : XCtx scope eff) {x : Obj} (hc : x.cls = .metaC) (hw : x.WF) (hv : x.Valid) (hk : XmlKept eff x) :
    Doc MetaDoc scope (buildMeta eff x) (lit! "meta") (MetaFits x) := by
  have n := XNode.of hc hw hv hk
  obtain ⟨d, md, kids⟩ := x
  simp only [Obj.data_mk, Obj.md_mk, Obj.kids_mk] at n
  have hs := h.step n.nsmap_wf n.kept
  obtain ⟨es, ps, k1, k2, _, k3⟩ := mapPy_xrt (build := buildMc (effNs d eff)) (read := readMc) (P := fun _ => True)
    (f := xres (scopeIn d scope eff) (effNs d eff)) (scope := scopeIn d scope eff) (xs := kids) (fun x hx => by
      have hcx := n.kids_cls x hx
      exact x_mc x (by injection hcx) (n.kids_wf x hx) (n.kids_valid x hx) hs (n.kept_kids x hx))
  obtain ⟨ht1, ht2⟩ := n.text_meta (.inl rfl)
  obtain ⟨e, h1, h2⟩ := n.elem h (by decide) (tag := lit! "meta") (ncName_of (by simp)) (n.parse_text ht1)
    (ks := es) (ks' := ps) (by rw [parseElems_eq]; exact k2)
  refine ⟨e, _, ?_, h2, rfl, fun nd hsh => ?_⟩
  · simp only [buildMeta, Obj.data_mk, Obj.kids_mk, buildMcs_eq, k1, bind, Except.bind]
    exact h1
  obtain ⟨t', ns, rfl, ht, hwn, h4⟩ := hsh.inv
  -- the text has a character that is no white space
  have hblank : blank d.text = true → d.text = none := by
    intro hb
    cases htx : d.text with
    | none => rfl
    | some t =>
      obtain ⟨c, hc, hsp⟩ := n.kept.metas (.inl n.cls_eq) t htx
      rw [htx] at hb
      rw [blank_iff.1 hb c hc] at hsp; cases hsp
  have hkids : elems ns = [] ↔ kids = [] := by
    have l1 : (elems ns).length = ps.length := (all2_length h4).symm
    have l2 : ps.length = kids.length := by
      have := all2_length (mapPy_ok_iff.1 k3)
      simpa using this
    rw [← List.length_eq_zero_iff, ← List.length_eq_zero_iff, l1, l2]
  have htext : WsOnly (textNode t' ++ ns) ↔ d.text = none := by
    rw [wsOnly_append]
    constructor
    · rintro ⟨g, -⟩
      rcases ht with rfl | ⟨-, hb, -⟩
      · cases htx : d.text with
        | none => rfl
        | some t =>
          obtain ⟨c, hc, hsp⟩ := n.kept.metas (.inl n.cls_eq) t htx
          rw [htx] at g
          have hne : t ≠ [] := by rintro rfl; cases hc
          have := g t (by simp [textNode, hne]) c hc
          have hsp' : Uni.isSpace c = true := by
            simp only [xmlSpace, Bool.or_eq_true, decide_eq_true_eq] at this
            rcases this with ((rfl | rfl) | rfl) | rfl <;> (rw [Uni.ascii_space _ (by decide)]; decide)
          rw [hsp'] at hsp; cases hsp
      · exact hblank hb
    · intro hn
      refine ⟨?_, hwn⟩
      rcases ht with rfl | ⟨-, -, hb⟩
      · rw [hn]; simp [textNode, WsOnly]
      · exact wsOnly_textNode hb
  simp only [MetaDoc, MetaFits, elems_text_append, hkids, htext, Obj.data_mk, Obj.kids_mk, true_and]
  rw [show optAttr (lit! "id") d.id ++ optAttr (lit! "type") d.type ++ d.attrs = attrsOf d from rfl, optId_attrsOf n.kept, noRefs_attrsOf]

theorem d_md {scope eff} (h : XCtx scope eff) {x : Obj} (hc : x.cls = .metadata) (hw : x.WF) (hv : x.Valid) (hk : XmlKept eff x) :
    Doc MdDoc scope (buildMd eff x) (lit! "metadata") (MdFits x) := by
  have n := XNode.of hc hw hv hk
  obtain ⟨d, md, kids⟩ := x
  simp only [Obj.data_mk, Obj.md_mk, Obj.kids_mk] at n
  have hs := h.step n.nsmap_wf n.kept
  obtain ⟨es, ps, k1, k2, kt, k3⟩ := mapPy_doc (build := buildMeta (effNs d eff)) (D := MetaDoc) (F := MetaFits) (tag := lit! "meta")
    (scope := scopeIn d scope eff) (xs := kids) (fun x hx => by
      have hcx := n.kids_cls x hx
      exact d_meta hs (by injection hcx) (n.kids_wf x hx) (n.kids_valid x hx) (n.kept_kids x hx))
  obtain ⟨e, h1, h2⟩ := n.elem h (by decide) (tag := lit! "metadata") (ncName_of (by simp)) (text := none) (text' := none) rfl
    (ks := es) (ks' := ps) (by rw [parseElems_eq]; exact k2)
  refine ⟨e, _, ?_, h2, rfl, fun nd hsh => ?_⟩
  · simp only [buildMd, Obj.data_mk, Obj.kids_mk, k1, bind, Except.bind]
    exact h1
  obtain ⟨t', ns, rfl, ht, hwn, h4⟩ := hsh.inv
  have hws := wsOnly_none ht hwn
  simp only [MdDoc, MdFits, elems_text_append, Obj.data_mk, Obj.kids_mk, true_and, hws, k3 _ h4]
  rw [show optAttr (lit! "id") d.id ++ optAttr (lit! "type") d.type ++ d.attrs = attrsOf d from rfl, optId_attrsOf n.kept, noRefs_attrsOf]

theorem all2_append {α β : Type} {R : α → β → Prop} : ∀ {a b : List α} {l : List β}, All2 R (a ++ b) l →
    ∃ u v, l = u ++ v ∧ All2 R a u ∧ All2 R b v := by
  intro a
  induction a with
  | nil => intro b l h; exact ⟨[], l, rfl, .nil, h⟩
  | cons x a ih =>
    intro b l h
    cases h with
    | cons hx hl =>
      obtain ⟨u, v, rfl, h1, h2⟩ := ih hl
      exact ⟨_ :: u, v, rfl, .cons hx h1, h2⟩

/-- the tag of a node -/
def tagOf : Node → Str
  | .elem tag _ _ => tag
  | .text _ => []

theorem mdDoc_tag {n : Node} (h : MdDoc n) : tagOf n = lit! "metadata" := by
  cases n with
  | text => exact h.elim
  | elem => exact h.1

/-- metadata and contents of corpora, igts and tiers -/
theorem d_outer {scope eff} (h : XCtx scope eff) {cls : Cls} {d : Data} {md kids : List Obj} (n : XNode eff cls d md kids)
    (hc1 : cls ≠ .metaChild) {tag : Str} (htag : XmlLex.ncName tag = true) {ktag : Str} (hkt : ktag ≠ lit! "metadata")
    (buildK : Dict Str Str → Obj → Py Elem) {D : Node → Prop} {F : Obj → Prop} (hD : ∀ n, D n → tagOf n = ktag)
    (hK : ∀ x ∈ kids, ∀ scope, XCtx scope (effNs d eff) → Doc D scope (buildK (effNs d eff) x) ktag (F x)) :
    ∃ ms ks e ps, mapPy (buildMd (effNs d eff)) md = .ok ms ∧ mapPy (buildK (effNs d eff)) kids = .ok ks ∧
      buildElem tag d eff none (ms ++ ks) = .ok e ∧
      parseElem scope e = .ok (.mk tag (attrsOf d) (scopeIn d scope eff) none ps) ∧
      ∀ nd, Shp (.mk tag (attrsOf d) (scopeIn d scope eff) none ps) nd → ∃ ns, nd = .elem tag (attrsOf d) ns ∧
        (TwoKinds MdDoc D ns ↔ (∀ m ∈ md, MdFits m) ∧ ∀ x ∈ kids, F x) := by
  have hs := h.step n.nsmap_wf n.kept
  obtain ⟨ms, pm, m1, m2, mt, m3⟩ := mapPy_doc (build := buildMd (effNs d eff)) (D := MdDoc) (F := MdFits) (tag := lit! "metadata")
    (scope := scopeIn d scope eff) (xs := md) (fun x hx => d_md hs (n.md_cls x hx) (n.md_wf x hx) (n.md_valid x hx) (n.kept_md x hx))
  obtain ⟨ks, pk, k1, k2, kt, k3⟩ := mapPy_doc (build := buildK (effNs d eff)) (D := D) (F := F) (tag := ktag)
    (scope := scopeIn d scope eff) (xs := kids) (fun x hx => hK x hx _ hs)
  obtain ⟨e, h1, h2⟩ := n.elem h hc1 htag (text := none) (text' := none) rfl
    (ks := ms ++ ks) (ks' := pm ++ pk) (by rw [parseElems_eq]; exact mapPy_append m2 k2)
  refine ⟨ms, ks, e, pm ++ pk, m1, k1, h1, h2, fun nd hsh => ?_⟩
  obtain ⟨t', ns, rfl, ht, hwn, h4⟩ := hsh.inv
  refine ⟨_, rfl, ?_⟩
  have hws := wsOnly_none ht hwn
  obtain ⟨u, v, huv, hu, hv⟩ := all2_append h4
  have tu : ∀ x ∈ u, tagOf x = lit! "metadata" := by
    intro x hx
    obtain ⟨p, hp, hs⟩ := mem_all2 hu hx
    obtain ⟨as, ns', rfl⟩ := hs.tag_eq
    exact mt p hp
  have tv : ∀ x ∈ v, tagOf x = ktag := by
    intro x hx
    obtain ⟨p, hp, hs⟩ := mem_all2 hv hx
    obtain ⟨as, ns', rfl⟩ := hs.tag_eq
    exact kt p hp
  rw [← m3 u hu, ← k3 v hv, TwoKinds, elems_text_append, huv]
  constructor
  · rintro ⟨-, l, r, hlr, hl, hr⟩
    have f : ∀ {a b : List Node}, (∀ x ∈ a, tagOf x = lit! "metadata") → (∀ x ∈ b, tagOf x = ktag) →
        (a ++ b).filter (fun x => decide (tagOf x = lit! "metadata")) = a ∧ (a ++ b).filter (fun x => decide (tagOf x ≠ lit! "metadata")) = b := by
      intro a b ha hb
      rw [List.filter_append, List.filter_append]
      have a1 : a.filter (fun x => decide (tagOf x = lit! "metadata")) = a := by
        rw [List.filter_eq_self]; intro x hx; simpa using ha x hx
      have a2 : a.filter (fun x => decide (tagOf x ≠ lit! "metadata")) = [] := by
        rw [List.filter_eq_nil_iff]; intro x hx; simpa using ha x hx
      have b1 : b.filter (fun x => decide (tagOf x = lit! "metadata")) = [] := by
        rw [List.filter_eq_nil_iff]; intro x hx; rw [hb x hx]; simpa using hkt
      have b2 : b.filter (fun x => decide (tagOf x ≠ lit! "metadata")) = b := by
        rw [List.filter_eq_self]; intro x hx; rw [hb x hx]; simpa using hkt
      rw [a1, a2, b1, b2, List.append_nil, List.nil_append]; exact ⟨rfl, rfl⟩
    have e1 := f tu tv
    have e2 := f (fun x hx => mdDoc_tag (hl x hx)) (fun x hx => hD x (hr x hx))
    rw [hlr] at e1
    have g1 : l = u := e2.1.symm.trans e1.1
    have g2 : r = v := e2.2.symm.trans e1.2
    subst g1 g2
    exact ⟨hl, hr⟩
  · rintro ⟨hl, hr⟩
    exact ⟨hws, u, v, rfl, hl, hr⟩

theorem d_tier {scope eff} (h : XCtx scope eff) {x : Obj} (hc : x.cls = .tier) (hw : x.WF) (hv : x.Valid) (hk : XmlKept eff x) :
    Doc TierDoc scope (buildTier eff x) (lit! "tier") (TierFits x) := by
  have n := XNode.of hc hw hv hk
  obtain ⟨d, md, kids⟩ := x
  simp only [Obj.data_mk, Obj.md_mk, Obj.kids_mk] at n
  obtain ⟨ms, ks, e, ps, m1, k1, h1, h2, r⟩ := d_outer h n (by decide) (tag := lit! "tier") (ncName_of (by simp))
    (ktag := lit! "item") (by decide) buildItem (D := ItemDoc) (F := ItemFits) (fun n hn => by
      cases n with
      | text => exact hn.elim
      | elem => exact hn.1) (fun x hx scope hs => by
      have hcx := n.kids_cls x hx
      exact d_item hs (by injection hcx) (n.kids_wf x hx) (n.kids_valid x hx) (n.kept_kids x hx))
  refine ⟨e, _, ?_, h2, rfl, fun nd hsh => ?_⟩
  · simp only [buildTier, Obj.data_mk, Obj.md_mk, Obj.kids_mk, m1, k1, bind, Except.bind]
    exact h1
  obtain ⟨ns, rfl, hr⟩ := r nd hsh
  have ht : (∃ v, (lit! "type", v) ∈ attrsOf d) ↔ d.type.isSome = true := by
    simp only [mem_attrsOf_type n.kept]
    exact Option.isSome_iff_exists.symm
  simp only [TierDoc, TierFits, Obj.data_mk, Obj.md_mk, Obj.kids_mk, true_and, hr, hasId_attrsOf n.kept, refsFit_attrsOf, ht]

theorem d_igt {scope eff} (h : XCtx scope eff) {x : Obj} (hc : x.cls = .igt) (hw : x.WF) (hv : x.Valid) (hk : XmlKept eff x) :
    Doc IgtDoc scope (buildIgt eff x) (lit! "igt") (IgtFits x) := by
  have n := XNode.of hc hw hv hk
  obtain ⟨d, md, kids⟩ := x
  simp only [Obj.data_mk, Obj.md_mk, Obj.kids_mk] at n
  obtain ⟨ms, ks, e, ps, m1, k1, h1, h2, r⟩ := d_outer h n (by decide) (tag := lit! "igt") (ncName_of (by simp))
    (ktag := lit! "tier") (by decide) buildTier (D := TierDoc) (F := TierFits) (fun n hn => by
      cases n with
      | text => exact hn.elim
      | elem => exact hn.1) (fun x hx scope hs => by
      have hcx := n.kids_cls x hx
      exact d_tier hs (by injection hcx) (n.kids_wf x hx) (n.kids_valid x hx) (n.kept_kids x hx))
  refine ⟨e, _, ?_, h2, rfl, fun nd hsh => ?_⟩
  · simp only [buildIgt, Obj.data_mk, Obj.md_mk, Obj.kids_mk, m1, k1, bind, Except.bind]
    exact h1
  obtain ⟨ns, rfl, hr⟩ := r nd hsh
  simp only [IgtDoc, IgtFits, Obj.data_mk, Obj.md_mk, Obj.kids_mk, true_and, hr, hasId_attrsOf n.kept, noRefs_attrsOf]

theorem d_corpus {x : Obj} (hc : x.cls = .corpus) (hw : x.WF) (hv : x.Valid) (hk : XmlKept [] x) :
    Doc CorpusDoc [] (buildCorpus x) (lit! "xigt-corpus") (CorpusFits x) := by
  have n := XNode.of hc hw hv hk
  obtain ⟨d, md, kids⟩ := x
  simp only [Obj.data_mk, Obj.md_mk, Obj.kids_mk] at n
  obtain ⟨ms, ks, e, ps, m1, k1, h1, h2, r⟩ := d_outer XCtx.top n (by decide) (tag := lit! "xigt-corpus") (ncName_of (by simp))
    (ktag := lit! "igt") (by decide) buildIgt (D := IgtDoc) (F := IgtFits) (fun n hn => by
      cases n with
      | text => exact hn.elim
      | elem => exact hn.1) (fun x hx scope hs => by
      have hcx := n.kids_cls x hx
      exact d_igt hs (by injection hcx) (n.kids_wf x hx) (n.kids_valid x hx) (n.kept_kids x hx))
  refine ⟨e, _, ?_, h2, rfl, fun nd hsh => ?_⟩
  · simp only [buildCorpus, Obj.data_mk, Obj.md_mk, Obj.kids_mk, m1, k1, bind, Except.bind]
    exact h1
  obtain ⟨ns, rfl, hr⟩ := r nd hsh
  simp only [CorpusDoc, CorpusFits, Obj.data_mk, Obj.md_mk, Obj.kids_mk, true_and, hr, optId_attrsOf n.kept, onlyId_attrsOf n.kept]

/-- C98: every corpus that can be written (`XmlKept`), with whatever indentation, gives a text whose
document is valid against xigt-structure.rnc just if the corpus fits the schema (`CorpusFits`). -/
theorem C98_iff (x : Obj) (hc : x.cls = .corpus) (hw : x.WF) (hv : x.Valid) (hk : XmlKept [] x) (ind : Option Int) :
    ∃ s doc, dumpsXml ind x = .ok s ∧ docText s = .ok doc ∧ (Valid structure_rnc doc ↔ CorpusFits x) := by
  obtain ⟨e, p, h1, h2, -, h4⟩ := d_corpus hc hw hv hk
  obtain ⟨q, hq, hs⟩ := shp_any ind (buildCorpus_noTails x e h1) h2
  have hd := docText_ser (indent ind e) (indent_keys' (buildCorpus_keys x e h1) ind) (indent_tail (buildOf_tail (c := .corpus) (m := []) h1) ind) q hq
  refine ⟨ser (indent ind e), _, by simp only [dumpsXml, h1, bind, Except.bind, pure, Except.pure], hd, ?_⟩
  rw [valid_iff (hs.distinct)]
  exact h4 _ hs

end
end Xigt.Rng
