import Verif.Json.Lemmas
import Verif.Equality.Props
import Verif.Attr.Props
/- Properties of the JSON codec: C38, C39, C67. -/

set_option linter.unusedSectionVars false

namespace Xigt
section
variable [Uni]

/-! ### Namespaces while encoding and decoding -/

/-- the maps that are passed around: `eff` is `x.nsmap` of the parent, `ctx` the context of encoding,
`nsm` that of decoding -/
structure NsCtx (scope : Str → Option Str) (eff ctx nsm : Dict Str Str) : Prop where
  eff_wf : eff.WF
  ctx_wf : ctx.WF
  sub : ∀ p u, Dict.get? eff p = some u → Dict.get? ctx p = some u
  ctx_eq : ∀ p, Dict.get? ctx p = scope p
  nsm_eq : ∀ p, Dict.get? nsm p = scope p

theorem NsCtx.top : NsCtx noScope [] [] [] :=
  ⟨Dict.wf_nil, Dict.wf_nil, fun _ _ h => by simp [Dict.get?] at h, fun _ => rfl, fun _ => rfl⟩

theorem newNs_wf {active ctx : Dict Str Str} (h : active.WF) : Dict.WF (newNs active ctx) := by
  unfold Dict.WF Dict.keys newNs
  exact List.Nodup.sublist (List.Sublist.map _ List.filter_sublist) h

theorem get?_newNs {active ctx : Dict Str Str} (ha : active.WF) (hc : ctx.WF) (p : Str) :
    (Dict.get? (newNs active ctx) p).or (Dict.get? ctx p) = (Dict.get? active p).or (Dict.get? ctx p) := by
  cases hg : Dict.get? (newNs active ctx) p with
  | some u =>
    have hm := List.mem_filter.1 (Dict.get?_mem hg)
    rw [Dict.get?_of_mem ha hm.1]
  | none =>
    cases hga : Dict.get? active p with
    | none => rfl
    | some u =>
      by_cases hin : (p, u) ∈ ctx
      · rw [Dict.get?_of_mem hc hin]; rfl
      · exfalso
        have : (p, u) ∈ newNs active ctx := List.mem_filter.2 ⟨Dict.get?_mem hga, by simpa using hin⟩
        rw [Dict.get?_of_mem (newNs_wf ha) this] at hg
        cases hg

theorem decNs_getD (ns : Dict Str Str) : (decNs ns).getD [] = ns := by
  rw [decNs]; cases ns <;> simp

theorem NsCtx.step {scope eff ctx nsm} (h : NsCtx scope eff ctx nsm) {d : Data} (hd : ∀ m, d.nsmap = some m → m.WF) :
    NsCtx (inner d.nsmap scope) (effNs d eff) (activeNs d eff ctx) (Dict.update nsm (newNs (activeNs d eff ctx) ctx)) := by
  have heff : (effNs d eff).WF := by
    unfold effNs
    cases hm : d.nsmap with
    | none => exact h.eff_wf
    | some m => exact hd m hm
  have hctx : (activeNs d eff ctx).WF := WF_update _ _ h.ctx_wf
  have hact : ∀ p, Dict.get? (activeNs d eff ctx) p = (Dict.get? (effNs d eff) p).or (Dict.get? ctx p) :=
    fun p => get?_update _ heff _ _
  have hin : ∀ p, Dict.get? (activeNs d eff ctx) p = inner d.nsmap scope p := by
    intro p
    rw [hact]
    unfold inner effNs
    cases hm : d.nsmap with
    | some m => simp [h.ctx_eq]
    | none =>
      simp only [Option.getD_none]
      cases he : Dict.get? eff p with
      | none => simp [h.ctx_eq]
      | some u => rw [← h.ctx_eq, h.sub p u he]; rfl
  refine ⟨heff, hctx, fun p u he => by rw [hact, he]; rfl, hin, fun p => ?_⟩
  rw [get?_update _ (newNs_wf hctx), ← hin]
  have := get?_newNs hctx h.ctx_wf p
  rw [h.nsm_eq, ← h.ctx_eq, this, hact]
  cases Dict.get? (effNs d eff) p <;> simp

theorem makeObj_ok {scope eff ctx nsm} (h : NsCtx scope eff ctx nsm) {d : Data} (hd : ∀ m, d.nsmap = some m → m.WF)
    (ha : d.attrs.WF) (hk : ∀ k v, (k, v) ∈ d.attrs → KeyKept (inner d.nsmap scope) k) :
    makeObj d eff ctx = .ok (baseFields d (newNs (activeNs d eff ctx) ctx)) := by
  have hs := h.step hd
  have := jsonAttrs_kept (inv := inverse (activeNs d eff ctx)) d.attrs [] (by simpa using ha) (fun k v hkv => by
    refine jsonKey_kept hs.ctx_wf ?_
    have := hk k v hkv
    intro r hr
    obtain ⟨uri, key, h1, h2, h3⟩ := this r hr
    exact ⟨uri, key, h1, h2, fun p => by rw [hs.ctx_eq]; exact h3 p⟩)
  simp only [makeObj, this, bind, Except.bind, pure, Except.pure, List.nil_append, baseFields]

theorem activeJson_ok {fs : List (Str × J)} {nsm ns : Dict Str Str} (h : jDictGet fs (lit! "namespaces") = .ok (decNs ns)) :
    activeJson fs nsm = .ok (Dict.update nsm ns) := by
  simp only [activeJson, h, bind, Except.bind, pure, Except.pure, decNs_getD]

/-! ### What is read back -/

mutual
/-- the object read back: the same, but with the namespace declarations that are new at each object -/
def jres (eff ctx : Dict Str Str) : Obj → Obj
  | .mk d md kids => .mk { d with nsmap := decNs (newNs (activeNs d eff ctx) ctx) }
      (jresL (effNs d eff) (activeNs d eff ctx) md) (jresL (effNs d eff) (activeNs d eff ctx) kids)
def jresL (eff ctx : Dict Str Str) : List Obj → List Obj
  | [] => []
  | x :: xs => jres eff ctx x :: jresL eff ctx xs
end

theorem jresL_eq (eff ctx : Dict Str Str) (xs : List Obj) : jresL eff ctx xs = xs.map (jres eff ctx) := by
  induction xs with
  | nil => simp [jresL]
  | cons x xs ih => simp [jresL, ih]

theorem jres_id (eff ctx : Dict Str Str) (x : Obj) : (jres eff ctx x).data.id = x.data.id := by
  cases x; simp [jres]

theorem ids_jres (eff ctx : Dict Str Str) (xs : List Obj) :
    ((xs.map (jres eff ctx)).filterMap fun x => x.data.id) = xs.filterMap fun x => x.data.id := by
  rw [List.filterMap_map]
  congr 1
  funext x
  exact jres_id eff ctx x

theorem jres_same : ∀ (x : Obj) (eff ctx : Dict Str Str), SameData (jres eff ctx x) x := by
  refine Obj.ind fun d md kids hm hk eff ctx => ?_
  rw [jres, jresL_eq, jresL_eq]
  refine .mk rfl rfl rfl rfl rfl rfl (List.Perm.refl _) (by simp) (by simp) ?_ ?_
  · intro i x y hx hy
    rw [List.getElem?_map, hy] at hx
    cases hx
    exact hm y (List.mem_of_getElem? hy) _ _
  · intro i x y hx hy
    rw [List.getElem?_map, hy] at hx
    cases hx
    exact hk y (List.mem_of_getElem? hy) _ _

theorem jres_cls (eff ctx : Dict Str Str) (x : Obj) : (jres eff ctx x).cls = x.cls := by
  cases x; simp [jres]

theorem jres_wf : ∀ (x : Obj), x.WF → ∀ (eff ctx : Dict Str Str), (jres eff ctx x).WF := by
  refine Obj.ind fun d md kids hm hk hwf eff ctx => ?_
  cases hwf with
  | mk h1 h2 h3 h4 h5 h6 h7 h8 =>
    rw [jres, jresL_eq, jresL_eq]
    refine .mk h1 h2 h3 (fun h => by rw [h4 h]; rfl) ?_ ?_ ?_ ?_
    all_goals
      intro x hx
      obtain ⟨y, hy, rfl⟩ := List.mem_map.1 hx
    · rw [jres_cls]; exact h5 y hy
    · rw [jres_cls]; exact h6 y hy
    · exact hm y hy (h7 y hy) _ _
    · exact hk y hy (h8 y hy) _ _

/-! ### Round trip, class by class -/

theorem get?_single (k j : Str) (v : J) : Dict.get? [(k, v)] j = if k = j then some v else none := rfl

theorem jres_mk (eff ctx : Dict Str Str) (d md kids) : jres eff ctx (.mk d md kids) =
    .mk { d with nsmap := decNs (newNs (activeNs d eff ctx) ctx) }
      (md.map (jres (effNs d eff) (activeNs d eff ctx))) (kids.map (jres (effNs d eff) (activeNs d eff ctx))) := by
  rw [jres, jresL_eq, jresL_eq]

/-- the object is one of the class and everything about it is in order -/
structure NodeOK (scope : Str → Option Str) (cls : Cls) (d : Data) (md kids : List Obj) : Prop where
  cls_eq : d.cls = cls
  wf : (Obj.mk d md kids).WF
  valid : (Obj.mk d md kids).Valid
  kept : DataKept (inner d.nsmap scope) d
  kept_md : ∀ x ∈ md, JsonKept (inner d.nsmap scope) x
  kept_kids : ∀ x ∈ kids, JsonKept (inner d.nsmap scope) x

namespace NodeOK
variable {scope : Str → Option Str} {cls : Cls} {d : Data} {md kids : List Obj} (n : NodeOK scope cls d md kids)

theorem of {x : Obj} (hc : x.cls = cls) (hw : x.WF) (hv : x.Valid) (hk : JsonKept scope x) :
    NodeOK scope cls x.data x.md x.kids := by
  cases hk with
  | mk k1 k2 k3 => exact ⟨hc, hw, hv, k1, k2, k3⟩

include n
theorem nsmap_wf : ∀ m, d.nsmap = some m → m.WF := by have := n.valid; cases this; assumption
theorem attrs_wf : d.attrs.WF := by have := n.wf; cases this; assumption
theorem id_ok : ∀ i, d.id = some i → idAccepted i = true := by have := n.valid; cases this; assumption
theorem name_ok : ∀ i, d.name = some i → nameOK i = true := by have := n.valid; cases this; assumption
theorem md_ids : (md.filterMap fun x => x.data.id).Nodup := by have := n.valid; cases this; assumption
theorem kid_ids : (kids.filterMap fun x => x.data.id).Nodup := by have := n.valid; cases this; assumption
theorem id_ne : d.id ≠ some [] := fun e => idAccepted_ne_nil (n.id_ok _ e) rfl
theorem name_none (h : cls ≠ .metaChild) : d.name = none := by
  have := n.wf
  cases this with
  | mk w1 w2 w3 =>
    cases hn : d.name with
    | none => rfl
    | some m => exact absurd (n.cls_eq.symm.trans (w3.1 (by simp [hn]))) h
theorem text_none (h : cls.hasText = false) : d.text = none := by
  have := n.wf
  cases this with
  | mk w1 w2 w3 => exact w2 (by rw [n.cls_eq]; exact h)
theorem md_nil (h : cls.hasMd = false) : md = [] := by
  have := n.wf
  cases this with
  | mk w1 w2 w3 w4 => exact w4 (by rw [n.cls_eq]; exact h)
theorem kids_cls : ∀ x ∈ kids, some x.cls = cls.contained := by
  have := n.wf
  cases this with
  | mk w1 w2 w3 w4 w5 w6 => rw [← n.cls_eq]; exact w6
theorem md_cls : ∀ x ∈ md, x.cls = .metadata := by have := n.wf; cases this; assumption
theorem md_wf : ∀ x ∈ md, x.WF := by have := n.wf; cases this; assumption
theorem kids_wf : ∀ x ∈ kids, x.WF := by have := n.wf; cases this; assumption
theorem md_valid : ∀ x ∈ md, x.Valid := by have := n.valid; cases this; assumption
theorem kids_valid : ∀ x ∈ kids, x.Valid := by have := n.valid; cases this; assumption

variable {eff ctx nsm : Dict Str Str} (h : NsCtx scope eff ctx nsm)
include h
theorem make : makeObj d eff ctx = .ok (baseFields d (newNs (activeNs d eff ctx) ctx)) :=
  makeObj_ok h n.nsmap_wf n.attrs_wf n.kept.attrs

theorem data (c : Cls) (extra : List (Str × J)) (hx : ∀ k ∈ baseKeys, Dict.get? extra k = none) :
    decodeData c (baseFields d (newNs (activeNs d eff ctx) ctx) ++ extra) =
      .ok { cls := c, id := d.id, type := d.type, attrs := d.attrs, ns := d.ns,
            nsmap := decNs (newNs (activeNs d eff ctx) ctx) } ∧
    activeJson (baseFields d (newNs (activeNs d eff ctx) ctx) ++ extra) nsm =
      .ok (Dict.update nsm (newNs (activeNs d eff ctx) ctx)) := by
  have := decodeData_base c d (newNs (activeNs d eff ctx) ctx) (baseFields d (newNs (activeNs d eff ctx) ctx) ++ extra)
    n.attrs_wf (newNs_wf (h.step n.nsmap_wf).ctx_wf) (fun k hk => by rw [get?_append, hx k hk]; simp) n.id_ne n.kept.type n.kept.ns
  exact ⟨this.1, activeJson_ok this.2⟩

omit h in
theorem extra_get (ns : Dict Str Str) (extra : List (Str × J)) (k : Str) (hk : k ∉ baseKeys) :
    Dict.get? (baseFields d ns ++ extra) k = Dict.get? extra k := by
  rw [get?_append, (get?_baseFields d ns n.id_ne n.kept.type n.kept.ns).2.2.2.2.2 k hk]
  rfl
end NodeOK

theorem jStr_of {fs : List (Str × J)} {k : Str} {s : Option Str} (h : Dict.get? fs k = s.map .str) : jStr fs k = .ok s := by
  rw [jStr, h]; cases s <;> rfl

theorem get?_textField (s : Option Str) (k : Str) : Dict.get? (textField s) k = if lit! "text" = k then s.map .str else none := by
  unfold textField field
  cases s <;> simp [Dict.get?]

theorem get?_listField (k j : Str) (l : List J) : Dict.get? (listField k l) j =
    if k = j ∧ l ≠ [] then some (.arr l) else none := by
  unfold listField
  cases l <;> simp [Dict.get?]

theorem jList_of {fs : List (Str × J)} {k : Str} {l : List J}
    (h : Dict.get? fs k = if l ≠ [] then some (.arr l) else none) : jList fs k = .ok l := by
  rw [jList, h]; cases l <;> simp

theorem jList_of' {fs : List (Str × J)} {k : Str} {l : List J}
    (h : Dict.get? fs k = some (.arr l)) : jList fs k = .ok l := by
  rw [jList, h]

theorem rt_item {scope eff ctx nsm} (h : NsCtx scope eff ctx nsm) {x : Obj} (hc : x.cls = .item) (hw : x.WF) (hv : x.Valid)
    (hk : JsonKept scope x) : ∃ j, encodeItem eff ctx x = .ok j ∧ decodeItem nsm j = .ok (jres eff ctx x) := by
  have n := NodeOK.of hc hw hv hk
  obtain ⟨d, md, kids⟩ := x
  simp only [Obj.data_mk, Obj.md_mk, Obj.kids_mk] at n
  have hmd := n.md_nil rfl
  have hkids : kids = [] := by
    cases kids with
    | nil => rfl
    | cons y ys => have := n.kids_cls y (by simp); cases this
  subst hmd hkids
  obtain ⟨hdd, hns⟩ := n.data h .item (strField (lit! "text") d.text) (by
    intro k hk; rw [get?_strField, if_neg (by rintro rfl; revert hk; decide)])
  have htext : jStr (baseFields d (newNs (activeNs d eff ctx) ctx) ++ strField (lit! "text") d.text) (lit! "text") = .ok d.text := by
    apply jStr_of
    rw [n.extra_get _ _ _ (by decide), get?_strField, filter_nonempty (n.kept.item n.cls_eq), if_pos rfl]
  refine ⟨.obj (baseFields d (newNs (activeNs d eff ctx) ctx) ++ strField (lit! "text") d.text), ?_, ?_⟩
  · simp only [encodeItem, Obj.data_mk, n.make h, bind, Except.bind, pure, Except.pure]
  · simp only [decodeItem, jObj, bind, Except.bind, hns, hdd, htext]
    refine (construct_ok ?_ ?_ ?_ ?_).trans ?_
    · exact n.id_ok
    · intro m hm; cases hm
    · simp
    · simp
    rw [jres_mk]
    have hname := n.name_none (by decide)
    have hcls := n.cls_eq
    obtain ⟨cls, id, type, attrs, ns, nsmap, text, name⟩ := d
    simp only at hcls hname
    subst hcls hname
    rfl

/-- the last step for classes without text and name -/
theorem rt_construct {scope eff ctx} {cls : Cls} {d : Data} {md kids : List Obj} (n : NodeOK scope cls d md kids)
    (hc1 : cls ≠ .metaChild) (hc2 : cls.hasText = false) :
    construct ⟨cls, d.id, d.type, d.attrs, d.ns, decNs (newNs (activeNs d eff ctx) ctx), none, none⟩ (md.map (jres (effNs d eff) (activeNs d eff ctx)))
      (kids.map (jres (effNs d eff) (activeNs d eff ctx))) = .ok (jres eff ctx (.mk d md kids)) := by
  refine (construct_ok ?_ ?_ ?_ ?_).trans ?_
  · exact n.id_ok
  · intro m hm; cases hm
  · rw [ids_jres]; exact n.md_ids
  · rw [ids_jres]; exact n.kid_ids
  rw [jres_mk]
  have hname := n.name_none hc1
  have htext := n.text_none hc2
  have hcls := n.cls_eq
  obtain ⟨cls, id, type, attrs, ns, nsmap, text, name⟩ := d
  simp only at hcls hname htext
  subst hcls hname htext
  rfl

theorem del_namespace (d : Data) (ns : Dict Str Str) (h1 : d.id = none) (h2 : d.type = none) :
    Dict.del (baseFields d ns) (lit! "namespace") = baseFields { d with ns := none } ns := by
  unfold baseFields strField field
  rw [h1, h2]
  cases hs : d.ns.filter (fun s => !s.isEmpty) <;> cases hb : d.attrs.isEmpty <;> cases hc : ns.isEmpty <;>
    simp [Dict.del]

theorem rt_mc : ∀ (x : Obj), x.cls = .metaChild → x.WF → x.Valid → ∀ {scope eff ctx nsm}, NsCtx scope eff ctx nsm →
    JsonKept scope x → ∃ j, encodeMc eff ctx x = .ok j ∧ decodeMc nsm j = .ok (jres eff ctx x) := by
  refine Obj.ind fun d md kids _ ih hc hw hv scope eff ctx nsm h hk => ?_
  have n := NodeOK.of hc hw hv hk
  simp only [Obj.data_mk, Obj.md_mk, Obj.kids_mk] at n
  have hmd := n.md_nil rfl
  subst hmd
  have hs := h.step n.nsmap_wf
  obtain ⟨js, j1, j2, j3⟩ := mapPy_rt (enc := encodeMc (effNs d eff) (activeNs d eff ctx))
    (dec := decodeMc (Dict.update nsm (newNs (activeNs d eff ctx) ctx)))
    (f := jres (effNs d eff) (activeNs d eff ctx)) (xs := kids) (fun x hx => by
      have hcx := n.kids_cls x hx
      exact ih x hx (by injection hcx) (n.kids_wf x hx) (n.kids_valid x hx) hs (n.kept_kids x hx))
  obtain ⟨name, hname⟩ : ∃ m, d.name = some m := by
    have := n.wf
    cases this with
    | mk w1 w2 w3 => exact Option.isSome_iff_exists.1 (w3.2 n.cls_eq)
  have hcolon := nameOK_no_colon (n.name_ok name hname)
  obtain ⟨hid, htype, hnsc⟩ := n.kept.child n.cls_eq
  -- the entries besides the common ones, for either way of writing the namespace
  have key : ∀ (ns : Option Str) (nm : Str), ns ≠ some [] →
      mcName (inverse (activeNs d eff ctx)) (baseFields d (newNs (activeNs d eff ctx) ctx)) name =
        baseFields { d with ns := ns } (newNs (activeNs d eff ctx) ctx) ++ [(lit! "name", .str nm)] →
      mcNameNs (Dict.update nsm (newNs (activeNs d eff ctx) ctx)) nm ns = (name, d.ns) →
      ∃ j, encodeMc eff ctx (.mk d [] kids) = .ok j ∧ decodeMc nsm j = .ok (jres eff ctx (.mk d [] kids)) := by
    intro ns nm hne hmc hnn
    have n' : NodeOK scope .metaChild { d with ns := none } [] kids :=
      { cls_eq := n.cls_eq
        wf := by have := n.wf; cases this with | mk w1 w2 w3 w4 w5 w6 w7 w8 => exact .mk w1 w2 w3 w4 w5 w6 w7 w8
        valid := by have := n.valid; cases this with | mk w1 w2 w3 w4 w5 w6 w7 => exact .mk w1 w2 w3 w4 w5 w6 w7
        kept := ⟨n.kept.type, by simp, n.kept.corpus, n.kept.item, n.kept.attrs, fun _ => ⟨hid, htype, by simp⟩⟩
        kept_md := n.kept_md
        kept_kids := n.kept_kids }
    let extra : List (Str × J) := (lit! "name", .str nm) :: (textField d.text ++ listField (lit! "children") js)
    have hex : ∀ k, Dict.get? extra k = if lit! "name" = k then some (.str nm) else
        (if lit! "text" = k then d.text.map .str else none).or (if lit! "children" = k ∧ js ≠ [] then some (.arr js) else none) := by
      intro k
      show Dict.get? ((lit! "name", J.str nm) :: (textField d.text ++ listField (lit! "children") js)) k = _
      rw [Dict.get?, get?_append, get?_textField, get?_listField]
    have hex0 : ∀ k ∈ baseKeys, Dict.get? extra k = none := by
      intro k hk
      rw [hex, if_neg (by rintro rfl; revert hk; decide), if_neg (by rintro rfl; revert hk; decide),
        if_neg (by rintro ⟨rfl, _⟩; revert hk; decide)]
      rfl
    have hb := decodeData_base .metaChild { d with ns := ns } (newNs (activeNs d eff ctx) ctx)
      (baseFields { d with ns := ns } (newNs (activeNs d eff ctx) ctx) ++ extra) n.attrs_wf (newNs_wf hs.ctx_wf)
      (fun k hk => by rw [get?_append, hex0 k hk]; simp) n.id_ne n.kept.type hne
    have hg : ∀ k, k ∉ baseKeys → Dict.get? (baseFields { d with ns := ns } (newNs (activeNs d eff ctx) ctx) ++ extra) k =
        Dict.get? extra k := by
      intro k hk
      rw [get?_append, (get?_baseFields { d with ns := ns } _ n.id_ne n.kept.type hne).2.2.2.2.2 k hk]
      rfl
    have g1 : jName (baseFields { d with ns := ns } (newNs (activeNs d eff ctx) ctx) ++ extra) = .ok nm := by
      rw [jName, hg _ (by decide), hex, if_pos rfl]
    have g2 : jStr (baseFields { d with ns := ns } (newNs (activeNs d eff ctx) ctx) ++ extra) (lit! "text") = .ok d.text := by
      apply jStr_of
      rw [hg _ (by decide), hex]
      simp
    have g3 : jList (baseFields { d with ns := ns } (newNs (activeNs d eff ctx) ctx) ++ extra) (lit! "children") = .ok js := by
      apply jList_of
      rw [hg _ (by decide), hex]
      simp
    refine ⟨.obj (baseFields { d with ns := ns } (newNs (activeNs d eff ctx) ctx) ++ extra), ?_, ?_⟩
    · simp only [encodeMc, n.make h, encodeMcs_eq, j1, bind, Except.bind, pure, Except.pure, hname, Option.getD_some, hmc]
      simp [extra]
    · simp only [decodeMc, activeJson_ok hb.2, g1, hb.1, g2, decodeMcKids_eq, g3, bind, Except.bind, j2, hnn]
      refine (construct_ok ?_ ?_ ?_ ?_).trans ?_
      · intro i hi; cases hi
      · intro m hm; cases hm; exact n.name_ok name hname
      · simp
      · rw [ids_jres]; exact n.kid_ids
      rw [jres_mk]
      have hcls := n.cls_eq
      clear n' hb g1 g2 g3 hex hex0 hg hmc
      obtain ⟨cls, id, type, attrs, ns, nsmap, text, name⟩ := d
      simp only at hcls hname hid htype
      subst hcls hname hid htype
      rfl
  have hnsg := (get?_baseFields d (newNs (activeNs d eff ctx) ctx) n.id_ne n.kept.type n.kept.ns).2.2.2.1
  cases hns : d.ns with
  | none =>
    refine key none name (by simp) ?_ ?_
    · rw [hns] at hnsg
      have hd : { d with ns := none } = d := by rw [← hns]
      rw [mcName, hnsg, hd]
      rfl
    · rw [mcNameNs, splitOnce_none hcolon, hns]; rfl
  | some u =>
    rw [hns] at hnsg
    obtain ⟨hp, hor⟩ := hnsc u hns
    cases hinv : Dict.get? (inverse (activeNs d eff ctx)) u with
    | some pre =>
      have hpre : Dict.get? (activeNs d eff ctx) pre = some u := inverse_some hs.ctx_wf hinv
      rw [hs.ctx_eq] at hpre
      refine key none (pre ++ ':' :: name) (by simp) ?_ ?_
      · rw [mcName, hnsg]
        simp only [Option.map_some, hinv]
        rw [del_namespace d _ hid htype]
      · rw [mcNameNs, splitOnce_some _ _ (hp pre hpre)]
        simp only [hs.nsm_eq, hpre, Option.getD_some, hns]
    | none =>
      have hu : inner d.nsmap scope u = none := by
        rcases hor with ⟨p, hp⟩ | hu
        · rw [← hs.ctx_eq] at hp
          obtain ⟨q, hq⟩ := inverse_isSome hp
          rw [hq] at hinv; cases hinv
        · exact hu
      refine key (some u) name (by rw [← hns]; exact n.kept.ns) ?_ ?_
      · rw [mcName, hnsg]
        have hd : { d with ns := some u } = d := by rw [← hns]
        simp only [Option.map_some, hinv, hd]
      · rw [mcNameNs, splitOnce_none hcolon]
        simp only [Option.map_some, hs.nsm_eq, hu, Option.getD_none, hns]

theorem rt_meta {scope eff ctx nsm} (h : NsCtx scope eff ctx nsm) {x : Obj} (hc : x.cls = .metaC) (hw : x.WF) (hv : x.Valid)
    (hk : JsonKept scope x) : ∃ j, encodeMeta eff ctx x = .ok j ∧ decodeMeta nsm j = .ok (jres eff ctx x) := by
  have n := NodeOK.of hc hw hv hk
  obtain ⟨d, md, kids⟩ := x
  simp only [Obj.data_mk, Obj.md_mk, Obj.kids_mk] at n
  have hmd := n.md_nil rfl
  subst hmd
  have hs := h.step n.nsmap_wf
  obtain ⟨js, j1, j2, j3⟩ := mapPy_rt (enc := encodeMc (effNs d eff) (activeNs d eff ctx))
    (dec := decodeMc (Dict.update nsm (newNs (activeNs d eff ctx) ctx)))
    (f := jres (effNs d eff) (activeNs d eff ctx)) (xs := kids) (fun x hx => by
      have hcx := n.kids_cls x hx
      exact rt_mc x (by injection hcx) (n.kids_wf x hx) (n.kids_valid x hx) hs (n.kept_kids x hx))
  have hex : ∀ k, Dict.get? (textField d.text ++ listField (lit! "children") js) k =
      (if lit! "text" = k then d.text.map .str else none).or (if lit! "children" = k ∧ js ≠ [] then some (.arr js) else none) := by
    intro k
    rw [get?_append, get?_textField, get?_listField]
  obtain ⟨hdd, hns⟩ := n.data h .metaC (textField d.text ++ listField (lit! "children") js) (by
    intro k hk
    rw [hex, if_neg (by rintro rfl; revert hk; decide), if_neg (by rintro ⟨rfl, _⟩; revert hk; decide)]
    rfl)
  refine ⟨.obj (baseFields d (newNs (activeNs d eff ctx) ctx) ++ (textField d.text ++ listField (lit! "children") js)), ?_, ?_⟩
  · simp only [encodeMeta, Obj.data_mk, Obj.kids_mk, n.make h, encodeMcs_eq, j1, bind, Except.bind, pure, Except.pure]
    simp
  · have g2 : jStr (baseFields d (newNs (activeNs d eff ctx) ctx) ++ (textField d.text ++ listField (lit! "children") js))
        (lit! "text") = .ok d.text := by
      apply jStr_of
      rw [n.extra_get _ _ _ (by decide), hex]
      simp
    have g3 : jList (baseFields d (newNs (activeNs d eff ctx) ctx) ++ (textField d.text ++ listField (lit! "children") js))
        (lit! "children") = .ok js := by
      apply jList_of
      rw [n.extra_get _ _ _ (by decide), hex]
      simp
    simp only [decodeMeta, jObj, hns, hdd, g2, decodeMcKids_eq, g3, bind, Except.bind, j2]
    refine (construct_ok ?_ ?_ ?_ ?_).trans ?_
    · exact n.id_ok
    · intro m hm; cases hm
    · simp
    · rw [ids_jres]; exact n.kid_ids
    rw [jres_mk]
    have hname := n.name_none (by decide)
    have hcls := n.cls_eq
    clear g2 g3 hdd hns hex
    obtain ⟨cls, id, type, attrs, ns, nsmap, text, name⟩ := d
    simp only at hcls hname
    subst hcls hname
    rfl

theorem rt_md {scope eff ctx nsm} (h : NsCtx scope eff ctx nsm) {x : Obj} (hc : x.cls = .metadata) (hw : x.WF) (hv : x.Valid)
    (hk : JsonKept scope x) : ∃ j, encodeMd eff ctx x = .ok j ∧ decodeMd nsm j = .ok (jres eff ctx x) := by
  have n := NodeOK.of hc hw hv hk
  obtain ⟨d, md, kids⟩ := x
  simp only [Obj.data_mk, Obj.md_mk, Obj.kids_mk] at n
  have hmd := n.md_nil rfl
  subst hmd
  have hs := h.step n.nsmap_wf
  obtain ⟨js, j1, j2, j3⟩ := mapPy_rt (enc := encodeMeta (effNs d eff) (activeNs d eff ctx))
    (dec := decodeMeta (Dict.update nsm (newNs (activeNs d eff ctx) ctx)))
    (f := jres (effNs d eff) (activeNs d eff ctx)) (xs := kids) (fun x hx => by
      have hcx := n.kids_cls x hx
      exact rt_meta hs (by injection hcx) (n.kids_wf x hx) (n.kids_valid x hx) (n.kept_kids x hx))
  obtain ⟨hdd, hns⟩ := n.data h .metadata [(lit! "metas", .arr js)] (by
    intro k hk; rw [get?_single, if_neg (by rintro rfl; revert hk; decide)])
  refine ⟨.obj (baseFields d (newNs (activeNs d eff ctx) ctx) ++ [(lit! "metas", .arr js)]), ?_, ?_⟩
  · simp only [encodeMd, Obj.data_mk, Obj.kids_mk, n.make h, j1, bind, Except.bind, pure, Except.pure]
  · have g3 : jList (baseFields d (newNs (activeNs d eff ctx) ctx) ++ [(lit! "metas", .arr js)]) (lit! "metas") = .ok js :=
      jList_of' (by rw [n.extra_get _ _ _ (by decide), get?_single, if_pos rfl])
    simp only [decodeMd, jObj, hns, hdd, g3, bind, Except.bind, j2]
    exact rt_construct n (by decide) rfl

/-- metadata and contents of corpora, igts and tiers -/
theorem rt_outer {scope eff ctx nsm} (h : NsCtx scope eff ctx nsm) {cls : Cls} {d : Data} {md kids : List Obj}
    (n : NodeOK scope cls d md kids) (hc1 : cls ≠ .metaChild) (hc2 : cls.hasText = false) (key : Str) (hkey : key ∉ baseKeys)
    (hkey2 : key ≠ lit! "metadata")
    (encK : Dict Str Str → Dict Str Str → Obj → Py J) (decK : Dict Str Str → J → Py Obj)
    (hK : ∀ x ∈ kids, ∀ eff ctx nsm, NsCtx (inner d.nsmap scope) eff ctx nsm →
      ∃ j, encK eff ctx x = .ok j ∧ decK nsm j = .ok (jres eff ctx x)) :
    ∃ ms ks, mapPy (encodeMd (effNs d eff) (activeNs d eff ctx)) md = .ok ms ∧
      mapPy (encK (effNs d eff) (activeNs d eff ctx)) kids = .ok ks ∧
      ∃ fs, fs = baseFields d (newNs (activeNs d eff ctx) ctx) ++ (listField (lit! "metadata") ms ++ [(key, .arr ks)]) ∧
        activeJson fs nsm = .ok (Dict.update nsm (newNs (activeNs d eff ctx) ctx)) ∧
        decodeData cls fs = .ok ⟨cls, d.id, d.type, d.attrs, d.ns, decNs (newNs (activeNs d eff ctx) ctx), none, none⟩ ∧
        jList fs (lit! "metadata") = .ok ms ∧ jList fs key = .ok ks ∧
        mapPy (decodeMd (Dict.update nsm (newNs (activeNs d eff ctx) ctx))) ms =
          .ok (md.map (jres (effNs d eff) (activeNs d eff ctx))) ∧
        mapPy (decK (Dict.update nsm (newNs (activeNs d eff ctx) ctx))) ks =
          .ok (kids.map (jres (effNs d eff) (activeNs d eff ctx))) := by
  have hs := h.step n.nsmap_wf
  obtain ⟨ms, m1, m2, _⟩ := mapPy_rt (enc := encodeMd (effNs d eff) (activeNs d eff ctx))
    (dec := decodeMd (Dict.update nsm (newNs (activeNs d eff ctx) ctx)))
    (f := jres (effNs d eff) (activeNs d eff ctx)) (xs := md) (fun x hx =>
      rt_md hs (n.md_cls x hx) (n.md_wf x hx) (n.md_valid x hx) (n.kept_md x hx))
  obtain ⟨ks, j1, j2, _⟩ := mapPy_rt (enc := encK (effNs d eff) (activeNs d eff ctx))
    (dec := decK (Dict.update nsm (newNs (activeNs d eff ctx) ctx)))
    (f := jres (effNs d eff) (activeNs d eff ctx)) (xs := kids) (fun x hx => hK x hx _ _ _ hs)
  have hex : ∀ k, Dict.get? (listField (lit! "metadata") ms ++ [(key, .arr ks)]) k =
      (if lit! "metadata" = k ∧ ms ≠ [] then some (.arr ms) else none).or (if key = k then some (.arr ks) else none) := by
    intro k
    rw [get?_append, get?_listField, get?_single]
  obtain ⟨hdd, hns⟩ := n.data h cls (listField (lit! "metadata") ms ++ [(key, .arr ks)]) (by
    intro k hk
    rw [hex, if_neg (by rintro ⟨rfl, _⟩; revert hk; decide), if_neg (by rintro rfl; exact hkey hk)]
    rfl)
  refine ⟨ms, ks, m1, j1, _, rfl, hns, hdd, ?_, ?_, m2, j2⟩
  · apply jList_of
    rw [n.extra_get _ _ _ (by decide), hex, if_neg hkey2]
    simp
  · apply jList_of'
    rw [n.extra_get _ _ _ hkey, hex, if_neg (fun e => hkey2 e.1.symm), if_pos rfl]
    rfl

theorem rt_tier {scope eff ctx nsm} (h : NsCtx scope eff ctx nsm) {x : Obj} (hc : x.cls = .tier) (hw : x.WF) (hv : x.Valid)
    (hk : JsonKept scope x) : ∃ j, encodeTier eff ctx x = .ok j ∧ decodeTier nsm j = .ok (jres eff ctx x) := by
  have n := NodeOK.of hc hw hv hk
  obtain ⟨d, md, kids⟩ := x
  simp only [Obj.data_mk, Obj.md_mk, Obj.kids_mk] at n
  obtain ⟨ms, ks, m1, k1, fs, hfs, a1, a2, a3, a4, a5, a6⟩ := rt_outer h n (by decide) rfl (lit! "items") (by decide) (by decide)
    encodeItem decodeItem (fun x hx eff ctx nsm hs => by
      have hcx := n.kids_cls x hx
      exact rt_item hs (by injection hcx) (n.kids_wf x hx) (n.kids_valid x hx) (n.kept_kids x hx))
  refine ⟨.obj fs, ?_, ?_⟩
  · simp only [encodeTier, Obj.data_mk, Obj.md_mk, Obj.kids_mk, n.make h, m1, k1, bind, Except.bind, pure, Except.pure, hfs,
      List.append_assoc]
  · simp only [decodeTier, jObj, a1, a2, a3, a4, a5, a6, bind, Except.bind]
    exact rt_construct n (by decide) rfl

theorem rt_igt {scope eff ctx nsm} (h : NsCtx scope eff ctx nsm) {x : Obj} (hc : x.cls = .igt) (hw : x.WF) (hv : x.Valid)
    (hk : JsonKept scope x) : ∃ j, encodeIgt eff ctx x = .ok j ∧ decodeIgt nsm j = .ok (jres eff ctx x) := by
  have n := NodeOK.of hc hw hv hk
  obtain ⟨d, md, kids⟩ := x
  simp only [Obj.data_mk, Obj.md_mk, Obj.kids_mk] at n
  obtain ⟨ms, ks, m1, k1, fs, hfs, a1, a2, a3, a4, a5, a6⟩ := rt_outer h n (by decide) rfl (lit! "tiers") (by decide) (by decide)
    encodeTier decodeTier (fun x hx eff ctx nsm hs => by
      have hcx := n.kids_cls x hx
      exact rt_tier hs (by injection hcx) (n.kids_wf x hx) (n.kids_valid x hx) (n.kept_kids x hx))
  refine ⟨.obj fs, ?_, ?_⟩
  · simp only [encodeIgt, Obj.data_mk, Obj.md_mk, Obj.kids_mk, n.make h, m1, k1, bind, Except.bind, pure, Except.pure, hfs,
      List.append_assoc]
  · simp only [decodeIgt, jObj, a1, a2, a3, a4, a5, a6, bind, Except.bind]
    exact rt_construct n (by decide) rfl

theorem rt_corpus {x : Obj} (hc : x.cls = .corpus) (hw : x.WF) (hv : x.Valid)
    (hk : JsonKept noScope x) : ∃ j, encodeCorpus x = .ok j ∧ decodeCorpus j = .ok (jres [] [] x) := by
  have n := NodeOK.of hc hw hv hk
  have h := NsCtx.top
  obtain ⟨d, md, kids⟩ := x
  simp only [Obj.data_mk, Obj.md_mk, Obj.kids_mk] at n
  obtain ⟨ms, ks, m1, k1, fs, hfs, a1, a2, a3, a4, a5, a6⟩ := rt_outer h n (by decide) rfl (lit! "igts") (by decide) (by decide)
    encodeIgt decodeIgt (fun x hx eff ctx nsm hs => by
      have hcx := n.kids_cls x hx
      exact rt_igt hs (by injection hcx) (n.kids_wf x hx) (n.kids_valid x hx) (n.kept_kids x hx))
  refine ⟨.obj fs, ?_, ?_⟩
  · simp only [encodeCorpus, Obj.data_mk, Obj.md_mk, Obj.kids_mk, n.make h, m1, k1, bind, Except.bind, pure, Except.pure, hfs,
      List.append_assoc]
  · simp only [decodeCorpus, jObj, a1, a2, a3, a4, a5, a6, bind, Except.bind]
    have := rt_construct (eff := []) (ctx := []) n (by decide) rfl
    rw [n.kept.corpus n.cls_eq] at this
    exact this

/-! ### C38 -/

/-- C38 for all corpora whose data `JsonKept` admits: decoding the encoding gives an equal corpus.
Missing: corpora that break `JsonKept`, some of which do not survive (`C38_refuted_...`). -/
theorem C38_partial (x : Obj) (hc : x.cls = .corpus) (hw : x.WF) (hv : x.Valid) (hk : JsonKept noScope x) :
    ∃ j y, encodeCorpus x = .ok j ∧ decodeCorpus j = .ok y ∧ SameData y x ∧ Obj.eq y x = true := by
  obtain ⟨j, h1, h2⟩ := rt_corpus hc hw hv hk
  refine ⟨j, _, h1, h2, jres_same x _ _, ?_⟩
  exact (C10_eq_is_same_data _ _ (jres_wf x hw _ _) hw (jres_cls _ _ x)).2 (jres_same x _ _)


/-! ### Namespace declarations (C67) -/

theorem update_nil {m : Dict Str Str} (hm : m.WF) : Dict.update [] m = m := by
  have : ∀ (m acc : Dict Str Str), (acc ++ m).WF → Dict.update acc m = acc ++ m := by
    intro m
    induction m with
    | nil => intro acc _; simp [Dict.update]
    | cons p m ih =>
      intro acc h
      obtain ⟨k, v⟩ := p
      have hn : k ∉ Dict.keys acc := by
        intro hm
        simp only [Dict.WF, Dict.keys, List.map_append, List.nodup_append, List.map_cons] at h
        exact h.2.2 k hm k (by simp) rfl
      have h' : Dict.WF ((acc ++ [(k, v)]) ++ m) := by simpa using h
      have := ih (acc ++ [(k, v)]) h'
      unfold Dict.update at this ⊢
      rw [List.foldl_cons, set_append_new hn, this]
      simp
  simpa using this m [] (by simpa using hm)

theorem set_same {m : Dict Str Str} {k v : Str} (h : Dict.get? m k = some v) : Dict.set m k v = m := by
  induction m with
  | nil => cases h
  | cons p m ih =>
    obtain ⟨k', v'⟩ := p
    unfold Dict.set
    unfold Dict.get? at h
    by_cases hk : k' = k
    · subst hk
      simp only [if_true, Option.some.injEq] at h
      simp [h]
    · simp only [hk, if_false] at h ⊢
      rw [ih h]

theorem update_self {m : Dict Str Str} (hm : m.WF) : Dict.update m m = m := by
  have : ∀ l : Dict Str Str, (∀ q ∈ l, q ∈ m) → Dict.update m l = m := by
    intro l
    induction l with
    | nil => intro _; rfl
    | cons q l ih =>
      intro h
      have := ih fun q hq => h q (by simp [hq])
      unfold Dict.update at this ⊢
      rw [List.foldl_cons, set_same (Dict.get?_of_mem hm (h q (by simp)))]
      exact this
  exact this m fun _ h => h

/-- no object in (and including) this one has a namespace map of its own -/
inductive NoOwnNs : Obj → Prop
  | mk {d md kids} : d.nsmap = none → (∀ x ∈ md, NoOwnNs x) → (∀ x ∈ kids, NoOwnNs x) → NoOwnNs (.mk d md kids)

theorem jres_noOwn {m : Dict Str Str} (hm : m.WF) : ∀ x : Obj, NoOwnNs x → jres m m x = x := by
  refine Obj.ind fun d md kids h1 h2 h => ?_
  cases h with
  | mk hd hmd hk =>
    have e1 : effNs d m = m := by rw [effNs, hd]; rfl
    have e2 : activeNs d m m = m := by rw [activeNs, e1, update_self hm]
    have e3 : newNs m m = [] := by
      rw [newNs, List.filter_eq_nil_iff]
      intro a ha; simp [ha]
    rw [jres_mk, e1, e2, e3]
    have l1 : md.map (jres m m) = md := by
      conv => rhs; rw [← List.map_id md]
      exact List.map_congr_left fun x hx => h1 x hx (hmd x hx)
    have l2 : kids.map (jres m m) = kids := by
      conv => rhs; rw [← List.map_id kids]
      exact List.map_congr_left fun x hx => h2 x hx (hk x hx)
    rw [l1, l2]
    have : decNs [] = d.nsmap := hd.symm
    rw [this]

/-- C67 for corpora where at most the corpus itself declares namespaces: decoding gives exactly the same
corpus, declarations included. -/
theorem C67_partial (x : Obj) (hc : x.cls = .corpus) (hw : x.WF) (hv : x.Valid) (hk : JsonKept noScope x)
    (hns : x.data.nsmap ≠ some []) (hmd : ∀ y ∈ x.md, NoOwnNs y) (hkids : ∀ y ∈ x.kids, NoOwnNs y) :
    ∃ j, encodeCorpus x = .ok j ∧ decodeCorpus j = .ok x := by
  obtain ⟨j, h1, h2⟩ := rt_corpus hc hw hv hk
  refine ⟨j, h1, h2.trans ?_⟩
  obtain ⟨d, md, kids⟩ := x
  have hwf : ∀ m, d.nsmap = some m → m.WF := by cases hv; assumption
  have hwf' : (d.nsmap.getD []).WF := by
    cases hm : d.nsmap with
    | none => exact Dict.wf_nil
    | some m => exact hwf m hm
  have e1 : effNs d [] = d.nsmap.getD [] := rfl
  have e2 : activeNs d [] [] = d.nsmap.getD [] := by rw [activeNs, e1, update_nil hwf']
  have e3 : newNs (d.nsmap.getD []) [] = d.nsmap.getD [] := by
    rw [newNs, List.filter_eq_self]
    intro a _; rfl
  have l1 : md.map (jres (d.nsmap.getD []) (d.nsmap.getD [])) = md := by
    conv => rhs; rw [← List.map_id md]
    exact List.map_congr_left fun x hx => jres_noOwn hwf' x (hmd x hx)
  have l2 : kids.map (jres (d.nsmap.getD []) (d.nsmap.getD [])) = kids := by
    conv => rhs; rw [← List.map_id kids]
    exact List.map_congr_left fun x hx => jres_noOwn hwf' x (hkids x hx)
  rw [jres_mk, e2, e1, e3, l1, l2]
  have : decNs (d.nsmap.getD []) = d.nsmap := by
    simp only [Obj.data_mk] at hns
    cases hm : d.nsmap with
    | none => rfl
    | some m =>
      cases m with
      | nil => exact absurd hm hns
      | cons a l => rfl
  rw [this]

/-! ### C39 -/

theorem jsonKey_never {m : Dict Str Str} (hm : m.WF) {p uri : Str} (hp : Dict.get? m p = some uri) (hu : '}' ∉ uri)
    (hpre : ∀ q u, Dict.get? m q = some u → q.head? ≠ some '{') {k k' : Str} (h : jsonKey (inverse m) k = .ok k')
    (key : Str) : k' ≠ qual uri key := by
  intro e
  subst e
  unfold jsonKey at h
  split at h
  · rename_i r
    split at h
    · cases h
    · rename_i u' key' hs
      split at h
      · rename_i pre hg
        have hpre' := hpre pre _ (inverse_some hm hg)
        cases pre with
        | nil => simp [qual] at h
        | cons c pre => simp [qual] at h; simp [h.1] at hpre'
      · rename_i hg
        simp only [Except.ok.injEq, qual, List.cons.injEq, true_and] at h
        subst h
        rw [splitOnce_some _ _ hu] at hs
        cases hs
        obtain ⟨q, hq⟩ := inverse_isSome hp
        rw [hq] at hg; cases hg
  · rename_i hne
    simp only [Except.ok.injEq] at h
    exact hne _ h

theorem jsonAttrs_out {inv : Dict Str Str} : ∀ (l acc out : Dict Str Str), jsonAttrs inv acc l = .ok out → acc.WF →
    out.WF ∧ ∀ k ∈ Dict.keys out, k ∈ Dict.keys acc ∨ ∃ k₀ ∈ Dict.keys l, jsonKey inv k₀ = .ok k := by
  intro l
  induction l with
  | nil =>
    intro acc out h hw
    simp only [jsonAttrs, Except.ok.injEq] at h
    subst h
    exact ⟨hw, fun k hk => .inl hk⟩
  | cons p l ih =>
    intro acc out h hw
    obtain ⟨k₀, v⟩ := p
    cases hk : jsonKey inv k₀ with
    | error e => simp [jsonAttrs, hk, bind, Except.bind] at h
    | ok k₁ =>
      simp only [jsonAttrs, hk, bind, Except.bind] at h
      obtain ⟨h1, h2⟩ := ih _ _ h (hw.set _ _)
      refine ⟨h1, fun k hkk => ?_⟩
      rcases h2 k hkk with h | ⟨k', hk', he⟩
      · by_cases heq : k = k₁
        · subst heq
          exact .inr ⟨k₀, by simp [Dict.keys], hk⟩
        · refine .inl ?_
          refine Classical.byContradiction fun hnot => ?_
          have hnone := (Dict.get?_eq_none_iff (d := acc) (k := k)).2 hnot
          have := (Dict.get?_eq_none_iff (d := Dict.set acc k₁ v) (k := k)).1 (by
            rw [Dict.get?_set, if_neg (fun e => heq e.symm)]; exact hnone)
          exact this h
      · exact .inr ⟨k', by simp [Dict.keys] at hk' ⊢; exact .inr hk', he⟩

/-- the attributes decoded from the members `_make_obj` wrote have no key in a declared namespace -/
theorem attrs_never {d : Data} {eff ctx : Dict Str Str} {base extra : List (Str × J)} {cls : Cls} {d' : Data}
    (hm : Dict.WF (activeNs d eff ctx)) {p uri : Str} (hp : Dict.get? (activeNs d eff ctx) p = some uri) (hu : '}' ∉ uri)
    (hpre : ∀ q u, Dict.get? (activeNs d eff ctx) q = some u → q.head? ≠ some '{')
    (he : makeObj d eff ctx = .ok base) (hx : Dict.get? extra (lit! "attributes") = none)
    (hd : decodeData cls (base ++ extra) = .ok d') (key : Str) : Dict.get? d'.attrs (qual uri key) = none := by
  unfold makeObj at he
  cases ha : jsonAttrs (inverse (activeNs d eff ctx)) [] d.attrs with
  | error e => simp [ha, bind, Except.bind] at he
  | ok attrs =>
    obtain ⟨hw, hkeys⟩ := jsonAttrs_out _ _ _ ha Dict.wf_nil
    simp only [ha, bind, Except.bind, pure, Except.pure, Except.ok.injEq] at he
    have hget : Dict.get? (base ++ extra) (lit! "attributes") = if d.attrs.isEmpty = true then none else some (jDict attrs) := by
      rw [← he]
      simp only [get?_append, get?_strField, get?_optField, hx]
      cases d.attrs.isEmpty <;> simp
    have hattrs : jAttrs (base ++ extra) = .ok (if d.attrs.isEmpty = true then none else some attrs) := by
      rw [jAttrs_eq (by rw [hget]; split <;> simp [jDict])]
      unfold jDictGet
      rw [hget]
      cases d.attrs.isEmpty with
      | true => rfl
      | false =>
        simp only [Bool.false_eq_true, if_false, jDict]
        rw [jPairs_map [] attrs (by simpa using hw)]
        rfl
    unfold decodeData at hd
    cases h1 : jStr (base ++ extra) (lit! "id") with
    | error e => simp [h1, bind, Except.bind] at hd
    | ok id =>
      cases h2 : jStr (base ++ extra) (lit! "type") with
      | error e => simp [h1, h2, bind, Except.bind] at hd
      | ok type =>
        cases h3 : jStr (base ++ extra) (lit! "namespace") with
        | error e => simp [h1, h2, h3, hattrs, bind, Except.bind] at hd
        | ok ns =>
          cases h4 : jDictGet (base ++ extra) (lit! "namespaces") with
          | error e => simp [h1, h2, h3, h4, hattrs, bind, Except.bind] at hd
          | ok nsm =>
            simp only [h1, h2, h3, h4, hattrs, bind, Except.bind, pure, Except.pure, Except.ok.injEq] at hd
            rw [← hd]
            rw [Dict.get?_eq_none_iff]
            intro hmem
            cases hemp : d.attrs.isEmpty with
            | true => simp [hemp, Dict.keys] at hmem
            | false =>
              simp only [hemp, Bool.false_eq_true, if_false, Option.getD_some] at hmem
              rcases hkeys _ hmem with h | ⟨k₀, _, hk₀⟩
              · simp [Dict.keys] at h
              · exact jsonKey_never hm hp hu hpre hk₀ key rfl

/-- C39 fails for every attribute: after a JSON round trip no attribute of the corpus is found in a
namespace that the corpus declares. -/
theorem C39_never_corpus (x y : Obj) (j : J) (m : Dict Str Str) (hns : x.data.nsmap = some m) (hm : m.WF) (p uri : Str)
    (hp : Dict.get? m p = some uri) (hu : '}' ∉ uri) (hpre : ∀ q u, Dict.get? m q = some u → q.head? ≠ some '{')
    (he : encodeCorpus x = .ok j) (hd : decodeCorpus j = .ok y) (key : Str) : Dict.get? y.data.attrs (qual uri key) = none := by
  have hact : activeNs x.data [] [] = m := by rw [activeNs, effNs, hns]; exact update_nil hm
  unfold encodeCorpus at he
  cases h1 : makeObj x.data [] [] with
  | error e => simp [h1, bind, Except.bind] at he
  | ok base =>
    cases h2 : mapPy (encodeMd (effNs x.data []) (activeNs x.data [] [])) x.md with
    | error e => simp [h1, h2, bind, Except.bind] at he
    | ok ms =>
      cases h3 : mapPy (encodeIgt (effNs x.data []) (activeNs x.data [] [])) x.kids with
      | error e => simp [h1, h2, h3, bind, Except.bind] at he
      | ok ks =>
        simp only [h1, h2, h3, bind, Except.bind, pure, Except.pure, Except.ok.injEq] at he
        subst he
        unfold decodeCorpus at hd
        simp only [jObj, bind, Except.bind] at hd
        cases d1 : activeJson (base ++ listField (lit! "metadata") ms ++ [(lit! "igts", .arr ks)]) [] with
        | error e => simp only [d1] at hd; cases hd
        | ok nsm =>
          cases d2 : decodeData .corpus (base ++ listField (lit! "metadata") ms ++ [(lit! "igts", .arr ks)]) with
          | error e => simp only [d1, d2] at hd; cases hd
          | ok d' =>
            simp only [d1, d2] at hd
            have key1 : Dict.get? d'.attrs (qual uri key) = none := by
              refine attrs_never (extra := listField (lit! "metadata") ms ++ [(lit! "igts", .arr ks)]) (by rw [hact]; exact hm)
                (by rw [hact]; exact hp) hu (by rw [hact]; exact hpre) h1 ?_ (by rw [← List.append_assoc]; exact d2) key
              rw [get?_append, get?_listField, get?_single, if_neg (by rintro ⟨h, _⟩; revert h; decide), if_neg (by decide)]
              rfl
            split at hd
            · cases hd
            · split at hd
              · cases hd
              · split at hd
                · cases hd
                · split at hd
                  · cases hd
                  · unfold construct at hd
                    split at hd
                    · cases hd
                    · split at hd
                      · cases hd
                      · split at hd
                        · cases hd
                        · cases hd
                          exact key1

/-- the same for items, with whatever declarations are in force around them -/
theorem C39_never_item (x y : Obj) (j : J) (eff ctx nsm : Dict Str Str) (p uri : Str) (hw : Dict.WF ctx)
    (hp : Dict.get? (activeNs x.data eff ctx) p = some uri) (hu : '}' ∉ uri)
    (hpre : ∀ q u, Dict.get? (activeNs x.data eff ctx) q = some u → q.head? ≠ some '{')
    (he : encodeItem eff ctx x = .ok j) (hd : decodeItem nsm j = .ok y) (key : Str) :
    Dict.get? y.data.attrs (qual uri key) = none := by
  unfold encodeItem at he
  cases h1 : makeObj x.data eff ctx with
  | error e => simp [h1, bind, Except.bind] at he
  | ok base =>
    simp only [h1, bind, Except.bind, pure, Except.pure, Except.ok.injEq] at he
    subst he
    unfold decodeItem at hd
    simp only [jObj, bind, Except.bind] at hd
    cases d1 : activeJson (base ++ strField (lit! "text") x.data.text) nsm with
    | error e => simp [d1] at hd
    | ok nsm =>
      cases d2 : decodeData .item (base ++ strField (lit! "text") x.data.text) with
      | error e => simp [d1, d2] at hd
      | ok d' =>
        simp only [d1, d2] at hd
        have key1 : Dict.get? d'.attrs (qual uri key) = none :=
          attrs_never (WF_update _ _ hw) hp hu hpre h1 (by rw [get?_strField, if_neg (by decide)]) d2 key
        split at hd
        · cases hd
        · unfold construct at hd
          split at hd
          · cases hd
          · split at hd
            · cases hd
            · split at hd
              · cases hd
              · cases hd
                exact key1

/-- C39 for attributes in namespaces that are not declared: all attributes of the corpus are kept.
Missing: those in declared namespaces, which are lost (`C39_never_corpus`, `C39_never_item`). -/
theorem C39_partial (x : Obj) (hc : x.cls = .corpus) (hw : x.WF) (hv : x.Valid) (hk : JsonKept noScope x) :
    ∃ j y, encodeCorpus x = .ok j ∧ decodeCorpus j = .ok y ∧
      ∀ k, Dict.get? y.data.attrs k = Dict.get? x.data.attrs k := by
  obtain ⟨j, h1, h2⟩ := rt_corpus hc hw hv hk
  refine ⟨j, _, h1, h2, fun k => ?_⟩
  cases x
  rw [jres_mk]
  rfl

end

/-! ### Cases -/
section
attribute [local instance] asciiUni

/-- a corpus with a namespace, metadata with a namespaced child, an igt, a tier and items -/
def exJson : Obj :=
  .mk { cls := .corpus, id := some (lit! "c"), attrs := [(lit! "{u:x}k", lit! "v")], nsmap := some [(lit! "p", lit! "u:y")] }
    [.mk { cls := .metadata } [] [.mk { cls := .metaC, type := some (lit! "m"), text := some [] } []
      [.mk { cls := .metaChild, name := some (lit! "name"), ns := some (lit! "u:y") } [] []]]]
    [.mk { cls := .igt, id := some (lit! "i1"), nsmap := some [(lit! "q", lit! "u:z")] } []
      [.mk { cls := .tier, id := some (lit! "t") } [] [.mk { cls := .item, id := some (lit! "t1"), text := some (lit! "abc") } [] []]]]

theorem exJson_wf : exJson.WF := by
  have leaf : ∀ d, d.attrs = [] → (d.cls.hasText = false → d.text = none) → (d.name.isSome = true ↔ d.cls = .metaChild) →
      (Obj.mk d [] []).WF := fun d h0 h1 h2 =>
    .mk (by rw [h0]; exact Dict.wf_nil) h1 h2 (by simp) (by simp) (by simp) (by simp) (by simp)
  refine .mk (by unfold Dict.WF; decide) (by simp) (by simp) (by simp [Cls.hasMd]) (by simp) (by simp [Cls.contained]) ?_ ?_
  · simp only [List.mem_singleton, forall_eq]
    refine .mk Dict.wf_nil (by simp) (by simp) (by simp) (by simp) (by simp [Cls.contained]) (by simp) ?_
    simp only [List.mem_singleton, forall_eq]
    refine .mk Dict.wf_nil (by simp [Cls.hasText]) (by simp) (by simp) (by simp) (by simp [Cls.contained]) (by simp) ?_
    simp only [List.mem_singleton, forall_eq]
    exact leaf _ rfl (by simp [Cls.hasText]) (by simp)
  · simp only [List.mem_singleton, forall_eq]
    refine .mk Dict.wf_nil (by simp) (by simp) (by simp) (by simp) (by simp [Cls.contained]) (by simp) ?_
    simp only [List.mem_singleton, forall_eq]
    refine .mk Dict.wf_nil (by simp) (by simp) (by simp) (by simp) (by simp [Cls.contained]) (by simp) ?_
    simp only [List.mem_singleton, forall_eq]
    exact leaf _ rfl (by simp [Cls.hasText]) (by simp)

theorem exJson_valid : exJson.Valid := by
  have leaf : ∀ d : Data, (∀ i, d.id = some i → idAccepted i = true) → (∀ n, d.name = some n → nameOK n = true) →
      (∀ m, d.nsmap = some m → m.WF) → (Obj.mk d [] []).Valid := fun d h0 h1 h2 =>
    .mk h0 h1 (by simp) (by simp) h2 (by simp) (by simp)
  refine .mk (by intro i hi; cases hi; decide +kernel) (by simp) (by decide) (by decide)
    (by intro i hi; cases hi; unfold Dict.WF; decide) ?_ ?_
  · simp only [List.mem_singleton, forall_eq]
    refine .mk (by simp) (by simp) (by decide) (by decide) (by simp) (by simp) ?_
    simp only [List.mem_singleton, forall_eq]
    refine .mk (by simp) (by simp) (by decide) (by decide) (by simp) (by simp) ?_
    simp only [List.mem_singleton, forall_eq]
    exact leaf _ (by simp) (by intro i hi; cases hi; decide +kernel) (by simp)
  · simp only [List.mem_singleton, forall_eq]
    refine .mk (by intro i hi; cases hi; decide +kernel) (by simp) (by decide) (by decide)
      (by intro i hi; cases hi; unfold Dict.WF; decide) (by simp) ?_
    simp only [List.mem_singleton, forall_eq]
    refine .mk (by intro i hi; cases hi; decide +kernel) (by simp) (by decide) (by decide) (by simp) (by simp) ?_
    simp only [List.mem_singleton, forall_eq]
    exact leaf _ (by intro i hi; cases hi; decide +kernel) (by simp) (by simp)

theorem exJson_kept : JsonKept noScope exJson := by
  have leaf : ∀ {s} (d : Data), DataKept (inner d.nsmap s) d → JsonKept s (Obj.mk d [] []) := fun d h =>
    .mk h (by simp) (by simp)
  refine .mk ⟨by simp, by simp, by simp, by simp, ?_, by simp⟩ ?_ ?_
  · intro k v h r hr
    simp only [List.mem_singleton, Prod.mk.injEq] at h
    rw [h.1] at hr
    refine ⟨lit! "u:x", lit! "k", (List.cons.inj hr).2.symm, by decide, fun p => ?_⟩
    by_cases hp : lit! "p" = p
    · subst hp; decide
    · simp [inner, noScope, Dict.get?, hp]
  · simp only [List.mem_singleton, forall_eq]
    refine .mk ⟨by simp, by simp, by simp, by simp, by simp, by simp⟩ (by simp) ?_
    simp only [List.mem_singleton, forall_eq]
    refine .mk ⟨by simp, by simp, by simp, by simp, by simp, by simp⟩ (by simp) ?_
    simp only [List.mem_singleton, forall_eq]
    refine leaf _ ⟨by simp, by simp, by simp, by simp, by simp, fun _ => ⟨rfl, rfl, fun u hu => ⟨fun p hp => ?_, .inl ⟨lit! "p", ?_⟩⟩⟩⟩
    · by_cases h : lit! "p" = p
      · subst h; decide
      · simp [inner, noScope, Dict.get?, h] at hp
    · cases hu; rfl
  · simp only [List.mem_singleton, forall_eq]
    refine .mk ⟨by simp, by simp, by simp, by simp, by simp, by simp⟩ (by simp) ?_
    simp only [List.mem_singleton, forall_eq]
    refine .mk ⟨by simp, by simp, by simp, by simp, by simp, by simp⟩ (by simp) ?_
    simp only [List.mem_singleton, forall_eq]
    exact leaf _ ⟨by simp, by simp, by simp, by simp, by simp, by simp⟩

/-- the hypotheses of `C38_partial` are met -/
example : ∃ j y, encodeCorpus exJson = .ok j ∧ decodeCorpus j = .ok y ∧ SameData y exJson ∧ Obj.eq y exJson = true :=
  C38_partial exJson rfl exJson_wf exJson_valid exJson_kept

/-- a corpus round trip -/
def roundTrip (x : Obj) : Py Obj := encodeCorpus x >>= decodeCorpus

/-- C38 is false: the type of a corpus is lost -/
theorem C38_refuted : ∃ x y, x.WF ∧ x.Valid ∧ roundTrip x = .ok y ∧ Obj.eq y x = false :=
  ⟨.mk { cls := .corpus, type := some (lit! "t") } [] [], .mk { cls := .corpus } [] [],
    .mk Dict.wf_nil (by simp) (by simp) (by simp) (by simp) (by simp) (by simp) (by simp),
    .mk (by simp) (by simp) (by simp) (by simp) (by simp) (by simp) (by simp), rfl, by decide +kernel⟩

/-- C38 is false also of the text of items: an empty text is lost -/
theorem C38_refuted_text : ∃ x j y, x.cls = .item ∧ x.WF ∧ x.Valid ∧ encodeItem [] [] x = .ok j ∧ decodeItem [] j = .ok y ∧
    Obj.eq y x = false :=
  ⟨.mk { cls := .item, text := some [] } [] [], .obj [], .mk { cls := .item } [] [], rfl,
    .mk Dict.wf_nil (by simp [Cls.hasText]) (by simp) (by simp) (by simp) (by simp) (by simp) (by simp),
    .mk (by simp) (by simp) (by simp) (by simp) (by simp) (by simp) (by simp), rfl, rfl, by decide +kernel⟩

/-- C38 is false also of attribute names: with a brace at the front and no other, encoding fails -/
theorem C38_refuted_raises : ∃ x, x.WF ∧ x.Valid ∧ roundTrip x = .error .valueError :=
  ⟨.mk { cls := .corpus, attrs := [(lit! "{a", lit! "v")] } [] [],
    .mk (by unfold Dict.WF; decide) (by simp) (by simp) (by simp) (by simp) (by simp) (by simp) (by simp),
    .mk (by simp) (by simp) (by simp) (by simp) (by simp) (by simp) (by simp), rfl⟩

def exNsAttr : Obj :=
  .mk { cls := .corpus, attrs := [(lit! "{u}k", lit! "v")], nsmap := some [(lit! "p", lit! "u")] } [] []

/-- C39 is false: the attribute is then called `p:k` and not found in the namespace -/
theorem C39_refuted : ∃ x y, x.WF ∧ x.Valid ∧ roundTrip x = .ok y ∧
    getAttribute [x] (lit! "p:k") none false none = .ok (some (lit! "v")) ∧
    getAttribute [y] (lit! "p:k") none false none = .ok none :=
  ⟨exNsAttr, .mk { cls := .corpus, attrs := [(lit! "p:k", lit! "v")], nsmap := some [(lit! "p", lit! "u")] } [] [],
    .mk (by unfold Dict.WF; decide) (by simp) (by simp) (by simp) (by simp) (by simp) (by simp) (by simp),
    .mk (by simp) (by simp) (by simp) (by simp) (by simp only [Option.some.injEq, forall_eq']; unfold Dict.WF; decide) (by simp) (by simp),
    rfl, by decide +kernel, by decide +kernel⟩

/-- the hypotheses of `C39_never_corpus` are met -/
example : ∃ y j, encodeCorpus exNsAttr = .ok j ∧ decodeCorpus j = .ok y ∧ Dict.get? y.data.attrs (qual (lit! "u") (lit! "k")) = none := by
  refine ⟨_, _, rfl, rfl, ?_⟩
  refine C39_never_corpus exNsAttr _ _ [(lit! "p", lit! "u")] rfl (by unfold Dict.WF; decide) (lit! "p") (lit! "u") rfl (by decide) ?_ rfl rfl _
  intro q u h
  unfold Dict.get? Dict.get? at h
  by_cases hq : lit! "p" = q
  · subst hq; decide
  · simp [hq] at h

/-- C67 is false: a namespace that an igt declares again, besides another one, is no longer declared there -/
theorem C67_refuted : ∃ x y : Obj, ∃ ix iy : Obj, x.kids = [ix] ∧ y.kids = [iy] ∧ roundTrip x = .ok y ∧
    Dict.get? (nsmapOf [ix, x]) (lit! "p") = some (lit! "u") ∧ Dict.get? (nsmapOf [iy, y]) (lit! "p") = none :=
  ⟨.mk { cls := .corpus, nsmap := some [(lit! "p", lit! "u")] } []
      [.mk { cls := .igt, nsmap := some [(lit! "p", lit! "u"), (lit! "q", lit! "v")] } [] []],
    .mk { cls := .corpus, nsmap := some [(lit! "p", lit! "u")] } []
      [.mk { cls := .igt, nsmap := some [(lit! "q", lit! "v")] } [] []], _, _, rfl, rfl, rfl, by decide +kernel, by decide +kernel⟩

/-- the hypotheses of `C67_partial` are met -/
example : ∃ x : Obj, x.cls = .corpus ∧ x.WF ∧ x.Valid ∧ JsonKept noScope x ∧ x.data.nsmap = some [(lit! "p", lit! "u")] ∧
    (∀ y ∈ x.md, NoOwnNs y) ∧ (∀ y ∈ x.kids, NoOwnNs y) ∧ x.kids.length = 1 := by
  refine ⟨.mk { cls := .corpus, nsmap := some [(lit! "p", lit! "u")] } [] [.mk { cls := .igt, id := some (lit! "i1") } [] []],
    rfl, ?_, ?_, ?_, rfl, by simp, ?_, rfl⟩
  · refine .mk Dict.wf_nil (by simp) (by simp) (by simp) (by simp) (by simp [Cls.contained]) (by simp) ?_
    simp only [List.mem_singleton, forall_eq]
    exact .mk Dict.wf_nil (by simp) (by simp) (by simp) (by simp) (by simp) (by simp) (by simp)
  · refine .mk (by simp) (by simp) (by decide) (by decide) (by intro i hi; cases hi; unfold Dict.WF; decide) (by simp) ?_
    simp only [List.mem_singleton, forall_eq]
    exact .mk (by intro i hi; cases hi; decide +kernel) (by simp) (by decide) (by decide) (by simp) (by simp) (by simp)
  · refine .mk ⟨by simp, by simp, by simp, by simp, by simp, by simp⟩ (by simp) ?_
    simp only [List.mem_singleton, forall_eq]
    exact .mk ⟨by simp, by simp, by simp, by simp, by simp, by simp⟩ (by simp) (by simp)
  · intro y hy
    cases List.mem_singleton.1 hy
    exact .mk rfl (by simp) (by simp)

end
end Xigt
