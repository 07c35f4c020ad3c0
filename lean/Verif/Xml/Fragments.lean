import Verif.Xml.StreamProps
/- Encoding a single object (xigtxml.py:534-566) and decoding it again: C89. -/

set_option linter.unusedSectionVars false

namespace Xigt

/-! ### Model -/

/-- an object with the namespaces it has from its parent (mixins.py:219-227: `x.nsmap` is that of the
parent if `x` has none); `eff` are the namespaces of the parent.  The encoders of fragments see the
object only through `x.nsmap`, and start with no namespaces in context (`{}`). -/
def inNs (eff : Dict Str Str) : Obj → Obj
  | .mk d md kids => .mk { d with nsmap := some (effNs d eff) } md kids

/-- xigtxml.py:388-447: the builder for the class -/
def buildOf : Cls → Dict Str Str → Obj → Py Elem
  | .corpus, _ => buildCorpus
  | .igt, m => buildIgt m
  | .tier, m => buildTier m
  | .item, m => buildItem m
  | .metadata, m => buildMd m
  | .metaC, m => buildMeta m
  | .metaChild, m => buildMc m

section
variable [Uni]

/-- xigtxml.py:533-566 `encode_igt`, `encode_tier`, `encode_item`, `encode_metadata`, `encode_meta`,
`encode_metachild` (and `encode_xigtcorpus`) up to the text layer; `eff` are the namespaces of the
parent -/
def encodeFrag (ind : Option Int) (eff : Dict Str Str) (x : Obj) : Py Elem :=
  (buildOf x.cls [] (inNs eff x)).map (indent ind)

/-- xigtxml.py:236-353: the decoder for the class -/
def decodeOf : Cls → PElem → Py Obj
  | .corpus => readCorpus
  | .igt => readIgt
  | .tier => readTier
  | .item => readItem
  | .metadata => readMd
  | .metaC => readMeta
  | .metaChild => readMc

variable [XmlLex]

/-- encoding an object, parsing the text by itself, decoding the element -/
def fragRead (ind : Option Int) (eff : Dict Str Str) (x : Obj) : Py Obj := do
  let e ← encodeFrag ind eff x
  let p ← parseElem [] e
  decodeOf x.cls p
end

/-! ### Proofs -/

section
variable [Uni] [XmlLex]

theorem inNs_data (eff : Dict Str Str) (x : Obj) : (inNs eff x).data = { x.data with nsmap := some (effNs x.data eff) } := by
  cases x; rfl

theorem inNs_cls (eff : Dict Str Str) (x : Obj) : (inNs eff x).cls = x.cls := by
  cases x; rfl

theorem inNs_wf {eff : Dict Str Str} {x : Obj} (h : x.WF) : (inNs eff x).WF := by
  cases h with
  | mk h1 h2 h3 h4 h5 h6 h7 h8 => exact .mk h1 h2 h3 h4 h5 h6 h7 h8

theorem inNs_valid {eff : Dict Str Str} (he : eff.WF) {x : Obj} (h : x.Valid) : (inNs eff x).Valid := by
  cases h with
  | mk h1 h2 h3 h4 h5 h6 h7 =>
    rename_i d md kids
    refine .mk h1 h2 h3 h4 ?_ h6 h7
    intro m hm
    cases hm
    unfold effNs
    cases hd : d.nsmap with
    | none => exact he
    | some m => exact h5 m hd

theorem inNs_kept {eff : Dict Str Str} (he : ∀ p u, (p, u) ∈ eff → PrefixOK p ∧ UriOK u) {x : Obj} (h : XmlKept eff x) :
    XmlKept [] (inNs eff x) := by
  cases h with
  | mk h1 h2 h3 =>
    rename_i d md kids
    refine .mk ⟨?_, h1.ns, h1.child, h1.corpus, h1.item, h1.metas, h1.text, h1.id, h1.type, h1.attrs⟩ h2 h3
    intro own hown p u hp
    cases hown
    unfold effNs at hp
    cases hd : d.nsmap with
    | none => rw [hd] at hp; exact he p u hp
    | some m => rw [hd] at hp; exact h1.decls m hd p u hp

theorem inNs_same {eff : Dict Str Str} {x y : Obj} (h : SameData y (inNs eff x)) : SameData y x := by
  cases x with
  | mk d md kids =>
    cases h with
    | mk h1 h2 h3 h4 h5 h6 h7 h8 h9 h10 h11 => exact .mk h1 h2 h3 h4 h5 h6 h7 h8 h9 h10 h11

/-- the elements a builder and the parser make are decoded as they should be -/
theorem frag_plain {x : Obj} (hw : x.WF) (hv : x.Valid) (hk : XmlKept [] x) :
    ∃ e p, buildOf x.cls [] x = .ok e ∧ parseElem [] e = .ok p ∧ decodeOf x.cls p = .ok (xres [] [] x) := by
  cases hc : x.cls with
  | corpus => obtain ⟨e, p, h1, h2, _, h3⟩ := x_corpus hc hw hv hk; exact ⟨e, p, h1, h2, h3⟩
  | igt => obtain ⟨e, p, h1, h2, _, h3⟩ := x_igt .top hc hw hv hk; exact ⟨e, p, h1, h2, h3⟩
  | tier => obtain ⟨e, p, h1, h2, _, h3⟩ := x_tier .top hc hw hv hk; exact ⟨e, p, h1, h2, h3⟩
  | item => obtain ⟨e, p, h1, h2, _, h3⟩ := x_item .top hc hw hv hk; exact ⟨e, p, h1, h2, h3⟩
  | metadata => obtain ⟨e, p, h1, h2, _, h3⟩ := x_md .top hc hw hv hk; exact ⟨e, p, h1, h2, h3⟩
  | metaC => obtain ⟨e, p, h1, h2, _, h3⟩ := x_meta .top hc hw hv hk; exact ⟨e, p, h1, h2, h3⟩
  | metaChild => obtain ⟨e, p, h1, h2, _, h3⟩ := x_mc x hc hw hv .top hk; exact ⟨e, p, h1, h2, h3⟩

/-- indentation makes no difference to the decoders -/
theorem frag_sim {c : Cls} {x : Obj} {e : Elem} {p q : PElem} (hb : buildOf c [] x = .ok e) (hp : parseElem [] e = .ok p)
    (hs : Sim p q) : decodeOf c p = decodeOf c q := by
  cases c with
  | corpus => exact readCorpus_sim hs (corpus_written hb hp)
  | igt => exact readIgt_sim hs (igt_written hb hp)
  | tier => exact readTier_sim hs (tier_written hb hp)
  | item =>
    refine readItem_sim hs ?_
    obtain ⟨s, h3⟩ := parse_kids hp
    simp only [buildOf, buildItem] at hb
    rw [(buildElem_ok hb).2] at h3
    cases hkk : p.kids with
    | nil => rfl
    | cons a l => rw [hkk] at h3; cases h3
  | metadata => exact readMd_sim hs
  | metaC => exact readMeta_sim hs
  | metaChild => exact readMc_sim p q hs

theorem frag_read {x : Obj} {eff : Dict Str Str} (hw : x.WF) (hv : x.Valid) (he : eff.WF)
    (hd : ∀ p u, (p, u) ∈ eff → PrefixOK p ∧ UriOK u) (hk : XmlKept eff x) (ind : Option Int) :
    fragRead ind eff x = .ok (xres [] [] (inNs eff x)) := by
  obtain ⟨e, p, h1, h2, h3⟩ := frag_plain (inNs_wf (eff := eff) hw) (inNs_valid he hv) (inNs_kept hd hk)
  rw [inNs_cls] at h1 h3
  cases ind with
  | none => simp only [fragRead, encodeFrag, h1, Except.map, bind, Except.bind, indent, h2, h3]
  | some n =>
    obtain ⟨q, hq, hs⟩ := parse_indent n e 0 [] p h2
    simp only [fragRead, encodeFrag, h1, Except.map, bind, Except.bind, indent, hq]
    rw [← frag_sim h1 h2 hs, h3]

/-- C89 for all objects (of every class) whose data `XmlKept` admits, inside a parent whose namespaces
can be declared, with every indentation: what the encoder of the class writes is well-formed by itself
and is decoded to an object with the same data.  Missing: objects that break the conditions, some of
which do not survive (`C89_refuted`). -/
theorem C89_partial (x : Obj) (eff : Dict Str Str) (hw : x.WF) (hv : x.Valid) (he : eff.WF)
    (hd : ∀ p u, (p, u) ∈ eff → PrefixOK p ∧ UriOK u) (hk : XmlKept eff x) (ind : Option Int) :
    ∃ y, fragRead ind eff x = .ok y ∧ SameData y x ∧ Obj.eq y x = true :=
  ⟨_, frag_read hw hv he hd hk ind, inNs_same (xres_same _ _ _),
    (C10_eq_is_same_data _ _ (xres_wf _ (inNs_wf hw) _ _) hw (by rw [xres_cls, inNs_cls])).2 (inNs_same (xres_same _ _ _))⟩

theorem effNs_decls {x : Obj} {eff : Dict Str Str} (hd : ∀ p u, (p, u) ∈ eff → PrefixOK p ∧ UriOK u) (hk : XmlKept eff x) :
    ∀ p u, (p, u) ∈ effNs x.data eff → PrefixOK p ∧ UriOK u := by
  cases hk with
  | mk h1 h2 h3 =>
    rename_i d md kids
    intro p u h
    simp only [Obj.data_mk, effNs] at h
    cases hn : d.nsmap with
    | none => rw [hn] at h; exact hd p u h
    | some m => rw [hn] at h; exact h1.decls m hn p u h

theorem effNs_wf {x : Obj} {eff : Dict Str Str} (he : eff.WF) (hv : x.Valid) : (effNs x.data eff).WF := by
  cases hv with
  | mk h1 h2 h3 h4 h5 h6 h7 =>
    rename_i d md kids
    simp only [Obj.data_mk, effNs]
    cases hn : d.nsmap with
    | none => exact he
    | some m => exact h5 m hn

/-- an object inside another, with the namespaces of its parent -/
inductive Within : Obj → Dict Str Str → Obj → Dict Str Str → Prop
  | self {x eff} : Within x eff x eff
  | kid {d md kids eff k y m} : k ∈ kids → Within k (d.nsmap.getD eff) y m → Within (.mk d md kids) eff y m
  | md {d md kids eff k y m} : k ∈ md → Within k (d.nsmap.getD eff) y m → Within (.mk d md kids) eff y m

theorem within_frag {x y : Obj} {eff m : Dict Str Str} (h : Within x eff y m) (hw : x.WF) (hv : x.Valid) (he : eff.WF)
    (hd : ∀ p u, (p, u) ∈ eff → PrefixOK p ∧ UriOK u) (hk : XmlKept eff x) (ind : Option Int) :
    ∃ z, fragRead ind m y = .ok z ∧ SameData z y ∧ Obj.eq z y = true := by
  induction h with
  | self => exact C89_partial _ _ hw hv he hd hk ind
  | kid hm _ ih =>
    have hd' := effNs_decls hd hk
    have he' := effNs_wf he hv
    cases hw with | mk _ _ _ _ _ _ w7 w8 =>
    cases hv with | mk _ _ _ _ _ v6 v7 =>
    cases hk with | mk _ k2 k3 =>
    exact ih (w8 _ hm) (v7 _ hm) he' hd' (k3 _ hm)
  | md hm _ ih =>
    have hd' := effNs_decls hd hk
    have he' := effNs_wf he hv
    cases hw with | mk _ _ _ _ _ _ w7 w8 =>
    cases hv with | mk _ _ _ _ _ v6 v7 =>
    cases hk with | mk _ k2 k3 =>
    exact ih (w7 _ hm) (v6 _ hm) he' hd' (k2 _ hm)

/-- C89: if a corpus can be written (`XmlKept`), then every object anywhere in it can be encoded by
itself, whatever namespaces it uses from the objects around it, and is decoded to an equal object -/
theorem C89_anywhere (c y : Obj) (m : Dict Str Str) (hw : c.WF) (hv : c.Valid) (hk : XmlKept [] c) (h : Within c [] y m)
    (ind : Option Int) : ∃ z, fragRead ind m y = .ok z ∧ SameData z y ∧ Obj.eq z y = true :=
  within_frag h hw hv Dict.wf_nil (fun _ _ h => by simp at h) hk ind

end

section
attribute [local instance] asciiUni asciiXml

def fragItem : Obj := .mk { cls := .item, id := some (lit! "w1"), attrs := [(lit! "{http://x}f", lit! "v")], text := some (lit! "a") } [] []
def fragIgt : Obj := .mk { cls := .igt, id := some (lit! "i1") } [] [.mk { cls := .tier, id := some (lit! "w"), type := some (lit! "words") } [] [fragItem]]
def fragCorpus : Obj := .mk { cls := .corpus, nsmap := some [(lit! "n", lit! "http://x")] } [] [fragIgt]

/-- the item uses a prefix of the corpus; by itself it declares it -/
example : encodeFrag (some 2) [(lit! "n", lit! "http://x")] fragItem =
    .ok (.mk (lit! "item") [(lit! "xmlns:n", lit! "http://x"), (lit! "id", lit! "w1"), (lit! "n:f", lit! "v")] (some (lit! "a")) none []) := rfl
example : ∃ y, fragRead (some 2) [(lit! "n", lit! "http://x")] fragItem = .ok y ∧ Obj.eq y fragItem = true := ⟨_, rfl, by decide +kernel⟩
example : ∃ y, fragRead none [(lit! "n", lit! "http://x")] fragIgt = .ok y ∧ Obj.eq y fragIgt = true := ⟨_, rfl, by decide +kernel⟩
example : Within fragCorpus [] fragItem [(lit! "n", lit! "http://x")] :=
  .kid (k := fragIgt) (by simp) (.kid (by exact List.mem_singleton.2 rfl) (.kid (by exact List.mem_singleton.2 rfl) .self))

/-- **C89** refuted: an item with the empty text is decoded to one without text (xigtxml.py:287-297) -/
theorem C89_refuted : ∃ x y, x.cls = .item ∧ x.WF ∧ x.Valid ∧ fragRead (some 2) [] x = .ok y ∧ Obj.eq y x = false :=
  ⟨.mk { cls := .item, id := some (lit! "w1"), text := some [] } [] [], .mk { cls := .item, id := some (lit! "w1"), nsmap := some [] } [] [], rfl,
    .mk Dict.wf_nil (by simp; rfl) (by simp) (by simp) (by simp) (by simp) (by simp) (by simp),
    .mk (by simp; decide +kernel) (by simp) (by simp) (by simp) (by simp) (by simp) (by simp), rfl, by decide +kernel⟩
end

end Xigt
