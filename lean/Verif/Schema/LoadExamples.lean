import Verif.Schema.Load
import Verif.Schema.Examples
/- C100: documents the schema allows that are not read as they should be, and one that is. -/

set_option linter.unusedSectionVars false

namespace Xigt.Rng

section
attribute [local instance] asciiUni asciiXml asciiXsd

def md (ns : List Node) : Node := .elem (lit! "metadata") [] [.elem (lit! "meta") [] ns]
def root (a : List (Str × Str)) (ns : List Node) : Node := .elem (lit! "xigt-corpus") a ns
def igtN (i : Str) : Node := .elem (lit! "igt") [(lit! "id", i)] []

theorem valid_md {ns : List Node} (h : elems ns = [] ∨ WsOnly ns) : MdDoc (md ns) := by
  refine ⟨rfl, by simp [OptIdAttr], by simp [NoRefs, Lacks], by simp [WsOnly], fun n hn => ?_⟩
  cases List.mem_singleton.1 hn
  exact ⟨rfl, by simp [OptIdAttr], by simp [NoRefs, Lacks], h⟩

theorem valid_igt (c : Char) (r : Str) (hc : letter c = true) (hr : ∀ x ∈ r, idCh x = true) : IgtDoc (igtN (c :: r)) :=
  ⟨rfl, ⟨c :: r, by simp, c, r, rfl, hc, hr⟩, by simp [NoRefs, Lacks, ALN, CNT, SEG], by simp [WsOnly], [], [], rfl, by simp, by simp⟩

/-- **C100** refuted: the schema does not say that identifiers are unique, the containers do. -/
theorem C100_refuted (look : Nat → Nat) : ∃ s doc, docText s = .ok doc ∧ Valid structure_rnc doc ∧ ∃ e, loadsXml look s = .error e := by
  have hd : docText (lit! "<xigt-corpus><igt id=\"i\"/><igt id=\"i\"/></xigt-corpus>") = .ok (root [] [igtN (lit! "i"), igtN (lit! "i")]) := by rfl
  have hv : Valid structure_rnc (root [] [igtN (lit! "i"), igtN (lit! "i")]) := by
    refine (valid_iff ?_).2 ⟨rfl, by simp [OptIdAttr], by simp, by simp [WsOnly, igtN], [], [igtN (lit! "i"), igtN (lit! "i")], rfl, by simp, ?_⟩
    · refine .elem (by simp) fun n hn => ?_
      simp only [List.mem_cons, List.not_mem_nil, or_false, or_self] at hn
      rw [hn]
      exact .elem (by simp) (by simp)
    · intro n hn
      simp only [List.mem_cons, List.not_mem_nil, or_false, or_self] at hn
      rw [hn]
      exact valid_igt 'i' [] (by decide) (by simp)
  refine ⟨_, _, hd, hv, (C100_partial _ _ hd hv ?_ look).2 ?_⟩
  · refine ⟨by simp [Lacks, root, attrsN], ?_, fun i hi => ?_⟩
    · intro m hm; rw [mem_tagged] at hm
      simp only [root, content, elems, igtN, Node.isElem, List.filter_cons, if_true, List.filter_nil, List.mem_cons, List.not_mem_nil, or_false, or_self] at hm
      rw [hm.1] at hm; exact absurd hm.2 (by decide)
    · rw [mem_tagged] at hi
      have : i = igtN (lit! "i") := by
        have := hi.1
        simp only [root, content, elems, igtN, Node.isElem, List.filter_cons, if_true, List.filter_nil, List.mem_cons, List.not_mem_nil, or_false, or_self] at this
        exact this
      subst this
      refine ⟨fun m hm => ?_, fun m hm => ?_⟩ <;> · rw [mem_tagged] at hm; simp [igtN, content, elems] at hm
  · intro h
    have h2 := h.1.2.1
    have : tagged (lit! "igt") (root [] [igtN (lit! "i"), igtN (lit! "i")]) = [igtN (lit! "i"), igtN (lit! "i")] := by rfl
    rw [this] at h2
    simp only [Apart, List.pairwise_cons] at h2
    exact h2.1 _ (List.mem_singleton.2 rfl) (lit! "i") ⟨by simp [igtN, attrsN], by simp [igtN, attrsN]⟩

theorem valid_one {n : Node} (hd : Distinct n) (h : MdDoc n) : Valid structure_rnc (root [] [n]) :=
  (valid_iff (.elem (by simp) fun m hm => by cases List.mem_singleton.1 hm; exact hd)).2
    ⟨rfl, by simp [OptIdAttr], by simp, (by
      intro s hs
      cases List.mem_singleton.1 hs
      exact h.elim), [n], [], (by
      cases n with
      | text => exact h.elim
      | elem => rfl), by simpa using h, by simp⟩

/-- **C100** refuted also by text after a child in metadata, which is lost: two documents that differ are read as the same -/
theorem C100_refuted_mixed : ∃ s s' doc doc' x, docText s = .ok doc ∧ Valid structure_rnc doc ∧ docText s' = .ok doc' ∧ Valid structure_rnc doc' ∧ doc ≠ doc' ∧
    loadsXml id s = .ok x ∧ loadsXml id s' = .ok x := by
  refine ⟨lit! "<xigt-corpus><metadata><meta><a>x<b/>y</a></meta></metadata></xigt-corpus>",
    lit! "<xigt-corpus><metadata><meta><a>x<b/></a></meta></metadata></xigt-corpus>",
    root [] [md [.elem (lit! "a") [] [.text (lit! "x"), .elem (lit! "b") [] [], .text (lit! "y")]]],
    root [] [md [.elem (lit! "a") [] [.text (lit! "x"), .elem (lit! "b") [] []]]], _, rfl, ?_, rfl, ?_, ?_, rfl, rfl⟩
  · refine valid_one ?_ (valid_md (.inr (by simp [WsOnly])))
    refine .elem (by simp) fun n hn => ?_
    cases List.mem_singleton.1 hn
    refine .elem (by simp) fun n hn => ?_
    cases List.mem_singleton.1 hn
    refine .elem (by simp) fun n hn => ?_
    simp only [List.mem_cons, List.not_mem_nil, or_false] at hn
    rcases hn with rfl | rfl | rfl
    · exact .text
    · exact .elem (by simp) (by simp)
    · exact .text
  · refine valid_one ?_ (valid_md (.inr (by simp [WsOnly])))
    refine .elem (by simp) fun n hn => ?_
    cases List.mem_singleton.1 hn
    refine .elem (by simp) fun n hn => ?_
    cases List.mem_singleton.1 hn
    refine .elem (by simp) fun n hn => ?_
    simp only [List.mem_cons, List.not_mem_nil, or_false] at hn
    rcases hn with rfl | rfl
    · exact .text
    · exact .elem (by simp) (by simp)
  · simp [root, md]

/-- **C100** refuted also by `id` and `type` inside a meta, which are lost -/
theorem C100_refuted_id : ∃ s doc x, docText s = .ok doc ∧ Valid structure_rnc doc ∧ loadsXml id s = .ok x ∧ ¬ IsCorpus x doc := by
  refine ⟨lit! "<xigt-corpus><metadata><meta><a id=\"i\"/></meta></metadata></xigt-corpus>",
    root [] [md [.elem (lit! "a") [(lit! "id", lit! "i")] []]], _, rfl, ?_, rfl, ?_⟩
  · refine valid_one ?_ (valid_md (.inr (by simp [WsOnly])))
    refine .elem (by simp) fun n hn => ?_
    cases List.mem_singleton.1 hn
    refine .elem (by simp) fun n hn => ?_
    cases List.mem_singleton.1 hn
    exact .elem (by simp) (by simp)
  · intro h
    cases h with
    | mk h1 h2 h3 h4 =>
      cases h3 with
      | cons h5 h6 =>
        have e := (List.cons.inj h2).1
        rw [← e] at h5
        cases h5 with
        | mk _ h7 =>
          cases h7 with
          | cons h8 _ =>
            cases h8 with
            | mk _ _ h9 =>
              cases h9 with
              | cons h10 _ =>
                cases h10 with
                | mk _ _ _ _ _ ha _ _ => exact absurd ha (by decide)

/-- **C100** refuted also by elements called `igt` inside a meta -/
theorem C100_refuted_igt : ∃ s doc, docText s = .ok doc ∧ Valid structure_rnc doc ∧ loadsXml id s = .error .attributeError := by
  refine ⟨lit! "<xigt-corpus><metadata><meta><igt/></meta></metadata><igt id=\"i\"/></xigt-corpus>",
    root [] [md [.elem (lit! "igt") [] []], igtN (lit! "i")], rfl, ?_, rfl⟩
  refine (valid_iff ?_).2 ⟨rfl, by simp [OptIdAttr], by simp, by simp [WsOnly, igtN, md], [_], [igtN (lit! "i")], rfl, ?_, ?_⟩
  · refine .elem (by simp) fun n hn => ?_
    simp only [List.mem_cons, List.not_mem_nil, or_false] at hn
    rcases hn with rfl | rfl
    · refine .elem (by simp) fun n hn => ?_
      cases List.mem_singleton.1 hn
      refine .elem (by simp) fun n hn => ?_
      cases List.mem_singleton.1 hn
      exact .elem (by simp) (by simp)
    · exact .elem (by simp) (by simp)
  · intro n hn
    cases List.mem_singleton.1 hn
    exact valid_md (.inr (by simp [WsOnly]))
  · intro n hn
    cases List.mem_singleton.1 hn
    exact valid_igt 'i' [] (by decide) (by simp)

/-- **C100** refuted also by the type of a corpus, which becomes an attribute -/
theorem C100_refuted_type : ∃ s doc x, docText s = .ok doc ∧ Valid structure_rnc doc ∧ loadsXml id s = .ok x ∧ ¬ IsCorpus x doc := by
  refine ⟨lit! "<xigt-corpus type=\"t\"/>", root [(lit! "type", lit! "t")] [], _, rfl, ?_, rfl, ?_⟩
  · exact (valid_iff (.elem (by simp) (by simp))).2 ⟨rfl, by simp [OptIdAttr], by simp, by simp [WsOnly], [], [], rfl, by simp, by simp⟩
  · intro h
    cases h with
    | mk h1 h2 h3 h4 => exact absurd ((h1.type (lit! "t")).2 (by simp)) (by decide)

/-- a document that is read as it should be -/
def goodText : Str := lit! "<xigt-corpus>\n<metadata><meta type=\"t\"><p:a xmlns:p=\"u\" k=\"v\">x<b/> </p:a></meta></metadata>\n<igt id=\"i1\"><tier id=\"w\" type=\"words\"><item id=\"w1\">a</item><item id=\"w2\" alignment=\"p\"/></tier></igt></xigt-corpus>"

def goodMc : Node := .elem (lit! "{u}a") [(lit! "k", lit! "v")] [.text (lit! "x"), .elem (lit! "b") [] [], .text (lit! " ")]
def goodMd : Node := .elem (lit! "metadata") [] [.elem (lit! "meta") [(lit! "type", lit! "t")] [goodMc]]
def goodItems : List Node := [.elem (lit! "item") [(lit! "id", lit! "w1")] [.text (lit! "a")], .elem (lit! "item") [(lit! "id", lit! "w2"), (ALN, lit! "p")] []]
def goodTierN : Node := .elem (lit! "tier") [(lit! "id", lit! "w"), (lit! "type", lit! "words")] goodItems
def goodIgt : Node := .elem (lit! "igt") [(lit! "id", lit! "i1")] [goodTierN]
def goodDoc : Node := root [] [.text (lit! "\n"), goodMd, .text (lit! "\n"), goodIgt]

theorem good_valid : Valid structure_rnc goodDoc := by
  have hid : ∀ i : Char, letter i = true → IdFits [i] := fun i h => ⟨i, [], rfl, h, by simp⟩
  refine (valid_iff ?_).2 ⟨rfl, by simp [OptIdAttr], by simp, ?_, [goodMd], [goodIgt], rfl, ?_, ?_⟩
  · refine .elem (by simp) fun n hn => ?_
    simp only [List.mem_cons, List.not_mem_nil, or_false] at hn
    rcases hn with rfl | rfl | rfl | rfl
    · exact .text
    · refine .elem (by simp) fun n hn => ?_
      cases List.mem_singleton.1 hn
      refine .elem (by simp) fun n hn => ?_
      cases List.mem_singleton.1 hn
      refine .elem (by simp) fun n hn => ?_
      simp only [List.mem_cons, List.not_mem_nil, or_false] at hn
      rcases hn with rfl | rfl | rfl
      · exact .text
      · exact .elem (by simp) (by simp)
      · exact .text
    · exact .text
    · refine .elem (by simp) fun n hn => ?_
      cases List.mem_singleton.1 hn
      refine .elem (by simp) fun n hn => ?_
      simp only [goodItems, List.mem_cons, List.not_mem_nil, or_false] at hn
      rcases hn with rfl | rfl
      · refine .elem (by simp) fun n hn => ?_
        cases List.mem_singleton.1 hn
        exact .text
      · exact .elem (by simp [ALN]) (by simp)
  · intro s hs
    simp only [goodMd, goodIgt, List.mem_cons, Node.text.injEq, reduceCtorEq, false_or, List.not_mem_nil, or_false, or_self] at hs
    rw [hs]; intro c hc; cases List.mem_singleton.1 hc; rfl
  · intro n hn
    cases List.mem_singleton.1 hn
    refine ⟨rfl, by simp [OptIdAttr], by simp [NoRefs, Lacks], by simp [WsOnly], fun n hn => ?_⟩
    cases List.mem_singleton.1 hn
    exact ⟨rfl, by simp [OptIdAttr], by simp [NoRefs, Lacks, ALN, CNT, SEG], .inr (by simp [WsOnly, goodMc])⟩
  · intro n hn
    cases List.mem_singleton.1 hn
    refine ⟨rfl, ⟨_, by simp, 'i', lit! "1", rfl, by decide, by decide⟩, by simp [NoRefs, Lacks, ALN, CNT, SEG], by simp [WsOnly, goodTierN], [], [goodTierN], rfl, by simp, ?_⟩
    intro n hn
    cases List.mem_singleton.1 hn
    refine ⟨rfl, ⟨_, by simp, hid 'w' (by decide)⟩, ⟨_, by simp; rfl⟩, .inl ⟨by simp [ALN], by simp [CNT], by simp [Lacks, SEG]⟩, by simp [WsOnly, goodItems], [], goodItems, rfl, by simp, ?_⟩
    intro n hn
    simp only [goodItems, List.mem_cons, List.not_mem_nil, or_false] at hn
    rcases hn with rfl | rfl
    · exact ⟨rfl, ⟨_, by simp, 'w', lit! "1", rfl, by decide, by decide⟩, .inl ⟨by simp [ALN], by simp [CNT], by simp [Lacks, SEG]⟩, rfl⟩
    · refine ⟨rfl, ⟨_, by simp, 'w', lit! "2", rfl, by decide, by decide⟩, .inl ⟨?_, by simp [CNT, ALN], by simp [Lacks, SEG, ALN]⟩, rfl⟩
      intro v hv
      simp only [ALN, List.mem_cons, List.not_mem_nil, or_false, Prod.mk.injEq] at hv
      rcases hv with ⟨h, _⟩ | ⟨_, rfl⟩
      · exact absurd h (by decide)
      · exact seq_iff.2 ⟨lit! "p", [], rfl, seq_iff.2 ⟨lit! "p", [], rfl, idRx_iff.2 (hid 'p' (by decide)), .right .eps⟩, .nil⟩

theorem good_clean : DocClean goodDoc := by
  have hb : McClean (.elem (lit! "b") [] []) :=
    .mk (by decide) (by decide) (by decide +kernel) (by simp [Lacks]) (by simp [Lacks]) trivial (by simp [PlainText]) (by simp [elems])
  have hmc : McClean goodMc := by
    refine .mk (by decide) (by decide) (by decide +kernel) (by simp [Lacks]) (by simp [Lacks]) ?_ ?_ ?_
    · intro s hs
      simp only [List.mem_singleton, Node.text.injEq] at hs
      rw [hs]; intro c hc; cases List.mem_singleton.1 hc; rfl
    · intro s hs
      simp only [List.mem_cons, Node.text.injEq, reduceCtorEq, false_or, List.not_mem_nil, or_false] at hs
      rcases hs with rfl | rfl
      · exact .inr ⟨'x', by simp, by decide +kernel⟩
      · left; intro c hc; cases List.mem_singleton.1 hc; rfl
    · intro n hn
      cases List.mem_singleton.1 (show n ∈ [Node.elem (lit! "b") [] []] from hn)
      exact hb
  refine ⟨by simp [Lacks, goodDoc, root, attrsN], fun m hm => ?_, fun i hi => ?_⟩
  · cases List.mem_singleton.1 (show m ∈ [goodMd] from hm)
    intro k hk
    cases List.mem_singleton.1 (show k ∈ [Node.elem (lit! "meta") [(lit! "type", lit! "t")] [goodMc]] from hk)
    refine ⟨by simp [PlainText, content, goodMc], fun n hn => ?_⟩
    cases List.mem_singleton.1 (show n ∈ [goodMc] from hn)
    exact hmc
  · cases List.mem_singleton.1 (show i ∈ [goodIgt] from hi)
    refine ⟨fun m hm => absurd (show m ∈ [] from hm) (by simp), fun t ht => ?_⟩
    cases List.mem_singleton.1 (show t ∈ [goodTierN] from ht)
    exact fun m hm => absurd (show m ∈ [] from hm) (by simp)

theorem apart_one (n : Node) : Apart [n] := by simp [Apart]

theorem good_unique : DocUnique goodDoc := by
  refine ⟨⟨apart_one goodMd, apart_one goodIgt, fun m hm => ?_⟩, fun i hi => ?_⟩
  · cases List.mem_singleton.1 (show m ∈ [goodMd] from hm)
    exact apart_one _
  · cases List.mem_singleton.1 (show i ∈ [goodIgt] from hi)
    refine ⟨⟨.nil, apart_one goodTierN, fun m hm => absurd (show m ∈ [] from hm) (by simp)⟩, fun t ht => ?_⟩
    cases List.mem_singleton.1 (show t ∈ [goodTierN] from ht)
    refine ⟨.nil, ?_, fun m hm => absurd (show m ∈ [] from hm) (by simp)⟩
    show Apart goodItems
    simp [Apart, goodItems, attrsN, ALN]

set_option maxRecDepth 20000 in
theorem good_text : docText goodText = .ok goodDoc := rfl

/-- the hypotheses of `C100_partial` are met by a document with everything in it -/
example (look : Nat → Nat) : ∃ x, loadsXml look goodText = .ok x ∧ IsCorpus x goodDoc :=
  (C100_partial goodText goodDoc good_text good_valid good_clean look).1 good_unique

end

section
attribute [local instance] asciiUni asciiXsd

/-- the name characters of ASCII and `·`, which XML allows inside names (production 4a); used for a concrete example only -/
@[reducible] def dotXml : XmlLex where
  ncName s := asciiNc (s.filter (· ≠ '·')) && s.head? != some '·'
  not_nil := rfl
  no_colon := by
    intro s h hm
    rw [Bool.and_eq_true] at h
    exact asciiXml.no_colon _ h.1 (List.mem_filter.2 ⟨hm, by decide⟩)
  no_brace := by
    intro s h hm
    rw [Bool.and_eq_true] at h
    exact asciiXml.no_brace _ h.1 (List.mem_filter.2 ⟨hm, by decide⟩)
  no_delim := by
    intro s h c hm
    rw [Bool.and_eq_true] at h
    by_cases hc : c = '·'
    · subst hc; decide
    · exact asciiXml.no_delim _ h.1 c (List.mem_filter.2 ⟨hm, by simpa using hc⟩)
  names := by decide

attribute [local instance] dotXml

/-- **C100** refuted also by names of XML that `name_re` does not know, e.g. `col·lecció` (here without accent) -/
theorem C100_refuted_name : ∃ s doc, docText s = .ok doc ∧ Valid structure_rnc doc ∧ loadsXml id s = .error .valueError := by
  refine ⟨lit! "<xigt-corpus><metadata><meta><col·leccio/></meta></metadata></xigt-corpus>",
    root [] [md [.elem (lit! "col·leccio") [] []]], rfl, ?_, rfl⟩
  refine valid_one ?_ (valid_md (.inr (by simp [WsOnly])))
  refine .elem (by simp) fun n hn => ?_
  cases List.mem_singleton.1 hn
  refine .elem (by simp) fun n hn => ?_
  cases List.mem_singleton.1 hn
  exact .elem (by simp) (by simp)

end
end Xigt.Rng
