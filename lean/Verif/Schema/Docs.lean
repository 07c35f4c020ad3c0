import Verif.Schema.Plain
import Verif.Xml.TextProps
/- The documents that are written, and whether they are valid (C98). -/

set_option linter.unusedSectionVars false

namespace Xigt.Rng
section
variable [Uni]

/-! ### The document of the text is that of the element tree -/

theorem eol_eol (s : Str) : eol (eol s) = eol s := eol_id (eol_ncr s)

theorem textNode_raw (t : Option Str) : textNode ((someText ((t.map eol).getD [])).map eol) = textNode (t.map eol) := by
  cases t with
  | none => rfl
  | some s =>
    simp only [Option.map_some, Option.getD_some, someText]
    by_cases h : eol s = []
    · rw [if_pos h, textNode, h]; simp [textNode]
    · rw [if_neg h, Option.map_some, eol_eol]

theorem node_raw : ∀ (e : Elem) (p : PElem), node (rawE (eolE e)) p = node e p := by
  refine Elem.ind fun tag attrs text tail kids ih p => ?_
  obtain ⟨tag', as, m, t, ps⟩ := p
  rw [eolE, rawE, node, node]
  congr 2
  rw [rawEs_eq, eolEs_eq, List.map_map]
  induction kids generalizing ps with
  | nil => cases ps <;> rfl
  | cons k ks ih2 =>
    cases ps with
    | nil => rfl
    | cons p ps =>
      rw [List.map_cons, nodes, nodes]
      simp only [Function.comp]
      rw [ih k (by simp), ih2 fun x hx => ih x (by simp [hx])]
      congr 2
      obtain ⟨a, b, c, d, e⟩ := k
      rw [eolE, rawE, Elem.tail, Elem.tail]
      exact textNode_raw d

theorem node_noTail (e : Elem) (p : PElem) : node (noTail e) p = node e p := by
  cases e; cases p; rfl

variable [XmlLex]

theorem docText_ser (e : Elem) (hk : KeysOK e) (ht : ∀ c ∈ e.tail.getD [], xmlSpace c = true) (p : PElem) (h : parseElem [] e = .ok p) :
    docText (ser e) = .ok (node e p) := by
  simp only [docText, document, scan_ser e (elemOK_of e [] p hk h) ht, bind, Except.bind, parse_noTail (parse_raw e [] p h), pure, Except.pure]
  rw [node_noTail, node_raw]

/-! ### Indentation -/

/-- no text between elements -/
inductive NoTails : Elem → Prop
  | mk {tag attrs text kids} : (∀ k ∈ kids, NoTails k) → NoTails (.mk tag attrs text none kids)

/-- a document with the given contents, and perhaps white space for indentation -/
inductive Shp : PElem → Node → Prop
  | mk {tag as m t t' ps ns} : (as.map Prod.fst).Nodup → (t' = t ∨ (ps ≠ [] ∧ blank t = true ∧ Ws (t'.getD []))) →
      WsOnly ns → All2 Shp ps (elems ns) → Shp (.mk tag as m t ps) (.elem tag as (textNode t' ++ ns))

theorem ws_spaces (a b : Int) : Ws ('\n' :: spaces a ++ spaces b) := by
  intro c hc
  simp only [spaces, List.cons_append, List.mem_cons, List.mem_append, List.mem_replicate] at hc
  rcases hc with rfl | ⟨_, rfl⟩ | ⟨_, rfl⟩ <;> decide

theorem ws_eol {s : Str} (h : Ws s) : Ws (eol s) := eol_xspace s h

theorem wsOnly_textNode {t : Option Str} (h : Ws (t.getD [])) : WsOnly (textNode t) := by
  intro s hs
  cases t with
  | none => cases hs
  | some t =>
    simp only [textNode] at hs
    split at hs
    · cases hs
    · simp only [List.mem_singleton, Node.text.injEq] at hs
      rw [hs]; exact h

theorem elems_textNode (t : Option Str) : elems (textNode t) = [] := by
  cases t with
  | none => rfl
  | some t =>
    simp only [textNode]
    split <;> rfl

/-- a tail that is white space -/
def WsTail (e : Elem) : Prop := Ws (e.tail.getD [])

theorem node_isElem (e : Elem) (p : PElem) : (node e p).isElem = true := by cases e; cases p; rfl

/-- the children in the document -/
theorem nodes_spec {R : PElem → Node → Prop} : ∀ {ks : List Elem} {ps ps' : List PElem}, All2 (fun k p => WsTail k ∧ ∃ q, q ∈ [p.1] ∧ R p.2 (node k q)) ks (ps'.zip ps) →
    ps'.length = ps.length → WsOnly (nodes ks ps') ∧ All2 R ps (elems (nodes ks ps')) := by
  intro ks
  induction ks with
  | nil =>
    intro ps ps' h hl
    cases ps' with
    | nil => cases ps with
      | nil => exact ⟨by simp [nodes, WsOnly], .nil⟩
      | cons => cases hl
    | cons => cases ps with
      | nil => cases hl
      | cons => cases h
  | cons k ks ih =>
    intro ps ps' h hl
    cases ps' with
    | nil => cases h
    | cons p' ps' => cases ps with
      | nil => cases hl
      | cons p ps =>
        cases h with
        | cons h1 h2 =>
          obtain ⟨i1, i2⟩ := ih h2 (by simpa using hl)
          obtain ⟨hw, q, hq, hr⟩ := h1
          simp only [List.mem_singleton] at hq
          subst hq
          have htail : WsOnly (textNode (k.tail.map eol)) := wsOnly_textNode (by rw [getD_eol]; exact ws_eol hw)
          rw [nodes]
          constructor
          · intro s hs
            rcases List.mem_cons.1 hs with hs | hs
            · have := node_isElem k q
              rw [← hs] at this; cases this
            · exact wsOnly_append.2 ⟨htail, i1⟩ s hs
          · rw [elems, List.filter_cons, if_pos (node_isElem k q)]
            refine .cons hr ?_
            show All2 R ps (elems (textNode (k.tail.map eol) ++ nodes ks ps'))
            rw [elems_append, elems_textNode, List.nil_append]
            exact i2

theorem fixTail_node (i : Str) (e : Elem) (p : PElem) : node (fixTail i e) p = node e p := by
  cases e; cases p; rfl

theorem fixTail_ws {i : Str} (hi : Ws i) {e : Elem} (h : WsTail e) : WsTail (fixTail i e) := by
  obtain ⟨a, b, c, t, k⟩ := e
  rw [fixTail, WsTail, Elem.tail]
  split
  · exact hi
  · exact h

theorem noTails_tail {e : Elem} (h : NoTails e) : e.tail = none := by cases h; rfl

theorem indent_wsTail (ind : Int) (level : Nat) {e : Elem} (h : NoTails e) : WsTail (indentElem ind level e) := by
  have hw : Ws ('\n' :: spaces (ind * level)) := by
    have := ws_spaces (ind * level) 0
    rwa [show spaces 0 = [] from rfl, List.append_nil] at this
  cases h with
  | @mk tag attrs text kids hk =>
    cases kids with
    | nil =>
      rw [indentElem, WsTail, Elem.tail]
      split
      · exact hw
      · intro c hc; cases hc
    | cons k ks =>
      rw [indentElem, WsTail, Elem.tail]
      split
      · exact hw
      · intro c hc; cases hc

/-- the document of an element as it is -/
theorem shp_self : ∀ (e : Elem) (scope : Dict Str Str) (p : PElem), NoTails e → parseElem scope e = .ok p → Shp p (node e p) := by
  refine Elem.ind fun tag attrs text tail kids ih scope p hn h => ?_
  rw [parseElem_ok_iff] at h
  obtain ⟨hd, tag', as, text', tl, kids', h1, h2, h3, h4, h5, h6, rfl⟩ := h
  rw [parseElems_eq, mapPy_ok_iff] at h6
  rw [node]
  have hk : ∀ k ∈ kids, NoTails k := by cases hn; assumption
  have : WsOnly (nodes kids kids') ∧ All2 Shp kids' (elems (nodes kids kids')) := by
    refine nodes_spec ?_ rfl
    clear hd h1 h2 h3 h4 h5 hn
    induction h6 with
    | nil => exact .nil
    | cons hx _ ih2 =>
      refine .cons ⟨?_, _, by simp, ih _ (by simp) _ _ (hk _ (by simp)) hx⟩ (ih2 (fun x hx => ih x (by simp [hx])) fun x hx => hk x (by simp [hx]))
      rw [WsTail, noTails_tail (hk _ (by simp))]
      intro c hc; cases hc
  exact .mk h3 (.inl rfl) this.1 this.2

theorem nodes_onLast {f : Elem → Elem} {R : Elem → PElem × PElem → Prop} (hf : ∀ k x, R k x → R (f k) x) : ∀ {ks : List Elem} {l},
    All2 R ks l → All2 R (onLast f ks) l := by
  intro ks
  induction ks with
  | nil => intro l h; cases h; exact .nil
  | cons x xs ih =>
    intro ys h
    cases h with
    | cons hx hxs =>
      cases xs with
      | nil => cases hxs; exact .cons (hf _ _ hx) .nil
      | cons x' xs' => rw [Xigt.onLast]; exact .cons hx (ih hxs)

/-- the document of an element that was indented -/
theorem shp_indent (ind : Int) : ∀ (e : Elem) (level : Nat) (scope : Dict Str Str) (p : PElem), NoTails e → parseElem scope e = .ok p →
    ∃ q, parseElem scope (indentElem ind level e) = .ok q ∧ Shp p (node (indentElem ind level e) q) := by
  refine Elem.ind fun tag attrs text tail kids ih level scope p hn h => ?_
  obtain ⟨tt, htt⟩ := ws_ok' (ind * level)
  have hk : ∀ k ∈ kids, NoTails k := by cases hn; assumption
  rw [parseElem_ok_iff] at h
  obtain ⟨hd, tag', as, text', tl, kids', h1, h2, h3, h4, h5, h6, rfl⟩ := h
  rw [parseElems_eq, mapPy_ok_iff] at h6
  cases kids with
  | nil =>
    cases h6
    have htail : ∃ tl', parseText (if level ≠ 0 ∧ blank tail = true then some ('\n' :: spaces (ind * level)) else tail) = .ok tl' := by
      split
      · exact ⟨tt, htt⟩
      · exact ⟨tl, h5⟩
    obtain ⟨tl', htl'⟩ := htail
    refine ⟨.mk tag' as (Dict.update scope (declsOf attrs)) text' [], ?_, ?_⟩
    · rw [indentElem, parseElem_ok_iff]
      exact ⟨hd, tag', as, text', tl', [], h1, h2, h3, h4, htl', by rw [parseElems], rfl⟩
    · rw [indentElem, node]
      exact .mk h3 (.inl rfl) (by simp [nodes, WsOnly]) .nil
  | cons k ks =>
    have htail : ∃ tl', parseText (if blank tail = true then some ('\n' :: spaces (ind * level)) else tail) = .ok tl' := by
      split
      · exact ⟨tt, htt⟩
      · exact ⟨tl, h5⟩
    obtain ⟨tl', htl'⟩ := htail
    obtain ⟨text'', ht1, ht2⟩ : ∃ t'', parseText (if blank text = true then some ('\n' :: spaces (ind * level) ++ spaces ind) else text) = .ok t'' ∧
        (t'' = text' ∨ (blank text' = true ∧ Ws (t''.getD []))) := by
      by_cases hb : blank text = true
      · rw [if_pos hb]
        refine ⟨_, (ws_ok _ _).1, .inr ⟨?_, ws_spaces _ _⟩⟩
        rw [parseText_blank h4]; exact hb
      · rw [if_neg hb]; exact ⟨_, h4, .inl rfl⟩
    obtain ⟨qs, hq1, hq2, hq3⟩ : ∃ qs, All2 (fun x y => parseElem (Dict.update scope (declsOf attrs)) x = .ok y)
        ((k :: ks).map (indentElem ind (level + 1))) qs ∧ qs.length = kids'.length ∧
        All2 (fun k p => WsTail k ∧ ∃ q, q ∈ [p.1] ∧ Shp p.2 (node k q)) ((k :: ks).map (indentElem ind (level + 1))) (qs.zip kids') := by
      have key : ∀ (l : List Elem) (l' : List PElem), (∀ x ∈ l, x ∈ k :: ks) →
          All2 (fun x y => parseElem (Dict.update scope (declsOf attrs)) x = .ok y) l l' →
          ∃ qs, All2 (fun x y => parseElem (Dict.update scope (declsOf attrs)) x = .ok y) (l.map (indentElem ind (level + 1))) qs ∧
            qs.length = l'.length ∧
            All2 (fun k p => WsTail k ∧ ∃ q, q ∈ [p.1] ∧ Shp p.2 (node k q)) (l.map (indentElem ind (level + 1))) (qs.zip l') := by
        intro l
        induction l with
        | nil => intro l' _ h; cases h; exact ⟨[], .nil, rfl, .nil⟩
        | cons x l ihl =>
          intro l' hm h
          cases h with
          | cons hx hl =>
            obtain ⟨q, hq1, hq2⟩ := ih x (hm x (by simp)) (level + 1) _ _ (hk x (hm x (by simp))) hx
            obtain ⟨qs, hqs1, hqs2, hqs3⟩ := ihl _ (fun y hy => hm y (by simp [hy])) hl
            exact ⟨q :: qs, .cons hq1 hqs1, by simp [hqs2], .cons ⟨indent_wsTail ind (level + 1) (hk x (hm x (by simp))), q, by simp, hq2⟩ hqs3⟩
      exact key (k :: ks) kids' (fun _ h => h) h6
    have hw : Ws ('\n' :: spaces (ind * level)) := by
      have := ws_spaces (ind * level) 0
      rwa [show spaces 0 = [] from rfl, List.append_nil] at this
    refine ⟨.mk tag' as (Dict.update scope (declsOf attrs)) text'' qs, ?_, ?_⟩
    · rw [indentElem, parseElem_ok_iff]
      refine ⟨hd, tag', as, text'', tl', qs, h1, h2, h3, ht1, htl', ?_, rfl⟩
      rw [parseElems_eq, mapPy_ok_iff, indentElems_eq]
      exact All2.onLast (fun x y hxy => parse_fixTail ⟨tt, htt⟩ hxy) hq1
    · rw [indentElem, node, indentElems_eq]
      have hq3' := nodes_onLast (f := fixTail ('\n' :: spaces (ind * level))) (fun k x h => by
        obtain ⟨a, q, b, c⟩ := h
        exact ⟨fixTail_ws hw a, q, b, by rw [fixTail_node]; exact c⟩) hq3
      obtain ⟨g1, g2⟩ := nodes_spec hq3' hq2
      refine .mk h3 ?_ g1 g2
      rcases ht2 with h | h
      · exact .inl h
      · refine .inr ⟨?_, h⟩
        cases h6; simp

/-- the document of an element with any indentation -/
theorem shp_any (ind : Option Int) {e : Elem} {p : PElem} (hn : NoTails e) (h : parseElem [] e = .ok p) :
    ∃ q, parseElem [] (indent ind e) = .ok q ∧ Shp p (node (indent ind e) q) := by
  cases ind with
  | none => exact ⟨p, h, shp_self e [] p hn h⟩
  | some n => exact shp_indent n e 0 [] p hn h

theorem Shp.distinct : ∀ (p : PElem) (n : Node), Shp p n → Distinct n := by
  refine PElem.ind fun tag attrs m t ps ih n h => ?_
  cases h with
  | @mk _ _ _ _ t' _ ns h1 h2 h3 h4 =>
    refine .elem h1 fun n hn => ?_
    cases hn' : n.isElem with
    | false => cases n with
      | text s => exact .text
      | elem => cases hn'
    | true =>
      have : n ∈ elems ns := by
        rcases List.mem_append.1 hn with h | h
        · have := elems_nil_iff.1 (elems_textNode t') n h
          obtain ⟨s, rfl⟩ := this
          cases hn'
        · exact List.mem_filter.2 ⟨h, hn'⟩
      obtain ⟨q, hq, hs⟩ := mem_all2 h4 this
      exact ih q hq n hs

end
end Xigt.Rng
