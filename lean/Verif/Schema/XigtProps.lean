import Verif.Schema.XigtSpec
/- C103: which corpora are written as documents valid against xigt.rnc. -/

set_option linter.unusedSectionVars false

namespace Xigt.Rng
section
variable [Uni] [XmlLex] [Xsd] {env : Str → Pat}

/-! ### Values -/

def spaceVal : Pat := .choice (value (lit! "default")) (value (lit! "preserve"))

theorem val_value {s v : Str} : Val env (value s) v ↔ tokens v = tokens s := val_data

theorem tokens_ws {a : Str} (ha : Ws a) (s : Str) : tokens (a ++ s) = tokens s := by
  induction a with
  | nil => rfl
  | cons c a ih =>
    have hc : xmlSpace c = true := ha c (by simp)
    rw [← ih fun d hd => ha d (by simp [hd])]
    simp [tokens, wsWords, hc]

theorem wsWords_word {w : Str} (hn : ∀ c ∈ w, xmlSpace c = false) {c : Char} (hc : xmlSpace c = true) (s : Str) :
    wsWords (w ++ c :: s) = w :: wsWords s := by
  induction w with
  | nil => simp [wsWords, hc]
  | cons d w ih =>
    rw [List.cons_append, wsWords, if_neg (by simp [hn d (by simp)]), ih fun e he => hn e (by simp [he])]

theorem wsWords_one {w : Str} (hw : w ≠ []) (hn : ∀ c ∈ w, xmlSpace c = false) : wsWords w = [w] := by
  induction w with
  | nil => exact absurd rfl hw
  | cons d w ih =>
    rw [wsWords, if_neg (by simp [hn d (by simp)])]
    cases w with
    | nil => rfl
    | cons e w => rw [ih (by simp) fun f hf => hn f (by simp [hf])]

theorem tokens_word {w : Str} (hw : w ≠ []) (hn : ∀ c ∈ w, xmlSpace c = false) {c : Char} (hc : xmlSpace c = true) (s : Str) :
    tokens (w ++ c :: s) = w :: tokens s := by
  rw [tokens, wsWords_word hn hc, List.filter_cons, if_pos (by simp [hw])]
  rfl

theorem tokens_one {w : Str} (hw : w ≠ []) (hn : ∀ c ∈ w, xmlSpace c = false) : tokens w = [w] := by
  rw [tokens, wsWords_one hw hn, List.filter_cons, if_pos (by simp [hw])]
  rfl

/-- white space, a word, and the rest -/
theorem word_split (v : Str) : Ws v ∨ ∃ a w, Ws a ∧ w ≠ [] ∧ (∀ c ∈ w, xmlSpace c = false) ∧
    (v = a ++ w ∨ ∃ c s, xmlSpace c = true ∧ v = a ++ w ++ c :: s) := by
  induction v with
  | nil => exact .inl (by simp [Ws])
  | cons c v ih =>
    by_cases hc : xmlSpace c = true
    · rcases ih with h | ⟨a, w, h1, h2, h3, h4⟩
      · exact .inl fun d hd => (List.mem_cons.1 hd).elim (fun e => e ▸ hc) (h d)
      · refine .inr ⟨c :: a, w, fun d hd => (List.mem_cons.1 hd).elim (fun e => e ▸ hc) (h1 d), h2, h3, ?_⟩
        rcases h4 with rfl | ⟨d, s, hd, rfl⟩
        · exact .inl rfl
        · exact .inr ⟨d, s, hd, rfl⟩
    · have hc : xmlSpace c = false := by simpa using hc
      refine .inr ?_
      rcases ih with h | ⟨a, w, h1, h2, h3, h4⟩
      · refine ⟨[], [c], by simp [Ws], by simp, by simpa using hc, ?_⟩
        cases v with
        | nil => exact .inl rfl
        | cons d v => exact .inr ⟨d, v, h d (by simp), rfl⟩
      · cases a with
        | nil =>
          refine ⟨[], c :: w, h1, by simp, fun d hd => (List.mem_cons.1 hd).elim (fun e => e ▸ hc) (h3 d), ?_⟩
          rcases h4 with rfl | ⟨d, s, hd, rfl⟩
          · exact .inl rfl
          · exact .inr ⟨d, s, hd, rfl⟩
        | cons x a =>
          refine ⟨[], [c], by simp [Ws], by simp, by simpa using hc, ?_⟩
          rcases h4 with rfl | ⟨d, s, hd, rfl⟩
          · exact .inr ⟨x, a ++ w, h1 x (by simp), rfl⟩
          · exact .inr ⟨x, a ++ w ++ d :: s, h1 x (by simp), rfl⟩

theorem tokens_nil {v : Str} (h : tokens v = []) : Ws v := by
  rcases word_split v with h' | ⟨a, w, h1, h2, h3, rfl | ⟨c, s, hc, rfl⟩⟩
  · exact h'
  · rw [tokens_ws h1, tokens_one h2 h3] at h; cases h
  · rw [List.append_assoc, tokens_ws h1, tokens_word h2 h3 hc] at h; cases h

/-- a word, and nothing but white space around it -/
theorem tokens_iff {w v : Str} (hw : w ≠ []) (hn : ∀ c ∈ w, xmlSpace c = false) : tokens v = [w] ↔ Word w v := by
  constructor
  · intro h
    rcases word_split v with h' | ⟨a, w', h1, h2, h3, rfl | ⟨c, s, hc, rfl⟩⟩
    · rw [← List.append_nil v, tokens_ws h'] at h; cases h
    · rw [tokens_ws h1, tokens_one h2 h3] at h
      cases h
      exact ⟨a, [], by simp, h1, by simp [Ws]⟩
    · rw [List.append_assoc, tokens_ws h1, tokens_word h2 h3 hc] at h
      obtain ⟨rfl, h'⟩ := List.cons.inj h
      exact ⟨a, c :: s, rfl, h1, fun d hd => (List.mem_cons.1 hd).elim (fun e => e ▸ hc) (tokens_nil h' d)⟩
  · rintro ⟨a, b, rfl, h1, h2⟩
    rw [List.append_assoc, tokens_ws h1]
    cases b with
    | nil => rw [List.append_nil, tokens_one hw hn]
    | cons c s =>
      rw [tokens_word hw hn (h2 c (by simp)), ← List.append_nil s, tokens_ws fun d hd => h2 d (by simp [hd])]
      rfl

theorem word_self (w : Str) : Word w w := ⟨[], [], by simp, by simp [Ws], by simp [Ws]⟩

theorem val_space {v : Str} : Val env spaceVal v ↔ Word (lit! "default") v ∨ Word (lit! "preserve") v := by
  rw [spaceVal, val_choice, val_value, val_value, tokens_one (w := lit! "default") (by decide) (by decide), tokens_one (w := lit! "preserve") (by decide) (by decide),
    tokens_iff (by decide) (by decide), tokens_iff (by decide) (by decide)]

def baseSpec : AttSpec := [(xmlName (lit! "lang"), false, .text), (xmlName (lit! "space"), false, spaceVal)]

theorem base_spec {k v : Str} : (∃ s ∈ baseSpec, s.1 = k ∧ Val env s.2.2 v) ↔ BaseAttr k v := by
  simp only [baseSpec, List.mem_cons, List.not_mem_nil, or_false, exists_eq_or_imp, exists_eq_left, val_text, and_true, BaseAttr, val_space]
  constructor
  · rintro (h | ⟨h, h'⟩)
    · exact .inl h.symm
    · exact .inr ⟨h.symm, h'⟩
  · rintro (h | ⟨h, h'⟩)
    · exact .inl h.symm
    · exact .inr ⟨h.symm, h'⟩

/-- attributes other than `id` and `type` -/
theorem atts_split {m : Dict Str Str} {d : Data} (hk : XmlDataKept m d) {l : AttSpec} {b : Bool} {pt : Pat}
    (h1 : lit! "id" ∉ l.map (·.1)) (h2 : lit! "type" ∉ l.map (·.1)) :
    Atts env ((lit! "id", b, Id) :: (lit! "type", false, pt) :: l) (attrsOf d) ↔
      (b = true → d.id ≠ none) ∧ (∀ i, d.id = some i → IdFits i) ∧ (∀ v, d.type = some v → Val env pt v) ∧ Atts env l d.attrs := by
  have hp := attrs_plain hk
  constructor
  · rintro ⟨g1, g2⟩
    refine ⟨fun hb hn => ?_, fun i hi => ?_, fun v hv => ?_, fun s hs hr => ?_, fun x hx => ?_⟩
    · obtain ⟨v, hv⟩ := g1 (lit! "id", b, Id) (by simp) hb
      rw [mem_attrsOf_id hk, hn] at hv; cases hv
    · obtain ⟨s, hs, e, h⟩ := g2 (lit! "id", i) ((mem_attrsOf_id hk).2 hi)
      rcases List.mem_cons.1 hs with rfl | hs
      · exact id_val.1 h
      · rcases List.mem_cons.1 hs with rfl | hs
        · exact absurd (show lit! "type" = lit! "id" from e) (by decide)
        · exact absurd (List.mem_map.2 ⟨s, hs, e⟩) h1
    · obtain ⟨s, hs, e, h⟩ := g2 (lit! "type", v) ((mem_attrsOf_type hk).2 hv)
      rcases List.mem_cons.1 hs with rfl | hs
      · exact absurd (show lit! "id" = lit! "type" from e) (by decide)
      · rcases List.mem_cons.1 hs with rfl | hs
        · exact h
        · exact absurd (List.mem_map.2 ⟨s, hs, e⟩) h2
    · obtain ⟨v, hv⟩ := g1 s (by simp [hs]) hr
      refine ⟨v, (mem_attrsOf ?_ ?_).1 hv⟩
      · rintro e; exact h1 (List.mem_map.2 ⟨s, hs, e⟩)
      · rintro e; exact h2 (List.mem_map.2 ⟨s, hs, e⟩)
    · obtain ⟨s, hs, e, h⟩ := g2 x ((mem_attrsOf (hp x hx).1 (hp x hx).2).2 hx)
      rcases List.mem_cons.1 hs with rfl | hs
      · exact absurd e.symm (hp x hx).1
      · rcases List.mem_cons.1 hs with rfl | hs
        · exact absurd e.symm (hp x hx).2
        · exact ⟨s, hs, e, h⟩
  · rintro ⟨g1, g2, g3, g4, g5⟩
    refine ⟨fun s hs hr => ?_, fun x hx => ?_⟩
    · rcases List.mem_cons.1 hs with rfl | hs
      · obtain ⟨i, hi⟩ := Option.ne_none_iff_exists'.1 (g1 hr)
        exact ⟨i, (mem_attrsOf_id hk).2 hi⟩
      · rcases List.mem_cons.1 hs with rfl | hs
        · cases hr
        · obtain ⟨v, hv⟩ := g4 s hs hr
          exact ⟨v, by rw [attrsOf]; exact List.mem_append_right _ hv⟩
    · obtain ⟨k, v⟩ := x
      by_cases e1 : k = lit! "id"
      · subst e1
        exact ⟨(lit! "id", b, Id), by simp, rfl, id_val.2 (g2 v ((mem_attrsOf_id hk).1 hx))⟩
      · by_cases e2 : k = lit! "type"
        · subst e2
          exact ⟨(lit! "type", false, pt), by simp, rfl, g3 v ((mem_attrsOf_type hk).1 hx)⟩
        · obtain ⟨s, hs, h⟩ := g5 (k, v) ((mem_attrsOf e1 e2).1 hx)
          exact ⟨s, by simp [hs], h⟩

/-- `Atts` without obligations depends only on which attributes are allowed -/
theorem atts_perm {l l' : AttSpec} (h : ∀ s, s ∈ l ↔ s ∈ l') {a} : Atts env l a ↔ Atts env l' a := by
  simp only [Atts, h]

theorem atts_base {a : List (Str × Str)} : Atts env baseSpec a ↔ OnlyBase a := by
  constructor
  · intro h k v hx
    exact base_spec.1 (h.2 _ hx)
  · intro h
    refine ⟨?_, fun x hx => base_spec.2 (h x.1 x.2 hx)⟩
    intro s hs hr
    simp only [baseSpec, List.mem_cons, List.not_mem_nil, or_false] at hs
    rcases hs with rfl | rfl <;> cases hr

/-! ### Elements -/

theorem elem_tag {k : Str} {p : Pat} {n : Node} (h : Matches env (.elem (.name k) p) [] [n]) : tagOf n = k := by
  obtain ⟨tag, a, ns, rfl, h1, -⟩ := elem_single.1 h
  exact h1

theorem choice_tag {p q : Pat} {k : Str} (hp : ∀ n, Matches env p [] [n] → tagOf n = k) (hq : ∀ n, Matches env q [] [n] → tagOf n = k) :
    ∀ n, Matches env (.choice p q) [] [n] → tagOf n = k :=
  fun n h => (choice_iff.1 h).elim (hp n) (hq n)

theorem not_tag {k : Str} : ∀ n, Matches env .notAllowed [] [n] → tagOf n = k := fun _ h => nomatch h

/-- an element of the object, by its content -/
theorem elem_wrote {p : Pat} {tag : Str} {a : List (Str × Str)} {ks : List Node} :
    Matches env (.elem (.name tag) p) [] [.elem tag a ks] ↔ Content env p a ks := by
  rw [elem_single]
  constructor
  · rintro ⟨t, a', ns, e, -, h⟩
    cases e; exact h
  · intro h
    exact ⟨_, _, _, rfl, rfl, h⟩

theorem wrote_tag {x : Obj} {n : Node} (h : Wrote x n) (hc : x.cls ≠ .metaChild) : tagOf n = clsTag x.cls := by
  cases h with
  | mk => rfl
  | child h => exact absurd h hc

theorem wrote_elem {x : Obj} {n : Node} (h : Wrote x n) : n.isElem = true := by cases h <;> rfl

theorem all2_iff {P : Obj → Prop} {Q : Node → Prop} : ∀ {xs : List Obj} {ns : List Node}, All2 Wrote xs ns → (∀ x ∈ xs, ∀ n, Wrote x n → (Q n ↔ P x)) →
    ((∀ n ∈ ns, Q n) ↔ ∀ x ∈ xs, P x) := by
  intro xs ns h
  induction h with
  | nil => simp
  | cons h1 _ ih =>
    intro hq
    rw [List.forall_mem_cons, List.forall_mem_cons, hq _ (by simp) _ h1, ih fun x hx => hq x (by simp [hx])]

/-- metadata and contents -/
theorem two_wrote {A B : Pat} (hA : ElemLike env A) (hB : ElemLike env B) {md kids : List Obj} {c : Cls} {t : Option Str} {ns : List Node}
    (hw : All2 Wrote (md ++ kids) (elems ns)) (hws : WsOnly (textNode t ++ ns)) (hmd : ∀ m ∈ md, m.cls = .metadata) (hkc : ∀ x ∈ kids, x.cls = c)
    (hc : clsTag c ≠ lit! "metadata") (hc' : c ≠ .metaChild) (tA : ∀ n, Matches env A [] [n] → tagOf n = lit! "metadata")
    (tB : ∀ n, Matches env B [] [n] → tagOf n = clsTag c) {P Q : Obj → Prop} (hP : ∀ m ∈ md, ∀ n, Wrote m n → (Matches env A [] [n] ↔ P m))
    (hQ : ∀ x ∈ kids, ∀ n, Wrote x n → (Matches env B [] [n] ↔ Q x)) :
    Content env (.group (.star A) (.star B)) [] (textNode t ++ ns) ↔ (∀ m ∈ md, P m) ∧ ∀ x ∈ kids, Q x := by
  obtain ⟨u, v, huv, hu, hv⟩ := all2_append hw
  rw [content_two_stars hA hB, elems_text_append, huv, ← all2_iff hu hP, ← all2_iff hv hQ]
  have tu : ∀ x ∈ u, tagOf x = lit! "metadata" := by
    intro x hx
    obtain ⟨m, hm, h⟩ := mem_all2 hu hx
    rw [wrote_tag h (by rw [hmd m hm]; decide), hmd m hm]; rfl
  have tv : ∀ x ∈ v, tagOf x = clsTag c := by
    intro x hx
    obtain ⟨m, hm, h⟩ := mem_all2 hv hx
    rw [wrote_tag h (by rw [hkc m hm]; exact hc'), hkc m hm]
  constructor
  · rintro ⟨-, l, r, hlr, hl, hr⟩
    have f : ∀ {a b : List Node}, (∀ x ∈ a, tagOf x = lit! "metadata") → (∀ x ∈ b, tagOf x = clsTag c) →
        (a ++ b).filter (fun x => decide (tagOf x = lit! "metadata")) = a ∧ (a ++ b).filter (fun x => decide (tagOf x ≠ lit! "metadata")) = b := by
      intro a b ha hb
      rw [List.filter_append, List.filter_append]
      have a1 : a.filter (fun x => decide (tagOf x = lit! "metadata")) = a := by
        rw [List.filter_eq_self]; intro x hx; simpa using ha x hx
      have a2 : a.filter (fun x => decide (tagOf x ≠ lit! "metadata")) = [] := by
        rw [List.filter_eq_nil_iff]; intro x hx; simpa using ha x hx
      have b1 : b.filter (fun x => decide (tagOf x = lit! "metadata")) = [] := by
        rw [List.filter_eq_nil_iff]; intro x hx; rw [hb x hx]; simpa using hc
      have b2 : b.filter (fun x => decide (tagOf x ≠ lit! "metadata")) = b := by
        rw [List.filter_eq_self]; intro x hx; rw [hb x hx]; simpa using hc
      rw [a1, a2, b1, b2, List.append_nil, List.nil_append]; exact ⟨rfl, rfl⟩
    have e1 := f tu tv
    have e2 := f (fun x hx => tA x (hl x hx)) (fun x hx => tB x (hr x hx))
    rw [hlr] at e1
    have g1 : l = u := e2.1.symm.trans e1.1
    have g2 : r = v := e2.2.symm.trans e1.2
    subst g1 g2
    exact ⟨hl, hr⟩
  · rintro ⟨hl, hr⟩
    exact ⟨hws, u, v, rfl, hl, hr⟩

theorem wrote_ws {t : Option Str} {ns : List Node} {d : Data} (hd : d.text = none)
    (h : t = d.text ∨ (blank d.text = true ∧ Ws (t.getD []))) (hw : WsOnly ns) : WsOnly (textNode t ++ ns) := by
  refine wsOnly_append.2 ⟨?_, hw⟩
  rcases h with rfl | ⟨_, h⟩
  · rw [hd]; simp [textNode, WsOnly]
  · exact wsOnly_textNode h

/-! ### Metadata, the same in all extensions -/

/-- the names that concern metadata are as in xigt.rnc -/
structure PlainMeta (p : Names) : Prop where
  base : p.baseAttrs = BaseAttrs
  metaId : p.metaId = Id
  metaType : p.metaType = .empty
  metaAttrs : p.metaAttrs = .empty
  metaP : p.metaP = .notAllowed
  mdId : p.metadataId = Id
  mdType : p.metadataType = .empty
  mdAttrs : p.metadataAttrs = .empty

theorem base_same {q : Pat} : Same env (.group BaseAttrs q) (attsPat baseSpec q) := .assoc

theorem base_type {q : Pat} : Same env (.group BaseAttrs (.group (.opt (att (lit! "type") .empty)) (.group .empty q)))
    (attsPat (baseSpec ++ [(lit! "type", false, .empty)]) q) :=
  base_same.trans (.right (.right (.right .empty_left)))

/-- the attributes of `meta`, `metadata` -/
theorem meta_same {q : Pat} : Same env (.group (.opt (att (lit! "id") Id)) (.group BaseAttrs (.group (.opt (att (lit! "type") .empty)) (.group .empty q))))
    (attsPat ((lit! "id", false, Id) :: (baseSpec ++ [(lit! "type", false, .empty)])) q) := .right base_type

/-- with a required identifier -/
theorem igt_same {q : Pat} : Same env (.group (att (lit! "id") Id) (.group BaseAttrs (.group (.opt (att (lit! "type") .empty)) (.group .empty q))))
    (attsPat ((lit! "id", true, Id) :: (baseSpec ++ [(lit! "type", false, .empty)])) q) := .right base_type

theorem anyContent_iff (he : env ANY = AnyElement) {ns} : Content env anyContent [] ns ↔ WsNodes ns ∨ elems ns ≠ [] := by
  have hE := elemLike_any he
  have hall : ∀ ns : List Node, ∀ n ∈ elems ns, Matches env (.ref ANY) [] [n] := fun ns n hn => anyElement he n (List.mem_filter.1 hn).2
  rw [Content, anyContent, mixed_star hE, mixed_star hE, mixed_star hE]
  constructor
  · rintro ((rfl | ⟨h, -⟩) | ⟨h, -⟩)
    · exact .inl (by simp [WsNodes])
    · exact .inr h
    · exact .inl h
  · rintro (h | h)
    · exact .inr ⟨h, .inl (.inl rfl)⟩
    · exact .inl (.inr ⟨h, hall ns⟩)

theorem anyContent_noAttr (he : env ANY = AnyElement) : NoAttr env anyContent := star_noAttr (mixed_noAttr (elemLike_any he))

theorem spec_perm {b : Bool} {t : Pat} {l : AttSpec} (s : Str × Bool × Pat) : s ∈ (lit! "id", b, Id) :: (l ++ [(lit! "type", false, t)]) ↔
    s ∈ (lit! "id", b, Id) :: (lit! "type", false, t) :: l := by
  simp only [List.mem_cons, List.mem_append, List.not_mem_nil, or_false]
  constructor
  · rintro (h | h | h)
    · exact .inl h
    · exact .inr (.inr h)
    · exact .inr (.inl h)
  · rintro (h | h | h)
    · exact .inl h
    · exact .inr (.inr h)
    · exact .inr (.inl h)

theorem nodup_base : ((((lit! "id", false, Id) : Str × Bool × Pat) :: (baseSpec ++ [(lit! "type", false, .empty)])).map (·.1)).Nodup := by
  show [lit! "id", xmlName (lit! "lang"), xmlName (lit! "space"), lit! "type"].Nodup
  decide

theorem nodup_base' : ((((lit! "id", true, Id) : Str × Bool × Pat) :: (baseSpec ++ [(lit! "type", false, .empty)])).map (·.1)).Nodup := nodup_base

theorem id_not_base : lit! "id" ∉ baseSpec.map (·.1) := by
  show lit! "id" ∉ [xmlName (lit! "lang"), xmlName (lit! "space")]
  decide
theorem type_not_base : lit! "type" ∉ baseSpec.map (·.1) := by
  show lit! "type" ∉ [xmlName (lit! "lang"), xmlName (lit! "space")]
  decide

/-- elements with an optional identifier and a blank type -/
theorem opt_atts {m : Dict Str Str} {d : Data} (hk : XmlDataKept m d) :
    Atts env ((lit! "id", false, Id) :: (baseSpec ++ [(lit! "type", false, .empty)])) (attrsOf d) ↔ OptId d ∧ BlankType d ∧ OnlyBase d.attrs := by
  rw [atts_perm spec_perm, atts_split hk id_not_base type_not_base, atts_base]
  simp only [val_empty, Bool.false_eq_true, false_imp_iff, true_and, OptId, BlankType]

theorem has_atts {m : Dict Str Str} {d : Data} (hk : XmlDataKept m d) :
    Atts env ((lit! "id", true, Id) :: (baseSpec ++ [(lit! "type", false, .empty)])) (attrsOf d) ↔ HasId d ∧ BlankType d ∧ OnlyBase d.attrs := by
  rw [atts_perm spec_perm, atts_split hk id_not_base type_not_base, atts_base]
  simp only [val_empty, true_imp_iff, BlankType, HasId, ← and_assoc]
  refine and_congr_left' (and_congr_left' ?_)
  constructor
  · rintro ⟨h1, h2⟩
    obtain ⟨i, hi⟩ := Option.ne_none_iff_exists'.1 h1
    exact ⟨i, hi, h2 i hi⟩
  · rintro ⟨i, hi, hf⟩
    exact ⟨by simp [hi], fun j hj => by rw [hi] at hj; cases hj; exact hf⟩

theorem ws_blank {c : Char} (h : xmlSpace c = true) : Uni.isSpace c = true := by
  simp only [xmlSpace, Bool.or_eq_true, decide_eq_true_eq] at h
  rcases h with ((rfl | rfl) | rfl) | rfl <;> (rw [Uni.ascii_space _ (by decide)]; decide)

theorem metaX_iff (he : env ANY = AnyElement) {p : Names} (hp : PlainMeta p) {eff d md kids} (n : XNode eff .metaC d md kids) {nd : Node}
    (h : Wrote (.mk d md kids) nd) : Matches env (metaFile p) [] [nd] ↔ MetaFitsX (.mk d md kids) := by
  obtain ⟨t, ns, rfl, hn, ht, hws, ha⟩ := h.inv (by rw [n.cls_eq]; decide)
  clear h
  rw [n.cls_eq]
  have hmd : md = [] := n.md_nil rfl
  subst hmd
  simp only [metaFile, hp.base, hp.metaId, hp.metaType, hp.metaAttrs]
  rw [show clsTag .metaC = lit! "meta" from rfl, elem_wrote, meta_same.content, attsPat_content (anyContent_noAttr he) nodup_base hn,
    opt_atts n.kept, anyContent_iff he, elems_text_append, MetaFitsX, and_assoc, and_assoc]
  refine and_congr_right fun _ => and_congr_right fun _ => and_congr_right fun _ => ?_
  simp only [Obj.data_mk, Obj.kids_mk]
  have hk : elems ns ≠ [] ↔ kids ≠ [] := by
    have := all2_length ha
    rw [List.nil_append] at this
    rw [ne_eq, ne_eq, ← List.length_eq_zero_iff, ← List.length_eq_zero_iff, this]
  rw [hk]
  constructor
  · rintro (h | h)
    · by_cases hk' : kids = []
      · left
        rcases ht with rfl | ⟨g, -⟩
        · cases htx : d.text with
          | none => rfl
          | some s =>
            obtain ⟨c, hc, hsp⟩ := n.kept.metas (.inl n.cls_eq) s htx
            have hne : s ≠ [] := by rintro rfl; cases hc
            rw [htx] at h
            obtain ⟨s', e, hws'⟩ := h (.text s) (by simp [textNode, hne])
            cases e
            rw [ws_blank (hws' c hc)] at hsp; cases hsp
        · cases htx : d.text with
          | none => rfl
          | some s =>
            obtain ⟨c, hc, hsp⟩ := n.kept.metas (.inl n.cls_eq) s htx
            rw [htx] at g
            rw [blank_iff.1 g c hc] at hsp; cases hsp
      · exact .inr hk'
    · exact .inr h
  · rintro (h | h)
    · by_cases hk' : kids = []
      · left
        have he' : elems ns = [] := Decidable.not_not.1 (fun e => hk.1 e hk')
        rcases ht with rfl | ⟨-, g⟩
        · rw [h]
          exact wsNodes_iff.2 ⟨by rw [textNode, List.nil_append]; exact he', by rw [textNode, List.nil_append]; exact hws⟩
        · exact wsNodes_iff.2 ⟨by rw [elems_text_append]; exact he', wsOnly_append.2 ⟨wsOnly_textNode g, hws⟩⟩
      · exact .inr hk'
    · exact .inr h

theorem content_star' {A A' : Pat} (hs : Same env A A') (hA : ElemLike env A') {ns} : Content env (.star A) [] ns ↔
    WsOnly ns ∧ ∀ n ∈ elems ns, Matches env A' [] [n] := by
  rw [hs.star.content, content_star hA]

theorem mdX_iff (he : env ANY = AnyElement) {p : Names} (hp : PlainMeta p) {eff d md kids} (n : XNode eff .metadata d md kids) {nd : Node}
    (h : Wrote (.mk d md kids) nd) : Matches env (metadataFile p) [] [nd] ↔ MdFitsX (.mk d md kids) := by
  obtain ⟨t, ns, rfl, hn, ht, hws, ha⟩ := h.inv (by rw [n.cls_eq]; decide)
  rw [n.cls_eq]
  have hmd : md = [] := n.md_nil rfl
  subst hmd
  have hE : ElemLike env (metaFile p) := elemLike_elem _ _
  have hs : Same env (.choice .notAllowed (metaFile p)) (metaFile p) := .not_left
  simp only [metadataFile, hp.base, hp.mdId, hp.mdType, hp.mdAttrs, hp.metaP]
  rw [show clsTag .metadata = lit! "metadata" from rfl, elem_wrote, meta_same.content,
    attsPat_content (star_noAttr ((elemLike_not.choice hE).noAttr)) nodup_base hn,
    opt_atts n.kept, content_star' hs hE, elems_text_append, MdFitsX, and_assoc, and_assoc]
  refine and_congr_right fun _ => and_congr_right fun _ => and_congr_right fun _ => ?_
  have hw := wrote_ws (n.text_none rfl) ht hws
  rw [List.nil_append] at ha
  simp only [Obj.kids_mk]
  rw [and_iff_right hw]
  refine all2_iff ha fun x hx nd hnd => ?_
  have hcx := n.kids_cls x hx
  have nx := XNode.of (x := x) (by injection hcx) (n.kids_wf x hx) (n.kids_valid x hx) (n.kept_kids x hx)
  obtain ⟨d', md', kids'⟩ := x
  exact metaX_iff he hp nx hnd


/-! ### Items and tiers -/

theorem atts_opt {l : AttSpec} (hl : ∀ s ∈ l, s.2.1 = false) {a : List (Str × Str)} :
    Atts env l a ↔ ∀ k v, (k, v) ∈ a → ∃ s ∈ l, s.1 = k ∧ Val env s.2.2 v := by
  constructor
  · exact fun h k v hx => h.2 (k, v) hx
  · exact fun h => ⟨fun s hs hr => absurd hr (by rw [hl s hs]; decide), fun x hx => h x.1 x.2 hx⟩

theorem base_append {l : AttSpec} {k v : Str} : (∃ s ∈ baseSpec ++ l, s.1 = k ∧ Val env s.2.2 v) ↔
    BaseAttr k v ∨ ∃ s ∈ l, s.1 = k ∧ Val env s.2.2 v := by
  rw [← base_spec (env := env)]
  constructor
  · rintro ⟨s, hs, h⟩
    rcases List.mem_append.1 hs with hs | hs
    · exact .inl ⟨s, hs, h⟩
    · exact .inr ⟨s, hs, h⟩
  · rintro (⟨s, hs, h⟩ | ⟨s, hs, h⟩)
    · exact ⟨s, List.mem_append_left _ hs, h⟩
    · exact ⟨s, List.mem_append_right _ hs, h⟩

def acSpec (r : Pat) : AttSpec := [(ALN, false, r), (CNT, false, r)]
def segSpec (r : Pat) : AttSpec := [(SEG, false, r)]

theorem base_opt : ∀ s ∈ baseSpec, s.2.1 = false := by
  intro s hs
  simp only [baseSpec, List.mem_cons, List.not_mem_nil, or_false] at hs
  rcases hs with rfl | rfl <;> rfl

theorem ac_opt {r : Pat} : ∀ s ∈ baseSpec ++ acSpec r, s.2.1 = false := by
  intro s hs
  rcases List.mem_append.1 hs with hs | hs
  · exact base_opt s hs
  · simp only [acSpec, List.mem_cons, List.not_mem_nil, or_false] at hs
    rcases hs with rfl | rfl <;> rfl

theorem seg_opt {r : Pat} : ∀ s ∈ baseSpec ++ segSpec r, s.2.1 = false := by
  intro s hs
  rcases List.mem_append.1 hs with hs | hs
  · exact base_opt s hs
  · simp only [segSpec, List.mem_cons, List.not_mem_nil, or_false] at hs
    subst hs; rfl

theorem base_ref {k v : Str} (h : BaseAttr k v) : k ≠ ALN ∧ k ≠ CNT ∧ k ≠ SEG := by
  rcases h with rfl | ⟨rfl, -⟩ <;> decide

theorem refs_iff {r : Pat} {F : Str → Prop} (hF : ∀ v, Val env r v ↔ F v) {a : List (Str × Str)} :
    (Atts env (baseSpec ++ acSpec r) a ∨ Atts env (baseSpec ++ segSpec r) a) ↔ RefsX F a := by
  rw [atts_opt ac_opt, atts_opt seg_opt]
  simp only [base_append, acSpec, segSpec, List.mem_cons, List.not_mem_nil, or_false, exists_eq_or_imp, exists_eq_left, hF]
  constructor
  · rintro (h | h)
    · refine ⟨fun k v hx => ?_, .inl fun v hx => ?_⟩
      · rcases h k v hx with h | ⟨rfl, h⟩ | ⟨rfl, h⟩
        · exact .inl h
        · exact .inr ⟨.inl rfl, h⟩
        · exact .inr ⟨.inr (.inl rfl), h⟩
      · rcases h SEG v hx with h | ⟨h, -⟩ | ⟨h, -⟩
        · exact (base_ref h).2.2 rfl
        · exact absurd h (by decide)
        · exact absurd h (by decide)
    · refine ⟨fun k v hx => ?_, .inr ⟨fun v hx => ?_, fun v hx => ?_⟩⟩
      · rcases h k v hx with h | ⟨rfl, h⟩
        · exact .inl h
        · exact .inr ⟨.inr (.inr rfl), h⟩
      · rcases h ALN v hx with h | ⟨h, -⟩
        · exact (base_ref h).1 rfl
        · exact absurd h (by decide)
      · rcases h CNT v hx with h | ⟨h, -⟩
        · exact (base_ref h).2.1 rfl
        · exact absurd h (by decide)
  · rintro ⟨h, h' | ⟨h1, h2⟩⟩
    · refine .inl fun k v hx => ?_
      rcases h k v hx with h | ⟨rfl | rfl | rfl, h⟩
      · exact .inl h
      · exact .inr (.inl ⟨rfl, h⟩)
      · exact .inr (.inr ⟨rfl, h⟩)
      · exact absurd hx (h' v)
    · refine .inr fun k v hx => ?_
      rcases h k v hx with h | ⟨rfl | rfl | rfl, h⟩
      · exact .inl h
      · exact absurd hx (h1 v)
      · exact absurd hx (h2 v)
      · exact .inr ⟨rfl, h⟩

/-- the attributes of items and tiers: one of two lists; `e` stands for further attributes `x` -/
theorem refs_same {r t e q : Pat} {x : AttSpec} (he : Same env (.group e q) (attsPat x q)) : Same env
    (.group (att (lit! "id") Id) (.group BaseAttrs (.group (refsPat r r r) (.group (.opt (att (lit! "type") t)) (.group e q)))))
    (.choice (attsPat ((lit! "id", true, Id) :: (baseSpec ++ (acSpec r ++ ((lit! "type", false, t) :: x)))) q)
      (attsPat ((lit! "id", true, Id) :: (baseSpec ++ (segSpec r ++ ((lit! "type", false, t) :: x)))) q)) := by
  refine (Same.right ?_).trans .distrib_left
  refine (Same.right ?_).trans (.trans .distrib_left (.choice base_same base_same))
  refine (Same.right (Same.right he)).trans ?_
  exact .trans .distrib (.choice .assoc (.refl _))

theorem has_type {m : Dict Str Str} {d : Data} (hk : XmlDataKept m d) {l : AttSpec} {t : Pat} (h1 : lit! "id" ∉ l.map (·.1)) (h2 : lit! "type" ∉ l.map (·.1)) :
    Atts env ((lit! "id", true, Id) :: (lit! "type", false, t) :: l) (attrsOf d) ↔
      HasId d ∧ (∀ v, d.type = some v → Val env t v) ∧ Atts env l d.attrs := by
  rw [atts_split hk h1 h2, ← and_assoc]
  refine and_congr_left' ?_
  simp only [true_imp_iff, HasId]
  constructor
  · rintro ⟨h1, h2⟩
    obtain ⟨i, hi⟩ := Option.ne_none_iff_exists'.1 h1
    exact ⟨i, hi, h2 i hi⟩
  · rintro ⟨i, hi, hf⟩
    exact ⟨by simp [hi], fun j hj => by rw [hi] at hj; cases hj; exact hf⟩

theorem spec_perm' {b : Bool} {t : Pat} {l l' x : AttSpec} (s : Str × Bool × Pat) :
    s ∈ (lit! "id", b, Id) :: (l ++ (l' ++ ((lit! "type", false, t) :: x))) ↔ s ∈ (lit! "id", b, Id) :: (lit! "type", false, t) :: (l ++ l' ++ x) := by
  simp only [List.mem_cons, List.mem_append]
  constructor
  · rintro (h | h | h | h | h)
    · exact .inl h
    · exact .inr (.inr (.inl (.inl h)))
    · exact .inr (.inr (.inl (.inr h)))
    · exact .inr (.inl h)
    · exact .inr (.inr (.inr h))
  · rintro (h | h | (h | h) | h)
    · exact .inl h
    · exact .inr (.inr (.inr (.inl h)))
    · exact .inr (.inl h)
    · exact .inr (.inr (.inl h))
    · exact .inr (.inr (.inr (.inr h)))

/-- the names above are used by no further attribute -/
def Fresh (x : AttSpec) : Prop :=
  (x.map (·.1)).Nodup ∧ ∀ s ∈ x, s.1 ∉ [lit! "id", xmlName (lit! "lang"), xmlName (lit! "space"), ALN, CNT, SEG, lit! "type"]

theorem refs_content' {m : Dict Str Str} {d : Data} (hk : XmlDataKept m d) {r t e q : Pat} {x : AttSpec} (he : Same env (.group e q) (attsPat x q))
    (hx : Fresh x) (hq : NoAttr env q) (hn : ((attrsOf d).map (·.1)).Nodup) {ns : List Node} :
    Content env (.group (att (lit! "id") Id) (.group BaseAttrs (.group (refsPat r r r) (.group (.opt (att (lit! "type") t)) (.group e q)))))
      (attrsOf d) ns ↔
    (HasId d ∧ (∀ v, d.type = some v → Val env t v) ∧
      (Atts env (baseSpec ++ acSpec r ++ x) d.attrs ∨ Atts env (baseSpec ++ segSpec r ++ x) d.attrs)) ∧ Content env q [] ns := by
  have fr : ∀ k ∈ [lit! "id", xmlName (lit! "lang"), xmlName (lit! "space"), ALN, CNT, SEG, lit! "type"], k ∉ x.map (·.1) := by
    intro k hk hm
    obtain ⟨s, hs, rfl⟩ := List.mem_map.1 hm
    exact hx.2 s hs hk
  have nd : ∀ l : List Str, l.Nodup → (∀ k ∈ l, k ∈ [lit! "id", xmlName (lit! "lang"), xmlName (lit! "space"), ALN, CNT, SEG, lit! "type"]) →
      (l ++ x.map (·.1)).Nodup := by
    intro l hl hs
    refine List.nodup_append.2 ⟨hl, hx.1, ?_⟩
    rintro a ha b hb rfl
    exact fr a (hs a ha) hb
  have n1 : (((lit! "id", true, Id) :: (baseSpec ++ (acSpec r ++ ((lit! "type", false, t) :: x)))).map (·.1)).Nodup :=
    nd [lit! "id", xmlName (lit! "lang"), xmlName (lit! "space"), ALN, CNT, lit! "type"] (by decide) (by decide)
  have n2 : (((lit! "id", true, Id) :: (baseSpec ++ (segSpec r ++ ((lit! "type", false, t) :: x)))).map (·.1)).Nodup :=
    nd [lit! "id", xmlName (lit! "lang"), xmlName (lit! "space"), SEG, lit! "type"] (by decide) (by decide)
  have g : ∀ k ∈ [lit! "id", lit! "type"], k ∉ (baseSpec ++ acSpec r ++ x).map (·.1) ∧ k ∉ (baseSpec ++ segSpec r ++ x).map (·.1) := by
    intro k hk
    have hk' : k ∈ [lit! "id", xmlName (lit! "lang"), xmlName (lit! "space"), ALN, CNT, SEG, lit! "type"] := by revert k; decide
    have h1 : k ∉ [xmlName (lit! "lang"), xmlName (lit! "space"), ALN, CNT] := by revert k; decide
    have h2 : k ∉ [xmlName (lit! "lang"), xmlName (lit! "space"), SEG] := by revert k; decide
    rw [List.map_append, List.map_append (l₂ := x)]
    exact ⟨fun h => (List.mem_append.1 h).elim h1 (fr k hk'), fun h => (List.mem_append.1 h).elim h2 (fr k hk')⟩
  rw [(refs_same he).content, content_choice, attsPat_content hq n1 hn, attsPat_content hq n2 hn, atts_perm spec_perm', atts_perm spec_perm',
    has_type hk (g _ (by simp)).1 (g _ (by simp)).1, has_type hk (g _ (by simp)).2 (g _ (by simp)).2, ← or_and_right, ← and_or_left, ← and_or_left]

theorem refs_content {m : Dict Str Str} {d : Data} (hk : XmlDataKept m d) {r t q : Pat} (hq : NoAttr env q) (hn : ((attrsOf d).map (·.1)).Nodup)
    {F : Str → Prop} (hF : ∀ v, Val env r v ↔ F v) {ns : List Node} :
    Content env (.group (att (lit! "id") Id) (.group BaseAttrs (.group (refsPat r r r) (.group (.opt (att (lit! "type") t)) (.group .empty q)))))
      (attrsOf d) ns ↔
    (HasId d ∧ (∀ v, d.type = some v → Val env t v) ∧ RefsX F d.attrs) ∧ Content env q [] ns := by
  rw [refs_content' hk (x := []) .empty_left ⟨.nil, by simp⟩ hq hn, List.append_nil, List.append_nil, refs_iff hF]

theorem algn_val {v : Str} : Val env AlgnExpr v ↔ AlgnFits v := by rw [AlgnExpr, val_data, AlgnFits]

theorem itemX_iff {eff d md kids} (n : XNode eff .item d md kids) {nd : Node} (h : Wrote (.mk d md kids) nd) :
    Matches env (itemFile xigtNames) [] [nd] ↔ ItemFitsX (.mk d md kids) := by
  obtain ⟨t, ns, rfl, hn, ht, hws, ha⟩ := h.inv (by rw [n.cls_eq]; decide)
  rw [n.cls_eq]
  have hmd : md = [] := n.md_nil rfl
  have hkd : kids = [] := List.eq_nil_iff_forall_not_mem.2 fun x hx => nomatch n.kids_cls x hx
  subst hmd hkd
  rw [itemFile, show clsTag .item = lit! "item" from rfl, elem_wrote]
  simp only [xigtNames]
  rw [refs_content n.kept text_noAttr hn (fun _ => algn_val), content_text, elems_text_append, ItemFitsX]
  simp only [val_empty, Obj.data_mk, BlankType]
  refine and_iff_left ?_
  have := all2_length ha
  exact List.length_eq_zero_iff.1 this.symm

/-! ### Objects with metadata and contents -/

theorem absorb {q : Pat} : Same env (.star (.choice (.star .notAllowed) (.choice .notAllowed q))) (.star q) :=
  .trans star_absorb (.star (.trans .not_left .not_left))

theorem outer_same {A B : Pat} : Same env (.group (.star (.choice (.star .notAllowed) (.choice .notAllowed A))) (.star (.choice .notAllowed B)))
    (.group (.star A) (.star B)) := .group absorb (.star .not_left)

theorem outer_noAttr {A B : Pat} (hA : ElemLike env A) (hB : ElemLike env B) :
    NoAttr env (.group (.star (.choice (.star .notAllowed) (.choice .notAllowed A))) (.star (.choice .notAllowed B))) :=
  fun a ns h => group_noAttr (star_noAttr hA.noAttr) (star_noAttr hB.noAttr) a ns ((outer_same a ns).1 h)

theorem plainMeta : PlainMeta xigtNames := ⟨rfl, rfl, rfl, rfl, rfl, rfl, rfl, rfl⟩

/-- the contents of a tier, an igt or a corpus, by those of its parts -/
theorem outerX (he : env ANY = AnyElement) {eff c c' d md kids} (n : XNode eff c d md kids) (hcc : c.contained = some c') (htx : c.hasText = false)
    (hc1 : clsTag c' ≠ lit! "metadata") (hc2 : c' ≠ .metaChild) {t : Option Str} {ns : List Node}
    (ht : t = d.text ∨ (blank d.text = true ∧ Ws (t.getD []))) (hws : WsOnly ns) (ha : All2 Wrote (md ++ kids) (elems ns))
    {B : Pat} (hB : ElemLike env B) (tB : ∀ n, Matches env B [] [n] → tagOf n = clsTag c') {Q : Obj → Prop}
    (hQ : ∀ x ∈ kids, ∀ nd, XNode (effNs d eff) c' x.data x.md x.kids → Wrote x nd → (Matches env B [] [nd] ↔ Q x)) :
    Content env (.group (.star (.choice (.star .notAllowed) (.choice .notAllowed (metadataFile xigtNames)))) (.star (.choice .notAllowed B)))
      [] (textNode t ++ ns) ↔ (∀ m ∈ md, MdFitsX m) ∧ ∀ x ∈ kids, Q x := by
  rw [outer_same.content]
  have hkc : ∀ x ∈ kids, x.cls = c' := fun x hx => by
    have := n.kids_cls x hx
    rw [hcc] at this; injection this
  refine two_wrote (elemLike_elem _ _) hB ha (wrote_ws (n.text_none htx) ht hws) n.md_cls hkc hc1 hc2 (fun _ h => elem_tag h) tB
    (fun x hx nd hw => ?_) (fun x hx nd hw => ?_)
  · have nx := XNode.of (x := x) (n.md_cls x hx) (n.md_wf x hx) (n.md_valid x hx) (n.kept_md x hx)
    obtain ⟨d', md', kids'⟩ := x
    exact mdX_iff he plainMeta nx hw
  · exact hQ x hx nd (XNode.of (x := x) (hkc x hx) (n.kids_wf x hx) (n.kids_valid x hx) (n.kept_kids x hx)) hw

theorem val_none {v : Str} : ¬ Val env .notAllowed v := val_not

theorem tierX_iff (he : env ANY = AnyElement) {eff d md kids} (n : XNode eff .tier d md kids) {nd : Node} (h : Wrote (.mk d md kids) nd) :
    Matches env (tierFile xigtNames) [] [nd] ↔ TierFitsX (.mk d md kids) := by
  obtain ⟨t, ns, rfl, hn, ht, hws, ha⟩ := h.inv (by rw [n.cls_eq]; decide)
  rw [n.cls_eq, tierFile, show clsTag .tier = lit! "tier" from rfl, elem_wrote]
  have hq : NoAttr env (.group (.star (.choice (.star .notAllowed) (.choice .notAllowed (metadataFile xigtNames)))) (.star (.choice .notAllowed (itemFile xigtNames)))) :=
    outer_noAttr (elemLike_elem _ _) (elemLike_elem _ _)
  have key := refs_content n.kept (env := env) (r := Id) (t := .notAllowed) hq hn (fun _ => id_val) (ns := textNode t ++ ns)
  refine key.trans ?_
  rw [outerX he n rfl rfl (by decide) (by decide) ht hws ha (B := itemFile xigtNames) (elemLike_elem _ _) (fun _ h => elem_tag h)
    (Q := ItemFitsX) (fun x hx nd nx hw => by obtain ⟨d', md', kids'⟩ := x; exact itemX_iff nx hw), TierFitsX, and_assoc, and_assoc]
  simp only [Obj.data_mk, Obj.md_mk, Obj.kids_mk]
  refine and_congr_right fun _ => and_congr_left' ?_
  cases htp : d.type with
  | none => simp
  | some v => simp [val_none]

theorem igtX_iff (he : env ANY = AnyElement) {eff d md kids} (n : XNode eff .igt d md kids) {nd : Node} (h : Wrote (.mk d md kids) nd) :
    Matches env (igtFile xigtNames) [] [nd] ↔ IgtFitsX (.mk d md kids) := by
  obtain ⟨t, ns, rfl, hn, ht, hws, ha⟩ := h.inv (by rw [n.cls_eq]; decide)
  rw [n.cls_eq, igtFile, show clsTag .igt = lit! "igt" from rfl, elem_wrote]
  have hq : NoAttr env (.group (.star (.choice (.star .notAllowed) (.choice .notAllowed (metadataFile xigtNames)))) (.star (.choice .notAllowed (tierFile xigtNames)))) :=
    outer_noAttr (elemLike_elem _ _) (elemLike_elem _ _)
  refine igt_same.content.trans ?_
  refine (attsPat_content hq nodup_base' hn).trans ?_
  rw [has_atts n.kept, outerX he n rfl rfl (by decide) (by decide) ht hws ha (B := tierFile xigtNames) (elemLike_elem _ _) (fun _ h => elem_tag h)
    (Q := TierFitsX) (fun x hx nd nx hw => by obtain ⟨d', md', kids'⟩ := x; exact tierX_iff he nx hw), IgtFitsX, and_assoc, and_assoc]
  exact .rfl

theorem corpusX_iff (he : env ANY = AnyElement) {eff d md kids} (n : XNode eff .corpus d md kids) {nd : Node} (h : Wrote (.mk d md kids) nd) :
    Matches env (corpusFile xigtNames) [] [nd] ↔ CorpusFitsX (.mk d md kids) := by
  obtain ⟨t, ns, rfl, hn, ht, hws, ha⟩ := h.inv (by rw [n.cls_eq]; decide)
  rw [n.cls_eq, corpusFile, show clsTag .corpus = lit! "xigt-corpus" from rfl, elem_wrote]
  have hq : NoAttr env (.group (.star (.choice (.star .notAllowed) (.choice .notAllowed (metadataFile xigtNames)))) (.star (.choice .notAllowed (igtFile xigtNames)))) :=
    outer_noAttr (elemLike_elem _ _) (elemLike_elem _ _)
  refine meta_same.content.trans ?_
  refine (attsPat_content hq nodup_base hn).trans ?_
  rw [opt_atts n.kept, outerX he n rfl rfl (by decide) (by decide) ht hws ha (B := igtFile xigtNames) (elemLike_elem _ _) (fun _ h => elem_tag h)
    (Q := IgtFitsX) (fun x hx nd nx hw => by obtain ⟨d', md', kids'⟩ := x; exact igtX_iff he nx hw), CorpusFitsX, and_assoc, and_assoc]
  refine and_congr_right fun _ => ?_
  have : BlankType d := fun v hv => by rw [n.kept.corpus n.cls_eq] at hv; cases hv
  exact and_iff_right this

/-- documents that were written for a corpus -/
theorem core_xigt {eff d md kids} (n : XNode eff .corpus d md kids) {doc : Node} (h4 : Wrote (.mk d md kids) doc) :
    Valid xigt_rnc doc ↔ CorpusFitsX (.mk d md kids) :=
  corpusX_iff (env := xigt_rnc.defs) (by simp [xigt_rnc, grammar]) n h4

/-- **C103**: what is written of a corpus is valid against xigt.rnc just in case the corpus fits it: types
and attributes are not extended, tiers have no type, and text in a `meta` comes with children. -/
theorem C103_iff (x : Obj) (hc : x.cls = .corpus) (hw : x.WF) (hv : x.Valid) (hk : XmlKept [] x) (ind : Option Int) :
    ∃ s doc, dumpsXml ind x = .ok s ∧ docText s = .ok doc ∧ (Valid xigt_rnc doc ↔ CorpusFitsX x) := by
  obtain ⟨s, doc, h1, h2, -, h4⟩ := wrote_corpus x hc hw hv hk ind
  refine ⟨s, doc, h1, h2, ?_⟩
  obtain ⟨d, md, kids⟩ := x
  exact core_xigt (XNode.of hc hw hv hk) h4

end
end Xigt.Rng
