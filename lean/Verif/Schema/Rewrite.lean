import Verif.Schema.Outline
import Verif.Xml.Again
/- C150: reading a document and writing it again keeps it valid, or invalid, against each of the schemata. -/

set_option linter.unusedSectionVars false

namespace Xigt.Rng
section
variable [Uni] [XmlLex] [Xsd] {env : Str → Pat}

/-! ### The order of attributes -/

/-- the same but for the order of attributes -/
inductive Re : Node → Node → Prop
  | text {s} : Re (.text s) (.text s)
  | elem {tag a b ns ms} : a.Perm b → All2 Re ns ms → Re (.elem tag a ns) (.elem tag b ms)

theorem Re.ws {ns ms : List Node} (h : All2 Re ns ms) (hw : WsNodes ns) : WsNodes ms := by
  induction h with
  | nil => exact hw
  | cons h1 _ ih =>
    intro n hn
    rcases List.mem_cons.1 hn with rfl | hn
    · obtain ⟨s, e, hs⟩ := hw _ (List.mem_cons_self ..)
      subst e
      cases h1
      exact ⟨s, rfl, hs⟩
    · exact ih (fun k hk => hw k (List.mem_cons_of_mem _ hk)) n hn

theorem Re.texts {ns ms : List Node} (h : All2 Re ns ms) (hw : ∀ n ∈ ns, ∃ s, n = .text s) : ∀ n ∈ ms, ∃ s, n = .text s := by
  induction h with
  | nil => exact hw
  | cons h1 _ ih =>
    intro n hn
    rcases List.mem_cons.1 hn with rfl | hn
    · obtain ⟨s, e⟩ := hw _ (List.mem_cons_self ..)
      subst e
      cases h1
      exact ⟨s, rfl⟩
    · exact ih (fun k hk => hw k (List.mem_cons_of_mem _ hk)) n hn

theorem all2_shuffle {α β : Type} {R : α → β → Prop} {a b c : List α} (h : Shuffle a b c) : ∀ {l : List β}, All2 R c l →
    ∃ u v, Shuffle u v l ∧ All2 R a u ∧ All2 R b v := by
  induction h with
  | nil => intro l hl; cases hl; exact ⟨[], [], .nil, .nil, .nil⟩
  | left _ ih =>
    intro l hl
    cases hl with
    | cons h1 h2 =>
      obtain ⟨u, v, g1, g2, g3⟩ := ih h2
      exact ⟨_ :: u, v, .left g1, .cons h1 g2, g3⟩
  | right _ ih =>
    intro l hl
    cases hl with
    | cons h1 h2 =>
      obtain ⟨u, v, g1, g2, g3⟩ := ih h2
      exact ⟨u, _ :: v, .right g1, g2, .cons h1 g3⟩

theorem re_split {w₁ w₂ : List Node} {tag a ns} {ms : List Node} (h : All2 Re (w₁ ++ .elem tag a ns :: w₂) ms) :
    ∃ v₁ v₂ b ks, ms = v₁ ++ .elem tag b ks :: v₂ ∧ All2 Re w₁ v₁ ∧ All2 Re w₂ v₂ ∧ a.Perm b ∧ All2 Re ns ks := by
  obtain ⟨u, v, rfl, h1, h2⟩ := all2_append h
  cases h2 with
  | cons h3 h4 =>
    cases h3 with
    | elem h5 h6 => exact ⟨_, _, _, _, rfl, h1, h4, h5, h6⟩

/-- patterns do not see the order of attributes -/
theorem Matches.re {p a ns} (h : Matches env p a ns) : ∀ {b ms}, a.Perm b → All2 Re ns ms → Matches env p b ms := by
  induction h with
  | empty => intro b ms hb hm; cases hm; rw [List.nil_perm.1 hb]; exact .empty
  | text h => intro b ms hb hm; rw [List.nil_perm.1 hb]; exact .text (Re.texts hm h)
  | data h =>
    intro b ms hb hm
    rw [List.nil_perm.1 hb]
    cases hm with
    | cons h1 h2 => cases h2; cases h1; exact .data h
  | left _ ih => intro b ms hb hm; exact .left (ih hb hm)
  | right _ ih => intro b ms hb hm; exact .right (ih hb hm)
  | group h1 _ _ ih1 ih2 =>
    intro b ms hb hm
    obtain ⟨u, v, rfl, h2, h3⟩ := all2_append hm
    exact .group (hb.symm.trans h1) (ih1 (.refl _) h2) (ih2 (.refl _) h3)
  | interleave h1 hs _ _ ih1 ih2 =>
    intro b ms hb hm
    obtain ⟨u, v, h4, h2, h3⟩ := all2_shuffle hs hm
    exact .interleave (hb.symm.trans h1) h4 (ih1 (.refl _) h2) (ih2 (.refl _) h3)
  | one _ ih => intro b ms hb hm; exact .one (ih hb hm)
  | more h1 _ _ ih1 ih2 =>
    intro b ms hb hm
    obtain ⟨u, v, rfl, h2, h3⟩ := all2_append hm
    exact .more (hb.symm.trans h1) (ih1 (.refl _) h2) (ih2 (.refl _) h3)
  | attr h1 h2 _ => intro b ms hb hm; cases hm; rw [← List.singleton_perm.1 hb]; exact .attr h1 h2
  | attrWs h1 h2 h3 _ => intro b ms hb hm; cases hm; rw [← List.singleton_perm.1 hb]; exact .attrWs h1 h2 h3
  | elem h1 _ h3 h4 ih =>
    intro b ms hb hm
    rw [List.nil_perm.1 hb]
    obtain ⟨v₁, v₂, b', ks, rfl, g1, g2, g3, g4⟩ := re_split hm
    exact .elem h1 (ih g3 g4) (Re.ws g1 h3) (Re.ws g2 h4)
  | elemWs h1 hw _ h3 h4 ih =>
    intro b ms hb hm
    rw [List.nil_perm.1 hb]
    obtain ⟨v₁, v₂, b', ks, rfl, g1, g2, g3, g4⟩ := re_split hm
    exact .elemWs h1 (Re.ws g4 hw) (ih g3 .nil) (Re.ws g1 h3) (Re.ws g2 h4)
  | elemEmpty h1 hw _ h3 h4 ih =>
    intro b ms hb hm
    rw [List.nil_perm.1 hb]
    obtain ⟨v₁, v₂, b', ks, rfl, g1, g2, g3, g4⟩ := re_split hm
    exact .elemEmpty h1 (Re.ws g4 hw) (ih g3 (.cons .text .nil)) (Re.ws g1 h3) (Re.ws g2 h4)
  | ref _ ih => intro b ms hb hm; exact .ref (ih hb hm)

theorem all2_symm {α : Type} {R : α → α → Prop} {l m : List α} (h : All2 R l m) (hR : ∀ a ∈ l, ∀ b, R a b → R b a) : All2 R m l := by
  induction h with
  | nil => exact .nil
  | cons h1 _ ih => exact .cons (hR _ (by simp) _ h1) (ih fun a ha => hR a (by simp [ha]))

theorem Re.symm : ∀ (n m : Node), Re n m → Re m n := by
  refine Node.ind (fun s m h => ?_) (fun tag a ns ih m h => ?_)
  · cases h; exact .text
  · cases h with
    | elem h1 h2 => exact .elem h1.symm (all2_symm h2 ih)

theorem Re.valid {S : Grammar} {n m : Node} (h : Re n m) : Valid S n ↔ Valid S m :=
  ⟨fun hv => hv.re (.refl _) (.cons h .nil), fun hv => hv.re (.refl _) (.cons (Re.symm _ _ h) .nil)⟩

/-! ### What was read, as if it had been written -/

/-- elements replaced -/
theorem swap {xs : List Obj} {W : Obj → Node → Prop} : ∀ {ns : List Node}, All2 (fun x n => ∃ m, Re n m ∧ W x m ∧ m.isElem = true) xs (elems ns) →
    ∃ ms, All2 Re ns ms ∧ All2 W xs (elems ms) ∧ (WsOnly ns → WsOnly ms) := by
  intro ns
  induction ns generalizing xs with
  | nil => intro h; cases h; exact ⟨[], .nil, .nil, id⟩
  | cons n ns ih =>
    intro h
    cases n with
    | text s =>
      obtain ⟨ms, h1, h2, h3⟩ := ih h
      refine ⟨.text s :: ms, .cons .text h1, h2, fun hw t ht => ?_⟩
      rcases List.mem_cons.1 ht with ht | ht
      · cases ht; exact hw s (by simp)
      · exact h3 (fun u hu => hw u (List.mem_cons_of_mem _ hu)) t ht
    | elem tag a ks =>
      rw [show elems (.elem tag a ks :: ns) = .elem tag a ks :: elems ns from rfl] at h
      cases h with
      | cons g1 g2 =>
        obtain ⟨ms, h1, h2, h3⟩ := ih g2
        obtain ⟨m, r, w, e⟩ := g1
        refine ⟨m :: ms, .cons r h1, ?_, fun hw t ht => ?_⟩
        · rw [elems, List.filter_cons, if_pos e]
          exact .cons w h2
        · rcases List.mem_cons.1 ht with ht | ht
          · subst ht; cases e
          · exact h3 (fun u hu => hw u (List.mem_cons_of_mem _ hu)) t ht

theorem nodup_of_keys {a : List (Str × Str)} (h : (a.map Prod.fst).Nodup) : a.Nodup :=
  (List.pairwise_map.1 h).imp fun hne e => hne (congrArg Prod.fst e)

theorem perm_of_mem {a b : List (Str × Str)} (ha : (a.map Prod.fst).Nodup) (hb : (b.map Prod.fst).Nodup) (h : ∀ k v, (k, v) ∈ a ↔ (k, v) ∈ b) : a.Perm b :=
  (List.perm_ext_iff_of_nodup (nodup_of_keys ha) (nodup_of_keys hb)).2 fun x => h x.1 x.2

theorem has_perm {c : Cls} {a : List (Str × Str)} {d : Data} (h : Has c a d) (hn : (a.map Prod.fst).Nodup) (hd : (d.attrs.map Prod.fst).Nodup) :
    a.Perm (attrsOf d) ∧ ((attrsOf d).map Prod.fst).Nodup := by
  have key : ∀ k v, (k, v) ∈ a ↔ (k, v) ∈ attrsOf d := by
    intro k v
    simp only [attrsOf, List.mem_append, mem_optAttr]
    by_cases h1 : k = lit! "id"
    · subst h1
      simp only [true_and, h.id v, h.attrs, ne_eq, not_true_eq_false, false_and, and_false, or_false]
      exact ⟨.inl, fun g => g.elim id fun g => absurd g.1 (by decide)⟩
    · by_cases h2 : k = lit! "type"
      · subst h2
        simp only [true_and, h.type v, h.attrs, ne_eq, not_true_eq_false, and_false, or_false]
        exact ⟨.inr, fun g => g.elim (fun g => absurd g.1 (by decide)) id⟩
      · simp only [h1, h2, false_and, false_or, h.attrs, ne_eq, not_false_eq_true, and_true]
  have hnn : ((attrsOf d).map Prod.fst).Nodup := by
    simp only [attrsOf, List.map_append]
    have o : ∀ (k : Str) (v : Option Str), ((optAttr k v).map Prod.fst).Nodup ∧ ∀ x ∈ (optAttr k v).map Prod.fst, x = k := by
      intro k v
      cases v with
      | none => exact ⟨.nil, by simp [optAttr]⟩
      | some v => exact ⟨by simp [optAttr], by simp [optAttr]⟩
    rw [List.nodup_append, List.nodup_append]
    have dk : ∀ x ∈ d.attrs.map Prod.fst, x ≠ lit! "id" ∧ x ≠ lit! "type" := by
      intro x hx
      obtain ⟨⟨k, v⟩, hm, rfl⟩ := List.mem_map.1 hx
      exact ((h.attrs k v).1 hm).2
    refine ⟨⟨(o _ _).1, (o _ _).1, fun x hx y hy e => ?_⟩, hd, fun x hx y hy e => ?_⟩
    · rw [(o _ _).2 x hx, (o _ _).2 y hy] at e
      exact absurd e (by decide)
    · subst e
      rcases List.mem_append.1 hx with hx | hx
      · exact (dk x hy).1 ((o _ _).2 x hx)
      · exact (dk x hy).2 ((o _ _).2 x hx)
  exact ⟨perm_of_mem hn hnn key, hnn⟩

theorem said_text {t : Option Str} {ns : List Node} (ht : t ≠ some []) (hw : WsOnly ns) {d : Option Str} (h : HasText (textNode t ++ ns) d) :
    t = d ∨ (blank d = true ∧ Ws (t.getD [])) := by
  have hb : blank (none : Option Str) = true := blank_iff.2 (by simp)
  cases t with
  | none =>
    rcases h with ⟨-, rfl⟩ | ⟨h, -⟩
    · exact .inl rfl
    · exact absurd (said_ws hw) h
  | some s =>
    have hs : s ≠ [] := fun e => ht (by rw [e])
    rw [textNode, if_neg hs, List.singleton_append] at h
    by_cases hws : Ws s
    · have e : said (.text s :: ns) = [] := by rw [said, if_pos (isWs_iff.2 hws)]; exact said_ws hw
      rcases h with ⟨-, rfl⟩ | ⟨h, -⟩
      · exact .inr ⟨hb, hws⟩
      · exact absurd e h
    · have e : said (.text s :: ns) = s := by
        rw [said, if_neg (fun h => hws (isWs_iff.1 h)), said_ws hw, List.append_nil]
      rcases h with ⟨h, -⟩ | ⟨-, h⟩
      · exact absurd (e.symm.trans h) hs
      · rw [h, e]; exact .inl rfl

/-- there is a document for the object, the same but for the order of attributes -/
def Again (x : Obj) (n : Node) : Prop := ∃ m, Re n m ∧ Wrote x m ∧ m.isElem = true

theorem textNode_re (t : Option Str) : All2 Re (textNode t) (textNode t) := by
  cases t with
  | none => exact .nil
  | some s =>
    rw [textNode]
    split
    · exact .nil
    · exact .cons .text .nil

theorem all2_both {α β γ : Type} {R : α → β → Prop} {S : γ → β → Prop} {T : γ → β → Prop} {xs : List α} {ns : List β} (h : All2 R xs ns) :
    ∀ {ys : List γ}, All2 S ys ns → (∀ x ∈ xs, ∀ y ∈ ys, ∀ n ∈ ns, R x n → S y n → T y n) → All2 T ys ns := by
  induction h with
  | nil => intro ys h _; cases h; exact .nil
  | cons h1 _ ih =>
    intro ys h hT
    cases h with
    | cons g1 g2 =>
      exact .cons (hT _ (by simp) _ (by simp) _ (by simp) h1 g1) (ih g2 fun x hx y hy n hn => hT x (by simp [hx]) y (by simp [hy]) n (by simp [hn]))

theorem mc_again : ∀ (p : PElem) (n : Node) (x : Obj), Rep p n → McClean n → IsMc x n → Again x n := by
  refine PElem.ind fun tag as m t ps ih n x h hc hx => ?_
  cases h with
  | mk h1 h2 h3 h4 h5 =>
    rename_i ns
    cases hx with
    | @mk d kids nm _ _ _ g1 g2 g3 g4 g5 g6 g7 g8 =>
      cases hc with
      | mk _ _ _ _ _ c6 _ c8 =>
        rw [elems_text_append] at g8 c8
        have hw := textFirst_ws h4 c6
        obtain ⟨ms, k1, k2, k3⟩ := swap (W := Wrote) (all2_both h5 g8 (T := Again) fun q hq y hy k hk r i => ih q hq k y r (c8 k hk) i)
        have e : tag = childTag d := by
          rw [g3, childTag, g2]
          cases d.ns <;> rfl
        rw [e]
        subst g6
        exact ⟨_, .elem (.refl _) (all2_append' (textNode_re t) k1), .child g1 h2 (said_text h3 hw g7) (k3 hw) k2, rfl⟩

/-- one step for the other classes -/
theorem node_again {p : PElem} {tag : Str} {a : List (Str × Str)} {ns : List Node} {d : Data} {md kids : List Obj} {scope : Dict Str Str} (h : Rep p (.elem tag a ns))
    (hd : Has d.cls a d) (hs : Stable scope (.mk d md kids)) (ht : tag = clsTag d.cls) (hc : d.cls ≠ .metaChild)
    (hw : ∀ t ns', ns = textNode t ++ ns' → FirstElem ns' → t ≠ some [] → WsOnly ns' ∧ (t = d.text ∨ (blank d.text = true ∧ Ws (t.getD []))))
    (hk : All2 Again (md ++ kids) (elems ns)) : Again (.mk d md kids) (.elem tag a ns) := by
  cases h with
  | mk h1 h2 h3 h4 h5 =>
    rename_i m t ps ns'
    obtain ⟨w1, w2⟩ := hw t ns' rfl h4 h3
    rw [elems_text_append] at hk
    obtain ⟨ms, k1, k2, k3⟩ := swap (W := Wrote) hk
    have hda : (d.attrs.map Prod.fst).Nodup := by cases hs; assumption
    obtain ⟨e1, e2⟩ := has_perm hd h2 hda
    subst ht
    exact ⟨_, .elem e1 (all2_append' (textNode_re t) k1), .mk hc e2 w2 (k3 w1) k2, rfl⟩

theorem Stable.kid {scope : Dict Str Str} {d : Data} {md kids : List Obj} (h : Stable scope (.mk d md kids)) :
    (∀ x ∈ md, ∃ sc, Stable sc x) ∧ (∀ x ∈ kids, ∃ sc, Stable sc x) ∧ (d.cls.hasText = false → d.text = none) := by
  cases h with
  | mk _ _ _ _ _ _ h7 _ _ _ _ _ _ _ _ _ h16 h17 => exact ⟨fun x hx => ⟨_, h16 x hx⟩, fun x hx => ⟨_, h17 x hx⟩, h7⟩

theorem meta_again {p n x scope} (h : Rep p n) (hd : MetaS n) (hc : MetaRd n) (hs : Stable scope x) (hx : IsMeta x n) : Again x n := by
  cases hx with
  | mk g1 g2 g3 =>
    rename_i d kids tag a ns
    refine node_again h (g1.cls ▸ g1) hs (by rw [g1.cls]; exact hd.1) (by rw [g1.cls]; decide) (fun t ns' e f ht => ?_) ?_
    · subst e
      have hw := textFirst_ws f hc.1
      exact ⟨hw, said_text ht hw g2⟩
    · exact all2_both h.kids g3 fun q hq y hy k hk r i => mc_again q k y r (hc.2.2 k hk) i

theorem ws_step {d : Data} {scope : Dict Str Str} {md kids : List Obj} (hs : Stable scope (.mk d md kids)) (ht : d.cls.hasText = false) {ns : List Node} (hw : WsOnly ns) :
    ∀ t ns', ns = textNode t ++ ns' → FirstElem ns' → t ≠ some [] → WsOnly ns' ∧ (t = d.text ∨ (blank d.text = true ∧ Ws (t.getD []))) := by
  intro t ns' e _ ht'
  subst e
  obtain ⟨w1, w2⟩ := wsOnly_append.1 hw
  refine ⟨w2, .inr ⟨?_, ?_⟩⟩
  · rw [(Stable.kid hs).2.2 ht]; exact blank_iff.2 (by simp)
  · cases t with
    | none => exact fun c hc => by cases hc
    | some s =>
      have hne : s ≠ [] := fun e => ht' (by rw [e])
      exact w1 s (by simp [textNode, hne])

theorem md_again {p n x scope} (h : Rep p n) (hd : MdS n) (hc : MdRd n) (hs : Stable scope x) (hx : IsMd x n) : Again x n := by
  cases hx with
  | mk g1 g3 =>
    rename_i d kids tag a ns
    refine node_again h (g1.cls ▸ g1) hs (by rw [g1.cls]; exact hd.1) (by rw [g1.cls]; decide) (ws_step hs (by rw [g1.cls]; rfl) hd.2.2.1) ?_
    exact all2_both h.kids g3 fun q hq y hy k hk r i => by
      obtain ⟨sc, hsc⟩ := (Stable.kid hs).2.1 y hy
      exact meta_again r (hd.2.2.2 k hk) (hc k hk) hsc i

theorem item_again {p n x scope} (h : Rep p n) (hd : ItemS n) (hs : Stable scope x) (hx : IsItem x n) : Again x n := by
  cases hx with
  | mk g1 g3 =>
    rename_i d tag a ns
    refine node_again h (g1.cls ▸ g1) hs (by rw [g1.cls]; exact hd.1) (by rw [g1.cls]; decide) (fun t ns' e f ht => ?_) (by rw [hd.2.2]; exact .nil)
    subst e
    have he := hd.2.2
    rw [elems_text_append] at he
    have : ns' = [] := by
      cases ns' with
      | nil => rfl
      | cons n ns =>
        cases n with
        | text s => exact absurd f (by simp [FirstElem])
        | elem => simp [elems, Node.isElem] at he
    subst this
    refine ⟨wsOnly_nil, .inl ?_⟩
    rw [List.append_nil, textOf_node] at g3
    cases t with
    | none => exact (g3.elim (fun g => g.1.symm) fun g => absurd rfl g.2)
    | some s =>
      rcases g3 with ⟨-, g⟩ | ⟨g, -⟩
      · exact absurd (congrArg some g) ht
      · exact g.symm

theorem md_tags {md : List Obj} {l : List Node} (h : All2 IsMd md l) : ∀ m ∈ l, tagN m = lit! "metadata" := by
  intro m hm
  obtain ⟨y, -, i⟩ := mem_all2 h hm
  cases i; assumption

theorem two_again {p n} {K : Node → Prop} {Is : Obj → Node → Prop} {md kids : List Obj} (h : Rep p n) (hk : TwoKinds MdS K (content n)) {t : Str} (ht : ∀ k, K k → tagN k = t)
    (htm : t ≠ lit! "metadata") {l r : List Node} (he : elems (content n) = l ++ r) (hl : All2 IsMd md l) (hr : All2 Is kids r) (hmd : ∀ m ∈ md, ∃ sc, Stable sc m)
    (hn : ∀ m ∈ l, tagN m = lit! "metadata") (hnr : ∀ m ∈ r, tagN m = t)
    (hc : ∀ m ∈ tagged (lit! "metadata") n, MdRd m) (hK : ∀ q, ∀ k ∈ tagged t n, ∀ y ∈ kids, Rep q k → K k → Is y k → Again y k) :
    All2 Again (md ++ kids) (elems (content n)) := by
  have hreps : ∀ k ∈ elems (content n), ∃ q, Rep q k := fun k hk => by
    have := h.kids
    generalize elems (content n) = ns at this hk
    generalize p.kids = ps at this
    induction this with
    | nil => cases hk
    | cons h1 _ ih =>
      rcases List.mem_cons.1 hk with rfl | hk
      · exact ⟨_, h1⟩
      · exact ih hk
  have hkind := two_kinds hk
  rw [he]
  refine all2_append' ?_ ?_
  · refine all2_both (R := fun _ _ => True) (xs := l) (all2_refl l) hl fun _ _ y hy k hk _ i => ?_
    have hm : k ∈ elems (content n) := by rw [he]; exact List.mem_append_left _ hk
    obtain ⟨q, hq⟩ := hreps k hm
    obtain ⟨sc, hsc⟩ := hmd y hy
    rcases hkind k hm with g | g
    · exact md_again hq g (hc k (mem_tagged.2 ⟨hm, hn k hk⟩)) hsc i
    · exact absurd ((ht k g).symm.trans (hn k hk)) htm
  · refine all2_both (R := fun _ _ => True) (xs := r) (all2_refl r) hr fun _ _ y hy k hk _ i => ?_
    have hm : k ∈ elems (content n) := by rw [he]; exact List.mem_append_right _ hk
    obtain ⟨q, hq⟩ := hreps k hm
    rcases hkind k hm with g | g
    · exact absurd ((hnr k hk).symm.trans (tag_md g)) htm
    · exact hK q k (mem_tagged.2 ⟨hm, hnr k hk⟩) y hy hq g i
where
  all2_refl {α : Type} : ∀ (l : List α), All2 (fun _ _ => True) l l
    | [] => .nil
    | _ :: l => .cons trivial (all2_refl l)

theorem tag_itemDoc {k} (h : ItemDoc k) : tagOf k = lit! "item" := by
  cases k with
  | text => exact h.elim
  | elem => exact h.1
theorem tag_tierDoc {k} (h : TierDoc k) : tagOf k = lit! "tier" := by
  cases k with
  | text => exact h.elim
  | elem => exact h.1
theorem tag_igtDoc {k} (h : IgtDoc k) : tagOf k = lit! "igt" := by
  cases k with
  | text => exact h.elim
  | elem => exact h.1

theorem tagN_eq (n : Node) : tagN n = tagOf n := by cases n <;> rfl

theorem Re.distinct : ∀ (n m : Node), Re n m → Distinct n → Distinct m := by
  refine Node.ind (fun s m h hd => ?_) (fun tag a ns ih m h hd => ?_)
  · cases h; exact hd
  · cases h with
    | @elem _ _ b _ ms h1 h2 =>
      refine .elem (((h1.map _).nodup_iff).1 hd.nodup) fun k hk => ?_
      obtain ⟨j, hj, r⟩ := mem_all2 h2 hk
      exact ih j hj k r (hd.kids j hj)

theorem tier_again {p n x scope} (h : Rep p n) (hd : TierS n) (hc : ∀ m ∈ tagged (lit! "metadata") n, MdRd m) (hs : Stable scope x) (hx : IsTier x n) :
    Again x n := by
  cases hx with
  | mk g1 g2 g3 g4 g5 =>
    refine node_again h (g1.cls ▸ g1) hs (by rw [g1.cls]; exact g5) (by rw [g1.cls]; decide) (ws_step hs (by rw [g1.cls]; rfl) hd.2.2.1) ?_
    exact two_again h (n := .elem _ _ _) hd.2.2 (t := lit! "item") (fun k hk => tag_item hk) (by decide) g2 g3 g4 (Stable.kid hs).1 (md_tags g3)
      (fun m hm => by obtain ⟨y, -, i⟩ := mem_all2 g4 hm; cases i; assumption) hc fun q k hk y hy r g i => by
        obtain ⟨sc, hsc⟩ := (Stable.kid hs).2.1 y hy
        exact item_again r g hsc i

theorem igt_again {p n x scope} (h : Rep p n) (hd : IgtS n) (hc : ∀ m ∈ tagged (lit! "metadata") n, MdRd m)
    (hct : ∀ t ∈ tagged (lit! "tier") n, ∀ m ∈ tagged (lit! "metadata") t, MdRd m) (hs : Stable scope x) (hx : IsIgt x n) : Again x n := by
  cases hx with
  | mk g1 g2 g3 g4 g5 =>
    refine node_again h (g1.cls ▸ g1) hs (by rw [g1.cls]; exact g5) (by rw [g1.cls]; decide) (ws_step hs (by rw [g1.cls]; rfl) hd.2.2.1) ?_
    exact two_again h (n := .elem _ _ _) hd.2.2 (t := lit! "tier") (fun k hk => tag_tier hk) (by decide) g2 g3 g4 (Stable.kid hs).1 (md_tags g3)
      (fun m hm => by obtain ⟨y, -, i⟩ := mem_all2 g4 hm; cases i; assumption) hc fun q k hk y hy r g i => by
        obtain ⟨sc, hsc⟩ := (Stable.kid hs).2.1 y hy
        exact tier_again r g (hct k hk) hsc i

theorem corpus_again {p n x scope} (h : Rep p n) (hd : CorpusS n) (hc : DocRd n) (hs : Stable scope x) (hx : IsCorpus x n) : Again x n := by
  cases hx with
  | mk g1 g2 g3 g4 g5 =>
    refine node_again h (g1.cls ▸ g1) hs (by rw [g1.cls]; exact g5) (by rw [g1.cls]; decide) (ws_step hs (by rw [g1.cls]; rfl) hd.2.2.1) ?_
    exact two_again h (n := .elem _ _ _) hd.2.2 (t := lit! "igt") (fun k hk => tag_igt hk) (by decide) g2 g3 g4 (Stable.kid hs).1 (md_tags g3)
      (fun m hm => by obtain ⟨y, -, i⟩ := mem_all2 g4 hm; cases i; assumption) hc.2.1 fun q k hk y hy r g i => by
        obtain ⟨sc, hsc⟩ := (Stable.kid hs).2.1 y hy
        exact igt_again r g (hc.2.2 k hk).1 (hc.2.2 k hk).2 hsc i

/-! ### xigt-structure.rnc, for what was written -/

theorem two_structure {D : Node → Prop} {md kids : List Obj} {c : Cls} {t : Option Str} {ns : List Node} (hw : All2 Wrote (md ++ kids) (elems ns))
    (hws : WsOnly (textNode t ++ ns)) (hmd : ∀ m ∈ md, m.cls = .metadata) (hkc : ∀ x ∈ kids, x.cls = c) (hc : clsTag c ≠ lit! "metadata") (hc' : c ≠ .metaChild)
    (hD : ∀ n, D n → tagOf n = clsTag c) {F : Obj → Prop} (hP : ∀ m ∈ md, ∀ n, Wrote m n → (MdDoc n ↔ MdFits m)) (hQ : ∀ x ∈ kids, ∀ n, Wrote x n → (D n ↔ F x)) :
    TwoKinds MdDoc D (textNode t ++ ns) ↔ (∀ m ∈ md, MdFits m) ∧ ∀ x ∈ kids, F x := by
  obtain ⟨u, v, huv, hu, hv⟩ := all2_append hw
  rw [TwoKinds, elems_text_append, huv, ← all2_iff hu hP, ← all2_iff hv hQ]
  have tu : ∀ x ∈ u, tagOf x = lit! "metadata" := by
    intro x hx
    obtain ⟨m, hm, h⟩ := mem_all2 hu hx
    rw [wrote_tag h (by rw [hmd m hm]; decide), hmd m hm]; rfl
  have tv : ∀ x ∈ v, tagOf x = clsTag c := by
    intro x hx
    obtain ⟨m, hm, h⟩ := mem_all2 hv hx
    rw [wrote_tag h (by rw [hkc m hm]; exact hc'), hkc m hm]
  constructor
  · rintro ⟨-, l, r, hlr, hl, hr⟩
    have hm : ∀ k ∈ u ++ v, MdDoc k ∨ D k := fun k hk => by
      rw [hlr] at hk
      exact (List.mem_append.1 hk).imp (hl k) (hr k)
    refine ⟨fun k hk => ?_, fun k hk => ?_⟩
    · rcases hm k (List.mem_append_left _ hk) with g | g
      · exact g
      · exact absurd ((hD k g).symm.trans (tu k hk)) hc
    · rcases hm k (List.mem_append_right _ hk) with g | g
      · exact absurd ((tv k hk).symm.trans (mdDoc_tag g)) hc
      · exact g
  · rintro ⟨hl, hr⟩
    exact ⟨hws, u, v, rfl, hl, hr⟩

theorem metaP_iff {eff d md kids} (n : XNode eff .metaC d md kids) {nd : Node} (h : Wrote (.mk d md kids) nd) : MetaDoc nd ↔ MetaFits (.mk d md kids) := by
  obtain ⟨t, ns, rfl, hn, ht, hws, ha⟩ := h.inv (by rw [n.cls_eq]; decide)
  have hmd : md = [] := n.md_nil rfl
  subst hmd
  have hk : elems ns = [] ↔ kids = [] := by
    have := all2_length ha
    rw [List.nil_append] at this
    rw [← List.length_eq_zero_iff, ← List.length_eq_zero_iff, this]
  have some_text : ∀ s, d.text = some s → ∃ c ∈ s, Uni.isSpace c = false := n.kept.metas (.inl n.cls_eq)
  have htext : WsOnly (textNode t ++ ns) ↔ d.text = none := by
    rw [wsOnly_append]
    constructor
    · rintro ⟨g, -⟩
      cases htx : d.text with
      | none => rfl
      | some s =>
        obtain ⟨c, hc, hsp⟩ := some_text s htx
        rcases ht with rfl | ⟨hb, -⟩
        · rw [htx] at g
          have hne : s ≠ [] := by rintro rfl; cases hc
          rw [ws_blank (g s (by simp [textNode, hne]) c hc)] at hsp; cases hsp
        · rw [htx] at hb
          rw [blank_iff.1 hb c hc] at hsp; cases hsp
    · intro hn
      refine ⟨?_, hws⟩
      rcases ht with rfl | ⟨-, hb⟩
      · rw [hn]; simp [textNode, WsOnly]
      · exact wsOnly_textNode hb
  rw [n.cls_eq]
  simp only [MetaDoc, MetaFits, elems_text_append, hk, htext, Obj.data_mk, Obj.kids_mk, optId_attrsOf n.kept, noRefs_attrsOf, clsTag, true_and]

theorem mdP_iff {eff d md kids} (n : XNode eff .metadata d md kids) {nd : Node} (h : Wrote (.mk d md kids) nd) : MdDoc nd ↔ MdFits (.mk d md kids) := by
  obtain ⟨t, ns, rfl, hn, ht, hws, ha⟩ := h.inv (by rw [n.cls_eq]; decide)
  have hmd : md = [] := n.md_nil rfl
  subst hmd
  have hk := all2_iff (P := MetaFits) (Q := MetaDoc) ha fun x hx nd hw => by
    have hx' : x ∈ kids := hx
    have hcx := n.kids_cls x hx'
    have nx := XNode.of (x := x) (by injection hcx) (n.kids_wf x hx') (n.kids_valid x hx') (n.kept_kids x hx')
    obtain ⟨d', md', kids'⟩ := x
    exact metaP_iff nx hw
  rw [n.cls_eq]
  simp only [MdDoc, MdFits, elems_text_append, wrote_ws (n.text_none rfl) ht hws, hk, List.nil_append, Obj.data_mk, Obj.kids_mk, optId_attrsOf n.kept, noRefs_attrsOf, clsTag, true_and]

theorem itemP_iff {eff d md kids} (n : XNode eff .item d md kids) {nd : Node} (h : Wrote (.mk d md kids) nd) : ItemDoc nd ↔ ItemFits (.mk d md kids) := by
  obtain ⟨t, ns, rfl, hn, ht, hws, ha⟩ := h.inv (by rw [n.cls_eq]; decide)
  have hmd : md = [] := n.md_nil rfl
  have hkd : kids = [] := List.eq_nil_iff_forall_not_mem.2 fun x hx => nomatch n.kids_cls x hx
  subst hmd hkd
  have he : elems ns = [] := List.length_eq_zero_iff.1 (all2_length ha).symm
  rw [n.cls_eq]
  simp only [ItemDoc, ItemFits, elems_text_append, he, Obj.data_mk, hasId_attrsOf n.kept, refsFit_attrsOf, clsTag, true_and, and_true]

theorem outerP {eff cls d md kids} (n : XNode eff cls d md kids) {c : Cls} (hcc : cls.contained = some c) (htx : cls.hasText = false) (hc : clsTag c ≠ lit! "metadata")
    (hc' : c ≠ .metaChild) {t : Option Str} {ns : List Node} (ht : t = d.text ∨ (blank d.text = true ∧ Ws (t.getD []))) (hws : WsOnly ns)
    (ha : All2 Wrote (md ++ kids) (elems ns)) {D : Node → Prop} {F : Obj → Prop} (hD : ∀ n, D n → tagOf n = clsTag c)
    (hQ : ∀ {eff d md kids}, XNode eff c d md kids → ∀ {nd : Node}, Wrote (.mk d md kids) nd → (D nd ↔ F (.mk d md kids))) :
    TwoKinds MdDoc D (textNode t ++ ns) ↔ (∀ m ∈ md, MdFits m) ∧ ∀ x ∈ kids, F x := by
  have hkc : ∀ x ∈ kids, x.cls = c := fun x hx => by
    have := n.kids_cls x hx
    rw [hcc] at this
    injection this
  refine two_structure ha (wrote_ws (n.text_none htx) ht hws) n.md_cls hkc hc hc' hD (fun x hx nd hw => ?_) fun x hx nd hw => ?_
  · have nx := XNode.of (x := x) (n.md_cls x hx) (n.md_wf x hx) (n.md_valid x hx) (n.kept_md x hx)
    obtain ⟨d', md', kids'⟩ := x
    exact mdP_iff nx hw
  · have nx := XNode.of (x := x) (hkc x hx) (n.kids_wf x hx) (n.kids_valid x hx) (n.kept_kids x hx)
    obtain ⟨d', md', kids'⟩ := x
    exact hQ nx hw

theorem tierP_iff {eff d md kids} (n : XNode eff .tier d md kids) {nd : Node} (h : Wrote (.mk d md kids) nd) : TierDoc nd ↔ TierFits (.mk d md kids) := by
  obtain ⟨t, ns, rfl, hn, ht, hws, ha⟩ := h.inv (by rw [n.cls_eq]; decide)
  have hk := outerP n rfl rfl (by decide) (by decide) ht hws ha (D := ItemDoc) (F := ItemFits) (fun _ h => tag_itemDoc h) itemP_iff
  have hty : (∃ v, (lit! "type", v) ∈ attrsOf d) ↔ d.type.isSome = true := by
    simp only [mem_attrsOf_type n.kept]
    exact Option.isSome_iff_exists.symm
  rw [n.cls_eq]
  simp only [TierDoc, TierFits, Obj.data_mk, Obj.md_mk, Obj.kids_mk, hk, hasId_attrsOf n.kept, refsFit_attrsOf, hty, clsTag, true_and]

theorem igtP_iff {eff d md kids} (n : XNode eff .igt d md kids) {nd : Node} (h : Wrote (.mk d md kids) nd) : IgtDoc nd ↔ IgtFits (.mk d md kids) := by
  obtain ⟨t, ns, rfl, hn, ht, hws, ha⟩ := h.inv (by rw [n.cls_eq]; decide)
  have hk := outerP n rfl rfl (by decide) (by decide) ht hws ha (D := TierDoc) (F := TierFits) (fun _ h => tag_tierDoc h) tierP_iff
  rw [n.cls_eq]
  simp only [IgtDoc, IgtFits, Obj.data_mk, Obj.md_mk, Obj.kids_mk, hk, hasId_attrsOf n.kept, noRefs_attrsOf, clsTag, true_and]

theorem core_structure {eff d md kids} (n : XNode eff .corpus d md kids) {doc : Node} (hdd : Distinct doc) (h : Wrote (.mk d md kids) doc) :
    Valid structure_rnc doc ↔ CorpusFits (.mk d md kids) := by
  rw [valid_iff hdd]
  obtain ⟨t, ns, rfl, hn, ht, hws, ha⟩ := h.inv (by rw [n.cls_eq]; decide)
  have hk := outerP n rfl rfl (by decide) (by decide) ht hws ha (D := IgtDoc) (F := IgtFits) (fun _ h => tag_igtDoc h) igtP_iff
  rw [n.cls_eq]
  simp only [CorpusDoc, CorpusFits, Obj.data_mk, Obj.md_mk, Obj.kids_mk, hk, optId_attrsOf n.kept, onlyId_attrsOf n.kept, clsTag, true_and]

end
end Xigt.Rng
