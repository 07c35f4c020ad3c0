import Verif.Schema.LoadSpec
import Verif.Schema.Plain
import Verif.Schema.Docs
import Verif.Xml.StreamProps
/- C100: documents the schema allows are read. -/

set_option linter.unusedSectionVars false

namespace Xigt.Rng
section
variable [Uni] [XmlLex]

/-! ### Elements and the nodes they stand for -/

/-- a name as read: `{uri}name` or without braces -/
def TagOK (t : Str) : Prop := ∃ u n, t = expanded u n ∧ n.head? ≠ some '{' ∧ qnameSplit t = .ok (u, n) ∧ localName t = n

def FirstElem : List Node → Prop
  | .text _ :: _ => False
  | _ => True

inductive Rep : PElem → Node → Prop
  | mk {tag as m t ps ns} : TagOK tag → (as.map Prod.fst).Nodup → t ≠ some [] → FirstElem ns → All2 Rep ps (elems ns) →
      Rep (.mk tag as (some m) t ps) (.elem tag as (textNode t ++ ns))

theorem splitOnce_app {c : Char} : ∀ {a b : Str}, c ∉ a → splitOnce c (a ++ c :: b) = some (a, b)
  | [], b, _ => by simp [splitOnce]
  | x :: a, b, h => by
    rw [List.cons_append, splitOnce, if_neg (fun e => h (by simp [e])), splitOnce_app (fun e => h (List.mem_cons_of_mem _ e))]

theorem tagOK_plain {k : Str} (h : '{' ∉ k) : TagOK k := by
  refine ⟨none, k, rfl, ?_, ?_, ?_⟩
  · cases k with
    | nil => simp
    | cons c k => simp only [List.head?_cons, ne_eq, Option.some.injEq]; rintro rfl; exact h (by simp)
  · cases k with
    | nil => rfl
    | cons c k =>
      have : c ≠ '{' := by rintro rfl; exact h (by simp)
      rw [qnameSplit]
      intro r e; exact this (List.cons.inj e).1
  · cases k with
    | nil => rfl
    | cons c k =>
      have : c ≠ '{' := by rintro rfl; exact h (by simp)
      rw [localName, if_neg (by simpa using this)]

theorem dropWhile_app {c : Char} : ∀ {a b : Str}, c ∉ a → (a ++ c :: b).dropWhile (· ≠ c) = c :: b
  | [], b, _ => by simp [List.dropWhile]
  | x :: a, b, h => by
    have : x ≠ c := fun e => h (by simp [e])
    rw [List.cons_append, List.dropWhile_cons_of_pos (by simpa using this), dropWhile_app (fun e => h (List.mem_cons_of_mem _ e))]

theorem tagOK_qual {u k : Str} (hu : '}' ∉ u) (hk : '{' ∉ k) : TagOK (qual u k) := by
  refine ⟨some u, k, rfl, ?_, ?_, ?_⟩
  · cases k with
    | nil => simp
    | cons c k => simp only [List.head?_cons, ne_eq, Option.some.injEq]; rintro rfl; exact hk (by simp)
  · rw [qual, qnameSplit, splitOnce_app hu]
  · rw [localName, qual, if_pos (by rfl), List.dropWhile_cons_of_pos (by decide), dropWhile_app hu]
    rfl

/-- no namespace has a closing brace -/
def ScopeOK (m : Dict Str Str) : Prop := ∀ p ∈ m, '}' ∉ p.2

theorem scope_update {m ds : Dict Str Str} (hm : ScopeOK m) (hd : (ds.all fun p => declOK p.1 p.2) = true) : ScopeOK (Dict.update m ds) := by
  have hs : ∀ (m : Dict Str Str) (k v : Str), ScopeOK m → '}' ∉ v → ScopeOK (Dict.set m k v) := by
    intro m k v hm hv p hp
    induction m with
    | nil =>
      simp only [Dict.set, List.mem_singleton] at hp
      rw [hp]; exact hv
    | cons q m ih =>
      obtain ⟨a, b⟩ := q
      simp only [Dict.set] at hp
      split at hp
      · rcases List.mem_cons.1 hp with rfl | hp
        · exact hv
        · exact hm p (by simp [hp])
      · rcases List.mem_cons.1 hp with rfl | hp
        · exact hm _ (by simp)
        · exact ih (fun p hp => hm p (by simp [hp])) hp
  have hds : ∀ p ∈ ds, '}' ∉ p.2 := by
    intro p hp
    have := List.all_eq_true.1 hd p hp
    simp only [declOK, Bool.and_eq_true] at this
    obtain ⟨⟨⟨_, h⟩, _⟩, _⟩ := this
    simpa using h
  unfold Dict.update
  induction ds generalizing m with
  | nil => exact hm
  | cons d ds ih =>
    rw [List.foldl_cons]
    refine ih ?_ ?_ ?_
    · exact hs _ _ _ hm (hds d (by simp))
    · simp only [List.all_cons, Bool.and_eq_true] at hd; exact hd.2
    · exact fun p hp => hds p (by simp [hp])

theorem get_mem {m : Dict Str Str} {k v : Str} (h : Dict.get? m k = some v) : (k, v) ∈ m := by
  induction m with
  | nil => cases h
  | cons q m ih =>
    obtain ⟨a, b⟩ := q
    simp only [Dict.get?] at h
    split at h
    · rename_i e; cases h; subst e; simp
    · exact List.mem_cons_of_mem _ (ih h)

theorem tagOK_resolve {scope : Dict Str Str} {dflt : Option Str} {k t : Str} (hs : ScopeOK scope) (hd : ∀ u, dflt = some u → '}' ∉ u)
    (h : resolveName scope dflt k = .ok t) : TagOK t := by
  simp only [resolveName] at h
  split at h
  · split at h
    · rename_i hn
      split at h
      · cases h; exact tagOK_plain (XmlLex.no_brace _ hn)
      · split at h
        · cases h; exact tagOK_plain (XmlLex.no_brace _ hn)
        · cases h; exact tagOK_qual (hd _ rfl) (XmlLex.no_brace _ hn)
    · cases h
  · split at h
    · rename_i hn
      rw [Bool.and_eq_true] at hn
      split at h
      · cases h; exact tagOK_qual (by decide) (XmlLex.no_brace _ hn.2)
      · split at h
        · rename_i hg
          cases h; exact tagOK_qual (hs _ (get_mem hg)) (XmlLex.no_brace _ hn.2)
        · cases h
    · cases h

theorem firstElem_nodes (ks : List Elem) (ps : List PElem) : FirstElem (nodes ks ps) := by
  cases ks with
  | nil => cases ps <;> simp [nodes, FirstElem]
  | cons k ks =>
    cases ps with
    | nil => simp [nodes, FirstElem]
    | cons p ps => cases k; cases p; simp [nodes, node, FirstElem]

/-- what is read stands for the document -/
theorem rep_node : ∀ (e : Elem) (scope : Dict Str Str) (p : PElem), ScopeOK scope → parseElem scope e = .ok p → Rep p (node e p) := by
  refine Elem.ind fun tag attrs text tail kids ih scope p hs h => ?_
  obtain ⟨hd, tag', as, text', tl, kids', h1, h2, h3, h4, h5, h6, rfl⟩ := parseElem_ok_iff.1 h
  have hs' := scope_update hs hd
  rw [node]
  refine .mk (tagOK_resolve hs' (fun u hu => hs' _ (get_mem hu)) h1) h3 ?_ (firstElem_nodes _ _) ?_
  · cases text with
    | none => simp only [parseText] at h4; cases h4; simp
    | some s =>
      simp only [parseText] at h4
      split at h4
      · cases h4
        split
        · simp
        · rename_i hne
          intro e
          apply hne
          rw [Option.some.injEq] at e
          cases s with
          | nil => rfl
          | cons c s => rw [eol.eq_def] at e; split at e <;> simp_all
      · cases h4
  · rw [parseElems_eq, mapPy_ok_iff] at h6
    clear h
    induction h6 with
    | nil => exact .nil
    | cons hp hps ih2 =>
      rename_i x y xs ys
      rw [nodes, elems, List.filter_cons, if_pos (node_isElem x y)]
      refine .cons (ih x (by simp) _ y hs' hp) ?_
      have : List.filter Node.isElem (textNode (x.tail.map eol) ++ nodes xs ys) = elems (nodes xs ys) := by
        have := elems_append (textNode (x.tail.map eol)) (nodes xs ys)
        rw [elems_textNode, List.nil_append] at this
        exact this
      rw [this]
      exact ih2 fun k hk => ih k (by simp [hk])

theorem Rep.distinct : ∀ {p n}, Rep p n → Distinct n := by
  intro p
  refine PElem.ind (P := fun p => ∀ n, Rep p n → Distinct n) (fun tag as m t ps ih n h => ?_) p _
  cases h with
  | mk h1 h2 h3 h4 h5 =>
    refine .elem h2 fun x hx => ?_
    cases x with
    | text s => exact .text
    | elem tag a ns' =>
      rename_i ns
      have : Node.elem tag a ns' ∈ elems ns := by
        have hm : Node.elem tag a ns' ∈ elems (textNode t ++ ns) := List.mem_filter.2 ⟨hx, rfl⟩
        rwa [elems_append, elems_textNode, List.nil_append] at hm
      have hr : ∀ {as : List PElem} {bs : List Node}, All2 Rep as bs → ∀ b ∈ bs, ∃ a ∈ as, Rep a b := by
        intro as bs hab
        induction hab with
        | nil => intro b hb; cases hb
        | cons h1 _ ih =>
          intro b hb
          rcases List.mem_cons.1 hb with rfl | hb
          · exact ⟨_, by simp, h1⟩
          · obtain ⟨a, ha, hr⟩ := ih b hb
            exact ⟨a, by simp [ha], hr⟩
      obtain ⟨q, hq, hr⟩ := hr h5 _ this
      exact ih q hq _ hr

/-! ### Reading -/

/-- read as it should be if a condition holds, otherwise an error -/
def Reads {α : Type} (r : Py α) (Is : α → Prop) (U : Prop) : Prop := (∃ x, r = .ok x ∧ Is x ∧ U) ∨ ((∃ e, r = .error e) ∧ ¬ U)

theorem Reads.mapPy {f : PElem → Py Obj} {R : PElem → Node → Prop} {Is : Obj → Node → Prop} {U : Node → Prop}
    (h : ∀ p n, R p n → Reads (f p) (Is · n) (U n)) : ∀ {ps ns}, All2 R ps ns →
    Reads (Xigt.mapPy f ps) (fun xs => All2 Is xs ns) (∀ n ∈ ns, U n) := by
  intro ps ns hr
  induction hr with
  | nil => exact .inl ⟨[], rfl, .nil, by simp⟩
  | cons h1 h2 ih =>
    rename_i p n ps ns
    rcases h p n h1 with ⟨x, hx, h3, h4⟩ | ⟨⟨e, he⟩, h4⟩
    · rcases ih with ⟨xs, hxs, h5, h6⟩ | ⟨⟨e, he⟩, h6⟩
      · exact .inl ⟨x :: xs, by simp only [Xigt.mapPy, hx, hxs, bind, Except.bind, pure, Except.pure], .cons h3 h5,
          fun m hm => (List.mem_cons.1 hm).elim (fun e => e ▸ h4) (h6 m)⟩
      · exact .inr ⟨⟨e, by simp only [Xigt.mapPy, hx, he, bind, Except.bind]⟩, fun hh => h6 fun m hm => hh m (by simp [hm])⟩
    · exact .inr ⟨⟨e, by simp only [Xigt.mapPy, he, bind, Except.bind]⟩, fun hh => h4 (hh n (by simp))⟩

theorem Rep.tag {p n} (h : Rep p n) : p.tag = tagN n ∧ p.attrs = attrsN n ∧ n.isElem = true := by cases h; exact ⟨rfl, rfl, rfl⟩

theorem Rep.kids {p n} (h : Rep p n) : All2 Rep p.kids (elems (content n)) := by
  cases h with
  | mk h1 h2 h3 h4 h5 => rw [content, elems_append, elems_textNode, List.nil_append]; exact h5

theorem all2_filter {α β : Type} {R : α → β → Prop} {f : α → Bool} {g : β → Bool} (hfg : ∀ a b, R a b → f a = g b) :
    ∀ {as bs}, All2 R as bs → All2 R (as.filter f) (bs.filter g) := by
  intro as bs h
  induction h with
  | nil => exact .nil
  | cons h1 h2 ih =>
    rw [List.filter_cons, List.filter_cons, hfg _ _ h1]
    split
    · exact .cons h1 ih
    · exact ih

theorem Rep.findall {p n} (h : Rep p n) (t : Str) : All2 Rep (findall p t) (tagged t n) :=
  all2_filter (fun a b hab => by rw [hab.tag.1]) h.kids

theorem attr_get {a : List (Str × Str)} (hn : (a.map Prod.fst).Nodup) (k : Str) : Attr a k (Dict.get? a k) := by
  intro w
  constructor
  · exact get_mem
  · intro h
    induction a with
    | nil => cases h
    | cons q a ih =>
      obtain ⟨x, y⟩ := q
      simp only [List.map_cons, List.nodup_cons] at hn
      simp only [Dict.get?]
      rcases List.mem_cons.1 h with h | h
      · cases h; rw [if_pos rfl]
      · have : x ≠ k := by rintro rfl; exact hn.1 (List.mem_map.2 ⟨_, h, rfl⟩)
        rw [if_neg this]
        exact ih hn.2 h

theorem mem_getAttrs {e : PElem} {k v : Str} : (k, v) ∈ getAttrs IDTYPE e ↔ (k, v) ∈ e.attrs ∧ k ≠ lit! "id" ∧ k ≠ lit! "type" := by
  simp only [getAttrs, IDTYPE, List.mem_filter, List.contains_cons, List.contains_nil, Bool.or_false, Bool.not_eq_true', Bool.or_eq_false_iff,
    beq_eq_false_iff_ne, ne_eq]

/-- the data of an element with a tag without namespace -/
theorem xmlData_ok {p n} (h : Rep p n) {c : Cls} {t : Str} (ht : tagN n = t) (hb : t.head? ≠ some '{') :
    ∃ d, xmlData c IDTYPE (some t) p = .ok d ∧ Has c (attrsN n) d ∧ d.name = none := by
  cases h with
  | mk h1 h2 h3 h4 h5 =>
    rename_i tag as m tx ps ns
    have htag : tag = t := ht
    subst htag
    have hq : qnameSplit tag = .ok (none, tag) := by
      cases tag with
      | nil => rfl
      | cons x r =>
        rw [qnameSplit]
        intro s e; cases e; exact hb rfl
    refine ⟨{ cls := c, id := Dict.get? as (lit! "id"), type := Dict.get? as (lit! "type"), attrs := getAttrs IDTYPE (.mk tag as (some m) tx ps), nsmap := some m }, ?_, ⟨rfl, rfl, attr_get h2 _, attr_get h2 _, ?_⟩, rfl⟩
    · simp [xmlData, PElem.tag, hq, bind, Except.bind, PElem.nsmap, PElem.attrs]
    · intro k v
      exact mem_getAttrs

theorem dup_iff {xs : List Obj} {ns : List Node} (h : All2 (fun x n => Attr (attrsN n) (lit! "id") x.data.id) xs ns) :
    dupId xs = false ↔ Apart ns := by
  induction h with
  | nil => simp [dupId, Apart]
  | cons h1 h2 ih =>
    rename_i x n xs ns
    rw [dupId, Bool.or_eq_false_iff, ih, Apart, Apart, List.pairwise_cons]
    refine and_congr ?_ Iff.rfl
    have key : (xs.any fun y => decide (y.data.id = x.data.id)) = true ↔ ∃ y ∈ xs, y.data.id = x.data.id := by simp
    have hr : ∀ {as : List Obj} {bs : List Node}, All2 (fun x n => Attr (attrsN n) (lit! "id") x.data.id) as bs →
        (∀ b ∈ bs, ∃ a ∈ as, Attr (attrsN b) (lit! "id") a.data.id) ∧ ∀ a ∈ as, ∃ b ∈ bs, Attr (attrsN b) (lit! "id") a.data.id := by
      intro as bs hab
      induction hab with
      | nil => exact ⟨by simp, by simp⟩
      | cons h1 _ ih =>
        refine ⟨fun b hb => ?_, fun a ha => ?_⟩
        · rcases List.mem_cons.1 hb with rfl | hb
          · exact ⟨_, by simp, h1⟩
          · obtain ⟨a, ha, hr⟩ := ih.1 b hb
            exact ⟨a, by simp [ha], hr⟩
        · rcases List.mem_cons.1 ha with rfl | ha
          · exact ⟨_, by simp, h1⟩
          · obtain ⟨b, hb, hr⟩ := ih.2 a ha
            exact ⟨b, by simp [hb], hr⟩
    obtain ⟨r1, r2⟩ := hr h2
    constructor
    · intro h m hm v hv
      obtain ⟨y, hy, hya⟩ := r1 m hm
      have e1 := (h1 v).2 hv.1
      have e2 := (hya v).2 hv.2
      rw [Bool.and_eq_false_iff] at h
      rcases h with h | h
      · rw [e1] at h; simp at h
      · rw [← Bool.not_eq_true, key] at h
        exact h ⟨y, hy, by rw [e1, e2]⟩
    · intro h
      rw [Bool.and_eq_false_iff]
      cases hx : x.data.id with
      | none => left; simp
      | some v =>
        right
        rw [← Bool.not_eq_true, ← hx, key]
        rintro ⟨y, hy, hyx⟩
        obtain ⟨m, hm, hma⟩ := r2 y hy
        exact h m hm v ⟨(h1 v).1 hx, (hma v).1 (by rw [hyx, hx])⟩

theorem letter_isLetter {c : Char} (h : letter c = true) : isLetter c = true := by
  simp only [letter, isLetter, Bool.or_eq_true, Bool.and_eq_true, decide_eq_true_eq, Char.le_def, UInt32.le_iff_toNat_le] at h ⊢
  exact h.symm

theorem id_ok {i : Str} [Xsd] (h : IdFits i) : idAccepted i = true := by
  obtain ⟨c, r, rfl, hc, _⟩ := h
  exact (idAccepted_iff _).2 ⟨c, r, rfl, letter_isLetter hc⟩

theorem construct_reads {d : Data} {md kids : List Obj} {ml kl : List Node} (hi : ∀ i, d.id = some i → idAccepted i = true)
    (hn : ∀ i, d.name = some i → nameOK i = true)
    (hm : All2 (fun x n => Attr (attrsN n) (lit! "id") x.data.id) md ml) (hk : All2 (fun x n => Attr (attrsN n) (lit! "id") x.data.id) kids kl) :
    Reads (construct d md kids) (fun x => x = .mk d md kids) (Apart ml ∧ Apart kl) := by
  rw [← dup_iff hm, ← dup_iff hk, construct]
  have e1 : d.id.all idAccepted = true := by
    cases h : d.id with
    | none => rfl
    | some i => exact hi i h
  have e2 : d.name.all nameOK = true := by
    cases h : d.name with
    | none => rfl
    | some i => exact hn i h
  rw [e1, e2]
  cases h1 : dupId md <;> cases h2 : dupId kids
  · exact .inl ⟨_, rfl, rfl, rfl, rfl⟩
  · exact .inr ⟨⟨_, rfl⟩, by simp⟩
  · exact .inr ⟨⟨_, rfl⟩, by simp⟩
  · exact .inr ⟨⟨_, rfl⟩, by simp⟩

/-! ### Metadata -/

theorem textOf_append (a b : List Node) : textOf (a ++ b) = textOf a ++ textOf b := by
  induction a with
  | nil => rfl
  | cons n a ih => cases n <;> simp [textOf, ih]

theorem textOf_node (t : Option Str) : textOf (textNode t) = t.getD [] := by
  cases t with
  | none => rfl
  | some s =>
    simp only [textNode, Option.getD_some]
    split
    · rename_i h; rw [h]; rfl
    · simp [textOf]

theorem isWs_iff {s : Str} : isWs s = true ↔ Ws s := List.all_eq_true

theorem said_ws {ns : List Node} (h : WsOnly ns) : said ns = [] := by
  induction ns with
  | nil => rfl
  | cons n ns ih =>
    have hn : WsOnly ns := fun s hs => h s (List.mem_cons_of_mem _ hs)
    cases n with
    | text s => rw [said, if_pos (isWs_iff.2 (h s (by simp)))]; exact ih hn
    | elem => exact ih hn

theorem ws_space {c : Char} (h : xmlSpace c = true) : Uni.isSpace c = true := by
  simp only [xmlSpace, Bool.or_eq_true, decide_eq_true_eq] at h
  rcases h with ((rfl | rfl) | rfl) | rfl <;> (rw [Uni.ascii_space _ (by decide)]; decide)

/-- the text that is read, where nothing is said after the first element -/
theorem hasText {t : Option Str} {ns : List Node} (ht : t ≠ some []) (hw : WsOnly ns) (hp : PlainText (textNode t ++ ns)) :
    HasText (textNode t ++ ns) (nonBlank t) := by
  cases t with
  | none =>
    refine .inl ⟨said_ws hw, ?_⟩
    rw [nonBlank]; split <;> rfl
  | some s =>
    have hs : s ≠ [] := fun e => ht (by rw [e])
    rw [textNode, if_neg hs] at hp ⊢
    rw [List.singleton_append] at hp ⊢
    by_cases hws : Ws s
    · refine .inl ⟨?_, ?_⟩
      · rw [said, if_pos (isWs_iff.2 hws)]; exact said_ws hw
      · rw [nonBlank, if_pos]
        exact blank_iff.2 fun c hc => ws_space (hws c hc)
    · refine .inr ?_
      have hsd : said (.text s :: ns) = s := by
        rw [said, if_neg (fun h => hws (isWs_iff.1 h)), said_ws hw, List.append_nil]
      rw [hsd]
      refine ⟨hs, ?_⟩
      rw [nonBlank, if_neg]
      intro h
      rw [blank_iff] at h
      obtain ⟨c, hc, hcs⟩ := (hp s (by simp)).resolve_left hws
      rw [h c hc] at hcs; cases hcs

theorem textFirst_ws {t : Option Str} {ns : List Node} (hf : FirstElem ns) (h : TextFirst (textNode t ++ ns)) : WsOnly ns := by
  have h' : TextFirst ns := by
    cases t with
    | none => exact h
    | some s =>
      simp only [textNode] at h
      split at h
      · exact h
      · exact h
  cases ns with
  | nil => intro s hs; cases hs
  | cons n ns =>
    cases n with
    | text s => exact absurd hf (by simp [FirstElem])
    | elem tag a k =>
      intro s hs
      rcases List.mem_cons.1 hs with hs | hs
      · cases hs
      · exact h' s hs

theorem Reads.yes {α : Type} {r : Py α} {Is : α → Prop} (h : Reads r Is True) : ∃ x, r = .ok x ∧ Is x := by
  rcases h with ⟨x, h1, h2, _⟩ | ⟨_, h⟩
  · exact ⟨x, h1, h2⟩
  · exact absurd trivial h

theorem all2_and {α β : Type} {R S : α → β → Prop} {P : β → Prop} (hRS : ∀ a b, R a b → P b → S a b) : ∀ {as bs}, All2 R as bs → (∀ b ∈ bs, P b) → All2 S as bs := by
  intro as bs h
  induction h with
  | nil => intro _; exact .nil
  | cons h1 h2 ih => intro hP; exact .cons (hRS _ _ h1 (hP _ (by simp))) (ih fun b hb => hP b (by simp [hb]))

theorem apart_none {xs : List Obj} (h : ∀ x ∈ xs, x.data.id = none) : dupId xs = false := by
  induction xs with
  | nil => rfl
  | cons x xs ih => rw [dupId, ih fun y hy => h y (by simp [hy]), h x (by simp)]; simp

theorem mc_reads : ∀ (p : PElem) (n : Node), Rep p n → McClean n → ∃ x, readMc p = .ok x ∧ IsMc x n ∧ x.data.id = none := by
  refine PElem.ind fun tag as m t ps ih n h hc => ?_
  cases h with
  | mk h1 h2 h3 h4 h5 =>
    rename_i m ns
    cases hc with
    | mk c1 c2 c3 c4 c5 c6 c7 c8 =>
      obtain ⟨u, nm, hu, -, hq, hl⟩ := h1
      rw [elems_append, elems_textNode, List.nil_append] at c8
      have hks : ∃ xs, readMcs ps = .ok xs ∧ All2 IsMc xs (elems ns) ∧ ∀ x ∈ xs, x.data.id = none := by
        rw [readMcs_eq]
        clear c6 c7 h4
        generalize elems ns = l at h5 c8
        induction h5 with
        | nil => exact ⟨[], rfl, .nil, by simp⟩
        | cons g1 g2 ih2 =>
          rename_i p n ps' l'
          obtain ⟨x, hx, h6, h6'⟩ := ih p (by simp) n g1 (c8 n (by simp))
          obtain ⟨xs, hxs, h7, h7'⟩ := ih2 (fun k hk => ih k (by simp [hk])) fun k hk => c8 k (by simp [hk])
          exact ⟨x :: xs, by simp only [Xigt.mapPy, hx, hxs, bind, Except.bind, pure, Except.pure], .cons h6 h7,
            fun y hy => (List.mem_cons.1 hy).elim (fun e => e ▸ h6') (h7' y)⟩
      obtain ⟨xs, hxs, hk, hid⟩ := hks
      have hat : getAttrs IDTYPE (.mk tag as (some m) t ps) = as := by
        refine List.filter_eq_self.2 ?_
        intro q hq
        obtain ⟨k, v⟩ := q
        simp only [IDTYPE, List.contains_cons, List.contains_nil, Bool.or_false, Bool.not_eq_true', Bool.or_eq_false_iff, beq_eq_false_iff_ne, ne_eq]
        exact ⟨fun e => c4 v (by subst e; exact hq), fun e => c5 v (by subst e; exact hq)⟩
      refine ⟨.mk { cls := .metaChild, attrs := as, ns := u, nsmap := some m, name := some nm, text := nonBlank t } [] xs, ?_, ?_, rfl⟩
      · rw [readMc]
        simp only [xmlData, PElem.tag, hq, bind, Except.bind, PElem.nsmap, PElem.attrs, hat, hxs, Option.all_none, if_true, Option.isNone_some, Bool.false_eq_true,
          if_false, Option.isNone_none]
        rw [construct, if_neg (by simp), if_neg (by rw [← hl]; simp [c3]), if_neg (by simp [dupId, apart_none hid])]
      · refine .mk rfl rfl hu rfl rfl rfl (hasText h3 (textFirst_ws h4 c6) c7) ?_
        rw [elems_append, elems_textNode, List.nil_append]
        exact hk

theorem Has.data {c : Cls} {a : List (Str × Str)} {d : Data} (h : Has c a d) (t : Option Str) : Has c a { d with text := t } :=
  ⟨h.cls, h.ns, h.id, h.type, h.attrs⟩

variable [Xsd]

theorem Has.id_ok {c : Cls} {a : List (Str × Str)} {d : Data} (h : Has c a d) (ho : OptIdAttr a) : ∀ i, d.id = some i → idAccepted i = true :=
  fun i hi => Rng.id_ok (ho i ((h.id i).1 hi))

theorem hasId_opt {a : List (Str × Str)} (hn : (a.map Prod.fst).Nodup) (h : HasIdAttr a) : OptIdAttr a := by
  obtain ⟨v, hv, hf⟩ := h
  intro w hw
  have e1 := (attr_get hn (lit! "id") v).2 hv
  have e2 := (attr_get hn (lit! "id") w).2 hw
  rw [e1] at e2
  cases e2
  exact hf

theorem Rep.nodup {p n} (h : Rep p n) : ((attrsN n).map Prod.fst).Nodup := by cases h; assumption

/-- what the reader asks of notes -/
def MetaRd (n : Node) : Prop := TextFirst (content n) ∧ MetaClean n
def MdRd (n : Node) : Prop := ∀ k ∈ elems (content n), MetaRd k
def DocRd (n : Node) : Prop := Lacks (attrsN n) (lit! "type") ∧ InMd MdRd n

theorem docRd {n : Node} (hc : DocClean n) (hf : InMd MdFirst n) : DocRd n :=
  ⟨hc.1, fun m hm k hk => ⟨hf.1 m hm k hk, hc.2.1 m hm k hk⟩, fun i hi => ⟨fun m hm k hk => ⟨(hf.2 i hi).1 m hm k hk, (hc.2.2 i hi).1 m hm k hk⟩,
    fun t ht m hm k hk => ⟨(hf.2 i hi).2 t ht m hm k hk, (hc.2.2 i hi).2 t ht m hm k hk⟩⟩⟩

theorem meta_reads {p n} (h : Rep p n) (hd : MetaS n) (hc : MetaRd n) : ∃ x, readMeta p = .ok x ∧ IsMeta x n := by
  obtain ⟨d, h1, h2, h3⟩ := xmlData_ok h (c := .metaC) (t := lit! "meta") (by cases h; exact hd.1) (by decide)
  have hks : ∃ xs, Xigt.mapPy readMc p.kids = .ok xs ∧ All2 IsMc xs (elems (content n)) ∧ ∀ x ∈ xs, x.data.id = none := by
    have hk := h.kids
    have hc := hc.2.2
    generalize elems (content n) = l at hk hc
    generalize p.kids = ps at hk
    induction hk with
    | nil => exact ⟨[], rfl, .nil, by simp⟩
    | cons g1 g2 ih2 =>
      obtain ⟨x, hx, h6, h6'⟩ := mc_reads _ _ g1 (hc _ (by simp))
      obtain ⟨xs, hxs, h7, h7'⟩ := ih2 fun k hk => hc k (by simp [hk])
      exact ⟨x :: xs, by simp only [Xigt.mapPy, hx, hxs, bind, Except.bind, pure, Except.pure], .cons h6 h7,
        fun y hy => (List.mem_cons.1 hy).elim (fun e => e ▸ h6') (h7' y)⟩
  obtain ⟨xs, g1, g2, g3⟩ := hks
  refine ⟨.mk { d with text := nonBlank p.text } [] xs, ?_, ?_⟩
  · simp only [readMeta, h1, readMcs_eq, g1, bind, Except.bind]
    have hi : ∀ i, d.id = some i → idAccepted i = true := h2.id_ok (by cases h; exact hd.2)
    have e1 : d.id.all idAccepted = true := by
      cases h : d.id with
      | none => rfl
      | some i => exact hi i h
    rw [construct, if_neg (by simp [e1]), if_neg (by simp [h3]), if_neg (by simp [dupId, apart_none g3])]
  · cases h with
    | mk k1 k2 k3 k4 k5 =>
      rename_i tag as m t ps ns
      refine .mk (h2.data _) (hasText k3 ?_ hc.2.1) g2 hd.1
      exact textFirst_ws k4 hc.1

theorem IsMeta.id {x n} (h : IsMeta x n) : Attr (attrsN n) (lit! "id") x.data.id := by cases h with | mk h _ _ => exact h.id
theorem IsMd.id {x n} (h : IsMd x n) : Attr (attrsN n) (lit! "id") x.data.id := by cases h with | mk h _ => exact h.id
theorem IsItem.id {x n} (h : IsItem x n) : Attr (attrsN n) (lit! "id") x.data.id := by cases h with | mk h _ => exact h.id
theorem IsTier.id {x n} (h : IsTier x n) : Attr (attrsN n) (lit! "id") x.data.id := by cases h with | mk h _ _ => exact h.id
theorem IsIgt.id {x n} (h : IsIgt x n) : Attr (attrsN n) (lit! "id") x.data.id := by cases h with | mk h _ _ => exact h.id

theorem all2_imp {α β : Type} {R S : α → β → Prop} (h : ∀ a b, R a b → S a b) : ∀ {as bs}, All2 R as bs → All2 S as bs := by
  intro as bs hab
  induction hab with
  | nil => exact .nil
  | cons h1 _ ih => exact .cons (h _ _ h1) ih

/-- the children of which all have the tag -/
theorem tagged_all {t : Str} {n : Node} (h : ∀ k ∈ elems (content n), tagN k = t) : tagged t n = elems (content n) :=
  List.filter_eq_self.2 fun k hk => by simp [h k hk]

theorem md_reads {p n} (h : Rep p n) (hd : MdS n) (hc : MdRd n) : Reads (readMd p) (IsMd · n) (MdUnique n) := by
  obtain ⟨d, h1, h2, h3⟩ := xmlData_ok h (c := .metadata) (t := lit! "metadata") (by cases h; exact hd.1) (by decide)
  have hm : ∀ k ∈ elems (content n), MetaS k := by cases h; exact hd.2.2.2
  have ht : tagged (lit! "meta") n = elems (content n) := tagged_all fun k hk => by
    have := hm k hk
    cases k with
    | text => exact this.elim
    | elem => exact this.1
  have hf := h.findall (lit! "meta")
  rw [ht] at hf
  have hf : All2 (fun p n => Rep p n ∧ MetaS n ∧ MetaRd n) (findall p (lit! "meta")) (elems (content n)) :=
    all2_and (P := fun k => MetaS k ∧ MetaRd k) (fun a b h1 h2 => ⟨h1, h2⟩) hf fun k hk => ⟨hm k hk, hc k hk⟩
  have hmm := Reads.mapPy (f := readMeta) (Is := IsMeta) (U := fun _ => True) (fun p n hh => by
    obtain ⟨x, hx, hi⟩ := meta_reads hh.1 hh.2.1 hh.2.2
    exact .inl ⟨x, hx, hi, trivial⟩) hf
  obtain ⟨xs, g1, g2⟩ : ∃ xs, Xigt.mapPy readMeta (findall p (lit! "meta")) = .ok xs ∧ All2 IsMeta xs (elems (content n)) := by
    rcases hmm with ⟨x, a, b, _⟩ | ⟨_, hn⟩
    · exact ⟨x, a, b⟩
    · exact absurd (fun _ _ => trivial) hn
  have hi : ∀ i, d.id = some i → idAccepted i = true := h2.id_ok (by cases h; exact hd.2.1)
  have := construct_reads hi (by simp [h3]) .nil (all2_imp (fun _ _ h => IsMeta.id h) g2)
  simp only [readMd, h1, g1, bind, Except.bind]
  rcases this with ⟨x, hx, rfl, hu⟩ | ⟨he, hu⟩
  · refine .inl ⟨_, hx, ?_, hu.2⟩
    cases h with
    | mk => exact .mk h2 g2 hd.1
  · exact .inr ⟨he, fun h => hu ⟨.nil, h⟩⟩

theorem item_reads {p n} (h : Rep p n) (hd : ItemS n) : ∃ x, readItem p = .ok x ∧ IsItem x n := by
  obtain ⟨d, h1, h2, h3⟩ := xmlData_ok h (c := .item) (t := lit! "item") (by cases h; exact hd.1) (by decide)
  have hi : ∀ i, d.id = some i → idAccepted i = true := h2.id_ok (by cases h; exact hd.2.1)
  have := construct_reads (d := { d with text := p.text }) hi (by simp [h3]) .nil .nil
  simp only [readItem, h1, bind, Except.bind]
  rcases this with ⟨x, hx, rfl, hu⟩ | ⟨he, hu⟩
  · refine ⟨_, hx, ?_⟩
    cases h with
    | mk k1 k2 k3 k4 k5 =>
      rename_i tag as m t ps ns
      refine .mk (h2.data _) ?_ hd.1
      have hdd := hd.2.2
      rw [elems_append, elems_textNode, List.nil_append] at hdd
      have : ns = [] := by
        cases ns with
        | nil => rfl
        | cons n ns =>
          cases n with
          | text s => exact absurd k4 (by simp [FirstElem])
          | elem => simp [elems, Node.isElem] at hdd
      subst this
      rw [List.append_nil, textOf_node]
      cases t with
      | none => exact .inl ⟨rfl, rfl⟩
      | some s => exact .inr ⟨rfl, fun e => k3 (congrArg some e)⟩
  · exact absurd ⟨.nil, .nil⟩ hu

/-- tiers, igts and corpora -/
theorem outer_reads {p n} (h : Rep p n) {d : Data} (hi : ∀ i, d.id = some i → idAccepted i = true) (hn : d.name = none) {t : Str} (htm : t ≠ lit! "metadata")
    {A : Node → Prop} (hA : ∀ k, A k → tagN k = t) (hk2 : TwoKinds MdS A (content n)) {rk : PElem → Py Obj} {Is : Obj → Node → Prop} {U : Node → Prop}
    (hid : ∀ x k, Is x k → Attr (attrsN k) (lit! "id") x.data.id)
    (hr : ∀ p, ∀ k ∈ tagged t n, Rep p k → A k → Reads (rk p) (Is · k) (U k)) (hc : ∀ m ∈ tagged (lit! "metadata") n, MdRd m) :
    Reads (do
      let ms ← Xigt.mapPy readMd (findall p (lit! "metadata"))
      let ks ← Xigt.mapPy rk (findall p t)
      construct d ms ks) (fun x => ∃ md kids l r, x = .mk d md kids ∧ elems (content n) = l ++ r ∧ All2 IsMd md l ∧ All2 Is kids r)
      (KidsUnique t n ∧ ∀ k ∈ tagged t n, U k) := by
  obtain ⟨-, l, r, he, hl, hr'⟩ := hk2
  have hlt : ∀ k ∈ l, tagN k = lit! "metadata" := fun k hk => by
    have := hl k hk
    cases k with
    | text => exact this.elim
    | elem => exact this.1
  have t1 : tagged (lit! "metadata") n = l := by
    rw [tagged, he, List.filter_append, List.filter_eq_self.2 (fun k hk => by simp [hlt k hk]), List.filter_eq_nil_iff.2, List.append_nil]
    intro k hk
    simpa [hA k (hr' k hk)] using htm
  have t2 : tagged t n = r := by
    have e1 : l.filter (fun k => decide (tagN k = t)) = [] := List.filter_eq_nil_iff.2 fun k hk => by
      simpa [hlt k hk] using fun e => htm e.symm
    rw [tagged, he, List.filter_append, e1, List.nil_append, List.filter_eq_self.2 (fun k hk => by simp [hA k (hr' k hk)])]
  have f1 := h.findall (lit! "metadata")
  have f2 := h.findall t
  rw [t1] at f1 hc
  rw [t2] at f2 hr
  rw [KidsUnique, t1, t2]
  have m1 := Reads.mapPy (f := readMd) (Is := IsMd) (U := MdUnique) (R := fun p n => Rep p n ∧ MdS n ∧ MdRd n)
    (fun p n hh => md_reads hh.1 hh.2.1 hh.2.2) (all2_and (P := fun k => MdS k ∧ MdRd k) (fun a b h1 h2 => ⟨h1, h2⟩) f1 fun k hk => ⟨hl k hk, hc k hk⟩)
  have m2 := Reads.mapPy (f := rk) (Is := Is) (U := U) (R := fun p n => Rep p n ∧ A n ∧ n ∈ r)
    (fun p n hh => hr p n hh.2.2 hh.1 hh.2.1) (all2_and (P := fun k => A k ∧ k ∈ r) (fun a b h1 h2 => ⟨h1, h2⟩) f2 fun k hk => ⟨hr' k hk, hk⟩)
  rcases m1 with ⟨md, e1, i1, u1⟩ | ⟨⟨e, e1⟩, u1⟩
  · rcases m2 with ⟨ks, e2, i2, u2⟩ | ⟨⟨e, e2⟩, u2⟩
    · simp only [e1, e2, bind, Except.bind]
      have := construct_reads hi (by simp [hn]) (all2_imp (fun _ _ h => IsMd.id h) i1) (all2_imp hid i2)
      rcases this with ⟨x, hx, rfl, hu⟩ | ⟨he', hu⟩
      · exact .inl ⟨_, hx, ⟨md, ks, l, r, rfl, he, i1, i2⟩, ⟨hu.1, hu.2, u1⟩, u2⟩
      · exact .inr ⟨he', fun hh => hu ⟨hh.1.1, hh.1.2.1⟩⟩
    · exact .inr ⟨⟨e, by simp only [e1, e2, bind, Except.bind]⟩, fun hh => u2 hh.2⟩
  · exact .inr ⟨⟨e, by simp only [e1, bind, Except.bind]⟩, fun hh => u1 hh.1.2.2⟩

theorem tag_item {k} (h : ItemS k) : tagN k = lit! "item" := by
  cases k with
  | text => exact h.elim
  | elem => exact h.1
theorem tag_tier {k} (h : TierS k) : tagN k = lit! "tier" := by
  cases k with
  | text => exact h.elim
  | elem => exact h.1
theorem tag_igt {k} (h : IgtS k) : tagN k = lit! "igt" := by
  cases k with
  | text => exact h.elim
  | elem => exact h.1

theorem tier_reads {p n} (h : Rep p n) (hd : TierS n) (hc : ∀ m ∈ tagged (lit! "metadata") n, MdRd m) :
    Reads (readTier p) (IsTier · n) (KidsUnique (lit! "item") n) := by
  obtain ⟨d, h1, h2, h3⟩ := xmlData_ok h (c := .tier) (t := lit! "tier") (tag_tier hd) (by decide)
  have hi : ∀ i, d.id = some i → idAccepted i = true := h2.id_ok (by cases h; exact hd.2.1)
  have := outer_reads h hi h3 (t := lit! "item") (by decide) (A := ItemS) (fun k hk => tag_item hk) (by cases h; exact hd.2.2) (rk := readItem) (Is := IsItem)
    (U := fun _ => True) (fun x k hk => hk.id) (fun p k _ hr hk => by
      obtain ⟨x, hx, hi⟩ := item_reads hr hk
      exact .inl ⟨x, hx, hi, trivial⟩) hc
  simp only [readTier, h1, bind, Except.bind] at this ⊢
  rcases this with ⟨x, hx, ⟨md, ks, l, r, rfl, e, i1, i2⟩, hu⟩ | ⟨he, hu⟩
  · refine .inl ⟨_, hx, ?_, hu.1⟩
    cases h with
    | mk => exact .mk h2 e i1 i2 hd.1
  · exact .inr ⟨he, fun hh => hu ⟨hh, fun _ _ => trivial⟩⟩

theorem igt_reads {p n} (h : Rep p n) (hd : IgtS n) (hc : ∀ m ∈ tagged (lit! "metadata") n, MdRd m)
    (hct : ∀ t ∈ tagged (lit! "tier") n, ∀ m ∈ tagged (lit! "metadata") t, MdRd m) :
    Reads (readIgt p) (IsIgt · n) (KidsUnique (lit! "tier") n ∧ ∀ t ∈ tagged (lit! "tier") n, KidsUnique (lit! "item") t) := by
  obtain ⟨d, h1, h2, h3⟩ := xmlData_ok h (c := .igt) (t := lit! "igt") (tag_igt hd) (by decide)
  have hi : ∀ i, d.id = some i → idAccepted i = true := h2.id_ok (by cases h; exact hd.2.1)
  have := outer_reads h hi h3 (t := lit! "tier") (by decide) (A := TierS) (fun k hk => tag_tier hk) (by cases h; exact hd.2.2) (rk := readTier) (Is := IsTier)
    (U := KidsUnique (lit! "item")) (fun x k hk => hk.id) (fun p k hm hr hk => tier_reads hr hk (hct k hm)) hc
  simp only [readIgt, h1, bind, Except.bind] at this ⊢
  rcases this with ⟨x, hx, ⟨md, ks, l, r, rfl, e, i1, i2⟩, hu⟩ | ⟨he, hu⟩
  · refine .inl ⟨_, hx, ?_, hu⟩
    cases h with
    | mk => exact .mk h2 e i1 i2 hd.1
  · exact .inr ⟨he, hu⟩

theorem corpus_reads {p n} (h : Rep p n) (hd : CorpusS n) (hc : DocRd n) : Reads (readCorpus p) (IsCorpus · n) (DocUnique n) := by
  have htag : tagN n = lit! "xigt-corpus" := by cases h; exact hd.1
  obtain ⟨d, h1, h2, h3⟩ : ∃ d, xmlData .corpus [lit! "id"] (some (lit! "xigt-corpus")) p = .ok d ∧ Has .corpus (attrsN n) { d with type := none } ∧ d.name = none := by
    obtain ⟨d, h1, h2, h3⟩ := xmlData_ok h (c := .corpus) htag (by decide)
    cases h with
    | mk k1 k2 k3 k4 k5 =>
      rename_i tag as m tx ps ns
      have e : tag = lit! "xigt-corpus" := htag
      subst e
      refine ⟨{ cls := .corpus, id := Dict.get? as (lit! "id"), type := Dict.get? as (lit! "type"), attrs := getAttrs [lit! "id"] (.mk (lit! "xigt-corpus") as (some m) tx ps), nsmap := some m }, rfl, ⟨rfl, rfl, attr_get k2 _, ?_, ?_⟩, rfl⟩
      · intro w
        exact ⟨fun e => by simp at e, fun e => absurd e (hc.1 w)⟩
      · intro k v
        simp only [getAttrs, List.mem_filter, List.contains_cons, List.contains_nil, Bool.or_false, Bool.not_eq_true', beq_eq_false_iff_ne, ne_eq, PElem.attrs, attrsN]
        refine and_congr_right fun hm => ⟨fun hh => ⟨hh, ?_⟩, fun hh => hh.1⟩
        rintro rfl
        exact hc.1 v hm
  have hi : ∀ i, ({ d with type := none } : Data).id = some i → idAccepted i = true := h2.id_ok (by cases h; exact hd.2.1)
  have := outer_reads h hi h3 (t := lit! "igt") (by decide) (A := IgtS) (fun k hk => tag_igt hk) (by cases h; exact hd.2.2) (rk := readIgt) (Is := IsIgt)
    (U := fun i => KidsUnique (lit! "tier") i ∧ ∀ t ∈ tagged (lit! "tier") i, KidsUnique (lit! "item") t) (fun x k hk => hk.id)
    (fun p k hm hr hk => igt_reads hr hk (hc.2.2 k hm).1 (hc.2.2 k hm).2) hc.2.1
  simp only [readCorpus, h1, bind, Except.bind] at this ⊢
  rcases this with ⟨x, hx, ⟨md, ks, l, r, rfl, e, i1, i2⟩, hu⟩ | ⟨he, hu⟩
  · refine .inl ⟨_, hx, ?_, hu⟩
    cases h with
    | mk => exact .mk h2 e i1 i2 hd.1
  · exact .inr ⟨he, hu⟩

/-! ### The event loop -/

theorem rep_right {as : List PElem} {bs : List Node} (hab : All2 Rep as bs) : ∀ a ∈ as, ∃ b ∈ bs, Rep a b := by
  intro a ha
  exact hab.mem_left a ha

theorem quiet_here {p n} (h : Rep p n) (h1 : tagN n ≠ lit! "igt") (h2 : tagN n ≠ lit! "xigt-corpus") : Quiet p := by
  refine ⟨by cases h; simp [PElem.nsmap], ?_, ?_⟩
  · rw [h.tag.1]; exact h1
  · rw [h.tag.1]; exact h2

theorem every_mk {P : PElem → Prop} {p : PElem} (h : P p) (hk : ∀ k ∈ p.kids, Every P k) : Every P p := by
  cases p; exact .mk h hk

theorem mc_quiet : ∀ (p : PElem) (n : Node), Rep p n → McClean n → Every Quiet p := by
  refine PElem.ind fun tag as m t ps ih n h hc => ?_
  have hk := h.kids
  refine .mk (quiet_here h (by cases hc; assumption) (by cases hc; assumption)) fun k hkm => ?_
  obtain ⟨b, hb, hr⟩ := rep_right hk k hkm
  refine ih k hkm b hr ?_
  cases hc with
  | mk _ _ _ _ _ _ _ c8 => exact c8 b hb

theorem md_quiet {p n} (h : Rep p n) (hd : MdS n) (hc : MdRd n) : Every Quiet p := by
  have ht : tagN n = lit! "metadata" := by cases h; exact hd.1
  refine every_mk (quiet_here h (by rw [ht]; decide) (by rw [ht]; decide)) fun k hk => ?_
  obtain ⟨b, hb, hr⟩ := rep_right h.kids k hk
  have hm : MetaS b := by cases h; exact hd.2.2.2 b hb
  have ht : tagN b = lit! "meta" := by cases hr; exact hm.1
  refine every_mk (quiet_here hr (by rw [ht]; decide) (by rw [ht]; decide)) fun j hj => ?_
  obtain ⟨c, hcm, hrc⟩ := rep_right hr.kids j hj
  exact mc_quiet j c hrc ((hc b hb).2.2 c hcm)

theorem item_quiet {p n} (h : Rep p n) (hd : ItemS n) : Every Quiet p := by
  have ht := tag_item hd
  refine every_mk (quiet_here h (by rw [ht]; decide) (by rw [ht]; decide)) fun k hk => ?_
  obtain ⟨b, hb, hr⟩ := rep_right h.kids k hk
  have : elems (content n) = [] := by cases h; exact hd.2.2
  rw [this] at hb; cases hb

theorem two_kinds {A B : Node → Prop} {ns : List Node} (h : TwoKinds A B ns) : ∀ k ∈ elems ns, A k ∨ B k := by
  obtain ⟨-, l, r, e, hl, hr⟩ := h
  intro k hk
  rw [e] at hk
  exact (List.mem_append.1 hk).imp (hl k) (hr k)

theorem mem_tagged {t : Str} {n k : Node} : k ∈ tagged t n ↔ k ∈ elems (content n) ∧ tagN k = t := by simp [tagged]

theorem tag_md {k} (h : MdS k) : tagN k = lit! "metadata" := by
  cases k with
  | text => exact h.elim
  | elem => exact h.1

theorem tier_quiet {p n} (h : Rep p n) (hd : TierS n) (hc : ∀ m ∈ tagged (lit! "metadata") n, MdRd m) : Every Quiet p := by
  have ht := tag_tier hd
  refine every_mk (quiet_here h (by rw [ht]; decide) (by rw [ht]; decide)) fun k hk => ?_
  obtain ⟨b, hb, hr⟩ := rep_right h.kids k hk
  rcases two_kinds (by cases h; exact hd.2.2) b hb with hm | hm
  · exact md_quiet hr hm (hc b (mem_tagged.2 ⟨hb, tag_md hm⟩))
  · exact item_quiet hr hm

theorem layout {p n} (h : Rep p n) (hd : CorpusS n) (hc : DocRd n) : Layout p := by
  have htag : tagN n = lit! "xigt-corpus" := by cases h; exact hd.1
  obtain ⟨-, l, r, he, hl, hr⟩ : TwoKinds MdS IgtS (content n) := by cases h; exact hd.2.2
  have hk := h.kids
  rw [he] at hk
  obtain ⟨ms, ks, e, hm, hks⟩ : ∃ ms ks, p.kids = ms ++ ks ∧ All2 Rep ms l ∧ All2 Rep ks r := by
    generalize p.kids = ps at hk
    clear he hl
    induction l generalizing ps with
    | nil => exact ⟨[], ps, rfl, .nil, hk⟩
    | cons a l ih =>
      cases hk with
      | cons h1 h2 =>
        obtain ⟨ms, ks, rfl, h3, h4⟩ := ih _ h2
        exact ⟨_ :: ms, ks, rfl, .cons h1 h3, h4⟩
  refine ⟨by rw [h.tag.1, htag], by cases h; simp [PElem.nsmap], ms, ks, e, fun x hx => ?_, fun k hk => ?_⟩
  · obtain ⟨b, hb, hrb⟩ := rep_right hm x hx
    exact md_quiet hrb (hl b hb) (hc.2.1 b (mem_tagged.2 ⟨by rw [he]; simp [hb], tag_md (hl b hb)⟩))
  · obtain ⟨b, hb, hrb⟩ := rep_right hks k hk
    have ht := tag_igt (hr b hb)
    have hci := hc.2.2 b (mem_tagged.2 ⟨by rw [he]; simp [hb], ht⟩)
    refine ⟨by rw [hrb.tag.1, ht]; decide, by rw [hrb.tag.1, ht]; decide, by cases hrb; simp [PElem.nsmap], fun x hx => ?_⟩
    obtain ⟨c, hcm, hrc⟩ := rep_right hrb.kids x hx
    have hi := hr b hb
    rcases two_kinds (by cases hrb; exact hi.2.2) c hcm with hm | hm
    · exact md_quiet hrc hm (hci.1 c (mem_tagged.2 ⟨hcm, tag_md hm⟩))
    · exact tier_quiet hrc hm (hci.2 c (mem_tagged.2 ⟨hcm, tag_tier hm⟩))

/-- a document with the right outline is read exactly if no two siblings have the same identifier -/
theorem shape_reads (s : Str) (doc : Node) (hs : docText s = .ok doc) (hv : CorpusS doc) (hc : DocRd doc) (look : Nat → Nat) :
    (DocUnique doc → ∃ x, loadsXml look s = .ok x ∧ IsCorpus x doc) ∧ (¬ DocUnique doc → ∃ e, loadsXml look s = .error e) := by
  simp only [docText, document, bind, Except.bind] at hs
  cases hsc : scanXml s with
  | error e => rw [hsc] at hs; cases hs
  | ok e =>
    rw [hsc] at hs
    cases hp : parseElem [] e with
    | error e => simp only [hp] at hs; cases hs
    | ok p =>
      simp only [hp, pure, Except.pure, Except.ok.injEq] at hs
      subst hs
      have hr : Rep p (node e p) := rep_node e [] p (by intro q hq; cases hq) hp
      have hl := layout hr hv hc
      have hload : loadsXml look s = loadXml look p := by
        simp only [loadsXml, readText, hsc, hp, bind, Except.bind]
      rw [hload]
      have hiff := (C42_partial p hl).2.1 look
      rcases corpus_reads hr hv hc with ⟨x, hx, hi, hu⟩ | ⟨⟨er, he⟩, hu⟩
      · exact ⟨fun _ => ⟨x, (hiff x).2 hx, hi⟩, fun h => absurd hu h⟩
      · refine ⟨fun h => absurd h hu, fun _ => ?_⟩
        cases hx : loadXml look p with
        | error e => exact ⟨e, rfl⟩
        | ok x => rw [(hiff x).1 hx] at he; cases he

theorem textFirst_of {ns : List Node} (h : elems ns = [] ∨ WsOnly ns) : TextFirst ns := by
  induction ns with
  | nil => trivial
  | cons n ns ih =>
    cases n with
    | text s => exact ih (h.imp id fun g s hs => g s (List.mem_cons_of_mem _ hs))
    | elem tag a k =>
      rcases h with h | h
      · simp [elems, Node.isElem] at h
      · exact fun s hs => h s (List.mem_cons_of_mem _ hs)

theorem metaS_of {n} (h : MetaDoc n) : MetaS n ∧ TextFirst (content n) := by
  cases n with
  | text => exact h.elim
  | elem => exact ⟨⟨h.1, h.2.1⟩, textFirst_of h.2.2.2⟩

theorem mdS_of {n} (h : MdDoc n) : MdS n ∧ MdFirst n := by
  cases n with
  | text => exact h.elim
  | elem => exact ⟨⟨h.1, h.2.1, h.2.2.2.1, fun k hk => (metaS_of (h.2.2.2.2 k hk)).1⟩, fun k hk => (metaS_of (h.2.2.2.2 k hk)).2⟩

theorem twoKinds_imp {A B A' B' : Node → Prop} {ns : List Node} (h : TwoKinds A B ns) (ha : ∀ k ∈ elems ns, A k → A' k) (hb : ∀ k ∈ elems ns, B k → B' k) :
    TwoKinds A' B' ns := by
  obtain ⟨h1, l, r, e, h2, h3⟩ := h
  exact ⟨h1, l, r, e, fun k hk => ha k (by rw [e]; simp [hk]) (h2 k hk), fun k hk => hb k (by rw [e]; simp [hk]) (h3 k hk)⟩

theorem Distinct.kid {n k : Node} (h : Distinct n) (hk : k ∈ Rng.elems (Rng.content n)) : Distinct k := by
  cases h with
  | text => cases hk
  | elem h1 h2 => exact h2 k (List.mem_filter.1 hk).1

theorem Distinct.keys {n : Node} (h : Distinct n) : ((Rng.attrsN n).map Prod.fst).Nodup := by
  cases h with
  | text => exact .nil
  | elem h1 h2 => exact h1

theorem itemS_of {n} (hd : Distinct n) (h : ItemDoc n) : ItemS n := by
  cases n with
  | text => exact h.elim
  | elem => exact ⟨h.1, hasId_opt hd.keys h.2.1, h.2.2.2⟩

theorem tag_mdDoc {k} (h : MdDoc k) : tagN k = lit! "metadata" := tag_md (mdS_of h).1

theorem tierS_of {n} (hd : Distinct n) (h : TierDoc n) : TierS n ∧ ∀ m ∈ tagged (lit! "metadata") n, MdFirst m := by
  cases n with
  | text => exact h.elim
  | elem tag a ns =>
    refine ⟨⟨h.1, hasId_opt hd.keys h.2.1, twoKinds_imp h.2.2.2.2 (fun k _ hk => (mdS_of hk).1) fun k hm hk => itemS_of (hd.kid hm) hk⟩, fun m hm => ?_⟩
    obtain ⟨hm, ht⟩ := mem_tagged.1 hm
    rcases two_kinds h.2.2.2.2 m hm with g | g
    · exact (mdS_of g).2
    · rw [tag_item (itemS_of (hd.kid hm) g)] at ht; exact absurd ht (by decide)

theorem igtS_of {n} (hd : Distinct n) (h : IgtDoc n) : IgtS n ∧ (∀ m ∈ tagged (lit! "metadata") n, MdFirst m) ∧
    ∀ t ∈ tagged (lit! "tier") n, ∀ m ∈ tagged (lit! "metadata") t, MdFirst m := by
  cases n with
  | text => exact h.elim
  | elem tag a ns =>
    refine ⟨⟨h.1, hasId_opt hd.keys h.2.1, twoKinds_imp h.2.2.2 (fun k _ hk => (mdS_of hk).1) fun k hm hk => (tierS_of (hd.kid hm) hk).1⟩, fun m hm => ?_, fun m hm => ?_⟩
    all_goals
      obtain ⟨hm, ht⟩ := mem_tagged.1 hm
      rcases two_kinds h.2.2.2 m hm with g | g
    · exact (mdS_of g).2
    · rw [tag_tier (tierS_of (hd.kid hm) g).1] at ht; exact absurd ht (by decide)
    · rw [tag_mdDoc g] at ht; exact absurd ht (by decide)
    · exact (tierS_of (hd.kid hm) g).2

/-- what xigt-structure.rnc allows has the outline -/
theorem corpusS_of {n} (hd : Distinct n) (h : CorpusDoc n) : CorpusS n ∧ InMd MdFirst n := by
  cases n with
  | text => exact h.elim
  | elem tag a ns =>
    refine ⟨⟨h.1, h.2.1, twoKinds_imp h.2.2.2 (fun k _ hk => (mdS_of hk).1) fun k hm hk => (igtS_of (hd.kid hm) hk).1⟩, fun m hm => ?_, fun m hm => ?_⟩
    all_goals
      obtain ⟨hm, ht⟩ := mem_tagged.1 hm
      rcases two_kinds h.2.2.2 m hm with g | g
    · exact (mdS_of g).2
    · rw [tag_igt (igtS_of (hd.kid hm) g).1] at ht; exact absurd ht (by decide)
    · rw [tag_mdDoc g] at ht; exact absurd ht (by decide)
    · exact (igtS_of (hd.kid hm) g).2

/-- attributes in what was read have distinct names -/
theorem docText_distinct {s : Str} {doc : Node} (hs : docText s = .ok doc) : Distinct doc := by
  simp only [docText, document, bind, Except.bind] at hs
  cases hsc : scanXml s with
  | error e => rw [hsc] at hs; cases hs
  | ok e =>
    rw [hsc] at hs
    cases hp : parseElem [] e with
    | error e => simp only [hp] at hs; cases hs
    | ok p =>
      simp only [hp, pure, Except.pure, Except.ok.injEq] at hs
      subst hs
      exact (rep_node e [] p (by intro q hq; cases hq) hp).distinct

/-- **C100** of a document the schema allows (whose metadata is as `DocClean` says): it is read exactly if no two siblings have
the same identifier, however the input is cut into pieces, and then the corpus has everything that is in the document. -/
theorem C100_partial (s : Str) (doc : Node) (hs : docText s = .ok doc) (hv : Valid structure_rnc doc) (hc : DocClean doc) (look : Nat → Nat) :
    (DocUnique doc → ∃ x, loadsXml look s = .ok x ∧ IsCorpus x doc) ∧ (¬ DocUnique doc → ∃ e, loadsXml look s = .error e) := by
  have hd := docText_distinct hs
  obtain ⟨h1, h2⟩ := corpusS_of hd ((valid_iff hd).1 hv)
  exact shape_reads s doc hs h1 (docRd hc h2) look

end
end Xigt.Rng
