import Verif.Xml.Model
/- Indentation does not change what is read back (C41). -/

set_option linter.unusedSectionVars false

namespace Xigt

/-- two lists of the same length, related element by element -/
inductive All2 {α β : Type} (R : α → β → Prop) : List α → List β → Prop
  | nil : All2 R [] []
  | cons {x y xs ys} : R x y → All2 R xs ys → All2 R (x :: xs) (y :: ys)

theorem Elem.ind {P : Elem → Prop} (h : ∀ tag attrs text tail kids, (∀ x ∈ kids, P x) → P (.mk tag attrs text tail kids)) :
    ∀ e, P e := by
  intro e
  exact Elem.rec (motive_1 := P) (motive_2 := fun l => ∀ y ∈ l, P y) (fun a b c d k hk => h a b c d k hk)
    (by intro y hy; cases hy) (fun a l ha hl y hy => by
      rcases List.mem_cons.1 hy with rfl | hy
      · exact ha
      · exact hl y hy) e

theorem PElem.ind {P : PElem → Prop} (h : ∀ tag attrs ns text kids, (∀ x ∈ kids, P x) → P (.mk tag attrs ns text kids)) :
    ∀ e, P e := by
  intro e
  exact PElem.rec (motive_1 := P) (motive_2 := fun l => ∀ y ∈ l, P y) (fun a b c d k hk => h a b c d k hk)
    (by intro y hy; cases hy) (fun a l ha hl y hy => by
      rcases List.mem_cons.1 hy with rfl | hy
      · exact ha
      · exact hl y hy) e

section
variable [Uni]

theorem dropWhile_nil_iff {s : Str} {p : Char → Bool} : s.dropWhile p = [] ↔ ∀ c ∈ s, p c = true := by
  induction s with
  | nil => simp
  | cons c s ih =>
    by_cases h : p c = true
    · simp [List.dropWhile_cons, h, ih]
    · simp [List.dropWhile_cons, h]

theorem strip_nil_iff {s : Str} : strip s = [] ↔ ∀ c ∈ s, Uni.isSpace c = true := by
  unfold strip lstrip
  rw [List.reverse_eq_nil_iff, dropWhile_nil_iff]
  simp only [List.mem_reverse]
  constructor
  · intro h
    have : s.dropWhile Uni.isSpace = [] := by
      cases hd : s.dropWhile Uni.isSpace with
      | nil => rfl
      | cons c t =>
        have h1 := h c (by rw [hd]; simp)
        have h2 := List.head?_dropWhile_not Uni.isSpace s
        rw [hd] at h2
        simp [h1] at h2
    exact dropWhile_nil_iff.1 this
  · intro h c hc
    rw [dropWhile_nil_iff.2 h] at hc
    cases hc

theorem blank_iff {s : Option Str} : blank s = true ↔ ∀ c ∈ s.getD [], Uni.isSpace c = true := by
  rw [blank, List.isEmpty_iff, strip_nil_iff]

theorem space_nl : Uni.isSpace '\n' = true := by rw [Uni.ascii_space _ (by decide)]; decide
theorem space_cr : Uni.isSpace '\r' = true := by rw [Uni.ascii_space _ (by decide)]; decide
theorem space_sp : Uni.isSpace ' ' = true := by rw [Uni.ascii_space _ (by decide)]; decide

theorem eol_space (s : Str) : (∀ c ∈ eol s, Uni.isSpace c = true) ↔ ∀ c ∈ s, Uni.isSpace c = true := by
  induction s using eol.induct with
  | case1 r ih => simp [eol, ih, space_nl, space_cr]
  | case2 r h ih => rw [eol]; simp [ih, space_nl, space_cr]; exact h
  | case3 c r h1 h2 ih => rw [eol]; simp [ih]; exact h1; exact h2
  | case4 => simp [eol]

theorem eol_id {s : Str} (h : '\r' ∉ s) : eol s = s := by
  induction s using eol.induct with
  | case1 r ih => simp at h
  | case2 r h' ih => simp at h
  | case3 c r h1 h2 ih => rw [eol, ih (by simp at h; exact h.2)]; exact h1; exact h2
  | case4 => rfl

theorem parseText_blank {s t : Option Str} (h : parseText s = .ok t) : blank t = blank s := by
  have : blank t = true ↔ blank s = true := by
    rw [blank_iff, blank_iff]
    cases s with
    | none => cases h; rfl
    | some s =>
      simp only [parseText] at h
      split at h
      · cases hs : s.isEmpty with
        | true => simp only [hs, if_true, Except.ok.injEq] at h; subst h; rw [List.isEmpty_iff.1 hs]; simp
        | false => simp only [hs, Bool.false_eq_true, if_false, Except.ok.injEq] at h; subst h; exact eol_space s
      · cases h
  cases h1 : blank t <;> cases h2 : blank s <;> simp_all

/-- a line break and spaces -/
theorem ws_ok (a b : Int) : parseText (some ('\n' :: spaces a ++ spaces b)) = .ok (some ('\n' :: spaces a ++ spaces b)) ∧
    blank (some ('\n' :: spaces a ++ spaces b)) = true := by
  have hmem : ∀ c ∈ '\n' :: spaces a ++ spaces b, c = '\n' ∨ c = ' ' := by
    intro c hc
    simp only [spaces, List.cons_append, List.mem_cons, List.mem_append, List.mem_replicate] at hc
    rcases hc with h | h | h
    · exact .inl h
    · exact .inr h.2
    · exact .inr h.2
  constructor
  · simp only [parseText]
    rw [if_pos, if_neg (by simp), eol_id]
    · intro h
      rcases hmem _ h with h | h <;> cases h
    · rw [List.all_eq_true]
      intro c hc
      rcases hmem c hc with rfl | rfl <;> decide
  · rw [blank_iff]
    intro c hc
    rcases hmem c hc with rfl | rfl
    · exact space_nl
    · exact space_sp

theorem ws_ok' (a : Int) : ∃ t, parseText (some ('\n' :: spaces a)) = .ok t := by
  have := (ws_ok a 0).1
  rw [show spaces 0 = [] from rfl, List.append_nil] at this
  exact ⟨_, this⟩

variable [XmlLex]

/-! ### Elements -/

theorem parseElem_ok_iff {scope tag attrs text tail kids p} : parseElem scope (.mk tag attrs text tail kids) = .ok p ↔
    ((declsOf attrs).all fun p => declOK p.1 p.2) = true ∧ ∃ tag' as text' tl kids',
      resolveName (Dict.update scope (declsOf attrs)) (Dict.get? (Dict.update scope (declsOf attrs)) []) tag = .ok tag' ∧
      mapPy (parseAttr (Dict.update scope (declsOf attrs))) (attrs.filter fun p => (declOf p.1).isNone) = .ok as ∧
      (as.map Prod.fst).Nodup ∧ parseText text = .ok text' ∧ parseText tail = .ok tl ∧
      parseElems (Dict.update scope (declsOf attrs)) kids = .ok kids' ∧
      p = .mk tag' as (Dict.update scope (declsOf attrs)) text' kids' := by
  constructor
  · intro h
    unfold parseElem at h
    split at h
    · rename_i hd
      refine ⟨hd, ?_⟩
      simp only [bind, Except.bind] at h
      split at h
      · cases h
      · rename_i tag' h1
        split at h
        · cases h
        · rename_i as h2
          split at h
          · rename_i h3
            split at h
            · cases h
            · rename_i text' h4
              split at h
              · cases h
              · rename_i tl h5
                split at h
                · cases h
                · rename_i kids' h6
                  cases h
                  exact ⟨tag', as, text', tl, kids', h1, h2, h3, h4, h5, h6, rfl⟩
          · cases h
    · cases h
  · rintro ⟨hd, tag', as, text', tl, kids', h1, h2, h3, h4, h5, h6, rfl⟩
    unfold parseElem
    rw [if_pos hd]
    simp only [h1, h2, h4, h5, h6, bind, Except.bind, if_pos h3]

theorem parseElems_eq (scope : Dict Str Str) (l : List Elem) : parseElems scope l = mapPy (parseElem scope) l := by
  induction l with
  | nil => rw [parseElems, mapPy]
  | cons x xs ih => rw [parseElems, mapPy, ih]

theorem indentElems_eq (ind : Int) (level : Nat) (l : List Elem) : indentElems ind level l = l.map (indentElem ind level) := by
  induction l with
  | nil => rw [indentElems]; rfl
  | cons x xs ih => rw [indentElems, ih]; rfl

theorem readMcs_eq (l : List PElem) : readMcs l = mapPy readMc l := by
  induction l with
  | nil => rw [readMcs, mapPy]
  | cons x xs ih => rw [readMcs, mapPy, ih]

theorem mapPy_ok_iff {α β : Type} {f : α → Py β} {xs : List α} {ys : List β} :
    mapPy f xs = .ok ys ↔ All2 (fun x y => f x = .ok y) xs ys := by
  induction xs generalizing ys with
  | nil =>
    constructor
    · intro h; cases h; exact .nil
    · intro h; cases h; rfl
  | cons x xs ih =>
    constructor
    · intro h
      simp only [mapPy, bind, Except.bind, pure, Except.pure] at h
      split at h
      · cases h
      · rename_i y hy
        split at h
        · cases h
        · rename_i ys' hys
          cases h
          exact .cons hy (ih.1 hys)
    · intro h
      cases h with
      | cons hx hxs => simp only [mapPy, hx, ih.2 hxs, bind, Except.bind, pure, Except.pure]

theorem parse_fixTail {scope : Dict Str Str} {i : Str} (hi : ∃ t, parseText (some i) = .ok t) {e : Elem} {p : PElem}
    (h : parseElem scope e = .ok p) : parseElem scope (fixTail i e) = .ok p := by
  obtain ⟨tag, attrs, text, tail, kids⟩ := e
  rw [fixTail]
  rw [parseElem_ok_iff] at h ⊢
  obtain ⟨hd, tag', as, text', tl, kids', h1, h2, h3, h4, h5, h6, h7⟩ := h
  obtain ⟨t, ht⟩ := hi
  by_cases hb : blank tail = true
  · exact ⟨hd, tag', as, text', t, kids', h1, h2, h3, h4, by rw [if_pos hb]; exact ht, h6, h7⟩
  · exact ⟨hd, tag', as, text', tl, kids', h1, h2, h3, h4, by rw [if_neg hb]; exact h5, h6, h7⟩

theorem All2.onLast {R : Elem → PElem → Prop} {f : Elem → Elem} (hf : ∀ x y, R x y → R (f x) y) :
    ∀ {xs ys}, All2 R xs ys → All2 R (onLast f xs) ys := by
  intro xs
  induction xs with
  | nil => intro ys h; cases h; exact .nil
  | cons x xs ih =>
    intro ys h
    cases h with
    | cons hx hxs =>
      cases xs with
      | nil => cases hxs; exact .cons (hf _ _ hx) .nil
      | cons x' xs' => rw [Xigt.onLast]; exact .cons hx (ih hxs)

/-- read elements that differ at most in white space: the text of an element with children -/
inductive Sim : PElem → PElem → Prop
  | mk {tag as ns t t' ks ks'} : (t = t' ∨ (ks ≠ [] ∧ blank t = true ∧ blank t' = true)) → All2 Sim ks ks' →
      Sim (.mk tag as ns t ks) (.mk tag as ns t' ks')

theorem parse_indent (ind : Int) : ∀ (e : Elem) (level : Nat) (scope : Dict Str Str) (p : PElem), parseElem scope e = .ok p →
    ∃ q, parseElem scope (indentElem ind level e) = .ok q ∧ Sim p q := by
  refine Elem.ind fun tag attrs text tail kids ih level scope p h => ?_
  rw [parseElem_ok_iff] at h
  obtain ⟨hd, tag', as, text', tl, kids', h1, h2, h3, h4, h5, h6, rfl⟩ := h
  obtain ⟨tt, htt⟩ := ws_ok' (ind * level)
  rw [parseElems_eq, mapPy_ok_iff] at h6
  cases kids with
  | nil =>
    cases h6
    have htail : ∃ tl', parseText (if level ≠ 0 ∧ blank tail = true then some ('\n' :: spaces (ind * level)) else tail) = .ok tl' := by
      split
      · exact ⟨tt, htt⟩
      · exact ⟨tl, h5⟩
    obtain ⟨tl', htl'⟩ := htail
    refine ⟨.mk tag' as (Dict.update scope (declsOf attrs)) text' [], ?_, .mk (.inl rfl) .nil⟩
    rw [indentElem, parseElem_ok_iff]
    exact ⟨hd, tag', as, text', tl', [], h1, h2, h3, h4, htl', by rw [parseElems], rfl⟩
  | cons k ks =>
    have htail : ∃ tl', parseText (if blank tail = true then some ('\n' :: spaces (ind * level)) else tail) = .ok tl' := by
      split
      · exact ⟨tt, htt⟩
      · exact ⟨tl, h5⟩
    obtain ⟨tl', htl'⟩ := htail
    obtain ⟨text'', ht1, ht2⟩ : ∃ t'', parseText (if blank text = true then some ('\n' :: spaces (ind * level) ++ spaces ind) else text) = .ok t'' ∧
        (text' = t'' ∨ (blank text' = true ∧ blank t'' = true)) := by
      by_cases hb : blank text = true
      · rw [if_pos hb]
        refine ⟨_, (ws_ok _ _).1, .inr ⟨?_, (ws_ok _ _).2⟩⟩
        rw [parseText_blank h4]; exact hb
      · rw [if_neg hb]; exact ⟨_, h4, .inl rfl⟩
    obtain ⟨kids'', hk1, hk2⟩ : ∃ ks'', All2 (fun x y => parseElem (Dict.update scope (declsOf attrs)) x = .ok y)
        ((k :: ks).map (indentElem ind (level + 1))) ks'' ∧ All2 Sim kids' ks'' := by
      have key : ∀ (l : List Elem) (l' : List PElem), (∀ x ∈ l, x ∈ k :: ks) →
          All2 (fun x y => parseElem (Dict.update scope (declsOf attrs)) x = .ok y) l l' →
          ∃ ks'', All2 (fun x y => parseElem (Dict.update scope (declsOf attrs)) x = .ok y) (l.map (indentElem ind (level + 1))) ks'' ∧
            All2 Sim l' ks'' := by
        intro l
        induction l with
        | nil => intro l' _ h; cases h; exact ⟨[], .nil, .nil⟩
        | cons x l ihl =>
          intro l' hm h
          cases h with
          | cons hx hl =>
            obtain ⟨q, hq1, hq2⟩ := ih x (hm x (by simp)) (level + 1) _ _ hx
            obtain ⟨qs, hqs1, hqs2⟩ := ihl _ (fun y hy => hm y (by simp [hy])) hl
            exact ⟨q :: qs, .cons hq1 hqs1, .cons hq2 hqs2⟩
      exact key (k :: ks) kids' (fun _ h => h) h6
    refine ⟨.mk tag' as (Dict.update scope (declsOf attrs)) text'' kids'', ?_, .mk ?_ hk2⟩
    · rw [indentElem, parseElem_ok_iff]
      refine ⟨hd, tag', as, text'', tl', kids'', h1, h2, h3, ht1, htl', ?_, rfl⟩
      rw [parseElems_eq, mapPy_ok_iff, indentElems_eq]
      exact All2.onLast (fun x y hxy => parse_fixTail ⟨tt, htt⟩ hxy) hk1
    · rcases ht2 with h | h
      · exact .inl h
      · refine .inr ⟨?_, h⟩
        cases h6; simp

/-! ### Reading similar elements -/

theorem Sim.tag_eq {p q} (h : Sim p q) : p.tag = q.tag := by cases h; rfl
theorem Sim.xmlData_eq {p q} (h : Sim p q) (c i x) : xmlData c i x p = xmlData c i x q := by cases h; rfl
theorem Sim.kids {p q} (h : Sim p q) : All2 Sim p.kids q.kids := by cases h; assumption
theorem Sim.nonBlank_eq {p q} (h : Sim p q) : nonBlank p.text = nonBlank q.text := by
  cases h with
  | mk h _ =>
    rcases h with rfl | ⟨_, h1, h2⟩
    · rfl
    · simp only [PElem.text, nonBlank, h1, h2, if_true]

theorem All2.findall {p q : PElem} (h : All2 Sim p.kids q.kids) (tag : Str) :
    All2 (fun a b => Sim a b ∧ a ∈ p.kids ∧ a.tag = tag) (findall p tag) (findall q tag) := by
  unfold Xigt.findall
  have key : ∀ l l', (∀ a ∈ l, a ∈ p.kids) → All2 Sim l l' →
      All2 (fun a b => Sim a b ∧ a ∈ p.kids ∧ a.tag = tag) (l.filter fun k => k.tag = tag) (l'.filter fun k => k.tag = tag) := by
    intro l
    induction l with
    | nil => intro l' _ h; cases h; exact .nil
    | cons a l ih =>
      intro l' hm h
      cases h with
      | @cons _ b _ bs hab hl =>
        have := ih bs (fun x hx => hm x (by simp [hx])) hl
        by_cases ht : a.tag = tag
        · have hb : b.tag = tag := hab.tag_eq.symm.trans ht
          simp only [List.filter_cons, ht, hb, decide_true, if_true]
          exact .cons ⟨hab, hm a (by simp), ht⟩ this
        · have hb : b.tag ≠ tag := fun e => ht (hab.tag_eq.trans e)
          simp only [List.filter_cons, ht, hb, decide_false, Bool.false_eq_true, if_false]
          exact this
  exact key _ _ (fun _ h => h) h

theorem mapPy_all2 {α β : Type} {f : α → Py β} {R : α → α → Prop} {xs ys : List α} (h : All2 R xs ys)
    (hf : ∀ x y, R x y → f x = f y) : mapPy f xs = mapPy f ys := by
  induction h with
  | nil => rfl
  | cons hx _ ih => rw [mapPy, mapPy, hf _ _ hx, ih]

theorem readMc_sim : ∀ (p q : PElem), Sim p q → readMc p = readMc q := by
  refine PElem.ind fun tag attrs ns text kids ih q h => ?_
  have hx := h.xmlData_eq .metaChild IDTYPE none
  have hn := h.nonBlank_eq
  have hkids := h.kids
  cases h with
  | mk ht hk =>
    rename_i t' ks'
    simp only [PElem.text] at hn
    have : mapPy readMc kids = mapPy readMc ks' := by
      have key : ∀ l l', (∀ a ∈ l, a ∈ kids) → All2 Sim l l' → mapPy readMc l = mapPy readMc l' := by
        intro l
        induction l with
        | nil => intro l' _ h; cases h; rfl
        | cons a l ihl =>
          intro l' hm h
          cases h with
          | cons hab hl => rw [mapPy, mapPy, ih a (hm a (by simp)) _ hab, ihl _ (fun x hx => hm x (by simp [hx])) hl]
      exact key _ _ (fun _ h => h) hk
    rw [readMc, readMc, hx, readMcs_eq, readMcs_eq, this, hn]

theorem readMeta_sim {p q : PElem} (h : Sim p q) : readMeta p = readMeta q := by
  rw [readMeta, readMeta, h.xmlData_eq, h.nonBlank_eq, readMcs_eq, readMcs_eq, mapPy_all2 h.kids readMc_sim]

theorem readMd_sim {p q : PElem} (h : Sim p q) : readMd p = readMd q := by
  rw [readMd, readMd, h.xmlData_eq, mapPy_all2 (All2.findall h.kids _) fun x y h => readMeta_sim h.1]

theorem readItem_sim {p q : PElem} (h : Sim p q) (hk : p.kids = []) : readItem p = readItem q := by
  rw [readItem, readItem, h.xmlData_eq]
  cases h with
  | mk ht _ =>
    rcases ht with rfl | ⟨h, _⟩
    · rfl
    · exact absurd hk h

/-- item elements have no children -/
def ReadTierOK (p : PElem) : Prop := ∀ k ∈ p.kids, k.tag = lit! "item" → k.kids = []
def ReadIgtOK (p : PElem) : Prop := ∀ k ∈ p.kids, k.tag = lit! "tier" → ReadTierOK k
def ReadCorpusOK (p : PElem) : Prop := ∀ k ∈ p.kids, k.tag = lit! "igt" → ReadIgtOK k

theorem readTier_sim {p q : PElem} (h : Sim p q) (hp : ReadTierOK p) : readTier p = readTier q := by
  rw [readTier, readTier, h.xmlData_eq, mapPy_all2 (All2.findall h.kids _) fun x y h => readMd_sim h.1,
    mapPy_all2 (All2.findall h.kids (lit! "item")) fun x y h => readItem_sim h.1 (hp x h.2.1 h.2.2)]

theorem readIgt_sim {p q : PElem} (h : Sim p q) (hp : ReadIgtOK p) : readIgt p = readIgt q := by
  rw [readIgt, readIgt, h.xmlData_eq, mapPy_all2 (All2.findall h.kids _) fun x y h => readMd_sim h.1,
    mapPy_all2 (All2.findall h.kids (lit! "tier")) fun x y h => readTier_sim h.1 (hp x h.2.1 h.2.2)]

theorem readCorpus_sim {p q : PElem} (h : Sim p q) (hp : ReadCorpusOK p) : readCorpus p = readCorpus q := by
  rw [readCorpus, readCorpus, h.xmlData_eq, mapPy_all2 (All2.findall h.kids _) fun x y h => readMd_sim h.1,
    mapPy_all2 (All2.findall h.kids (lit! "igt")) fun x y h => readIgt_sim h.1 (hp x h.2.1 h.2.2)]

/-! ### What is written is in order -/

theorem mem_all2 {α β : Type} {R : α → β → Prop} {xs : List α} {ys : List β} (h : All2 R xs ys) {y : β} (hy : y ∈ ys) :
    ∃ x ∈ xs, R x y := by
  induction h with
  | nil => cases hy
  | @cons a b as bs hab _ ih =>
    rcases List.mem_cons.1 hy with rfl | hy
    · exact ⟨a, by simp, hab⟩
    · obtain ⟨x, hx, hr⟩ := ih hy
      exact ⟨x, by simp [hx], hr⟩

omit [Uni] [XmlLex] in
theorem All2.mem_left {α β : Type} {R : α → β → Prop} : ∀ {as bs}, All2 R as bs → ∀ a ∈ as, ∃ b ∈ bs, R a b := by
  intro as bs h
  induction h with
  | nil => intro b hb; cases hb
  | cons h1 _ ih =>
    intro b hb
    rcases List.mem_cons.1 hb with rfl | hb
    · exact ⟨_, by simp, h1⟩
    · obtain ⟨a, ha, hr⟩ := ih b hb
      exact ⟨a, by simp [ha], hr⟩

theorem qual_ne {u k t : Str} (h : t.head? ≠ some '{') : qual u k ≠ t := by
  rintro rfl
  exact h rfl

/-- the name that is read back for a tag of the given local name -/
theorem resolveName_local {scope dflt rev tag ns t} (h : resolveName scope dflt (xmlTag rev tag ns) = .ok t)
    (t' : Str) (ht' : t'.head? ≠ some '{') (ht : t = t') : t' = tag := by
  subst ht
  unfold resolveName at h
  split at h
  · rename_i hs
    have hx : xmlTag rev tag ns = tag := by
      unfold xmlTag at hs ⊢
      split at hs
      · rename_i pre _
        exfalso
        have : ∀ (a b : Str), splitOnce ':' (a ++ ':' :: b) ≠ none := by
          intro a b
          induction a with
          | nil => simp [splitOnce]
          | cons c a ih =>
            simp only [List.cons_append, splitOnce]
            split
            · simp
            · cases hh : splitOnce ':' (a ++ ':' :: b) with
              | none => exact absurd hh ih
              | some v => simp
        exact this _ _ hs
      · rfl
    rw [hx] at h
    split at h
    · split at h
      · cases h; rfl
      · split at h
        · cases h; rfl
        · cases h; exact absurd rfl ht'
    · cases h
  · split at h
    · split at h
      · cases h; exact absurd rfl ht'
      · split at h
        · cases h; exact absurd rfl ht'
        · cases h
    · cases h

theorem buildElem_ok {tag d eff text kids e} (h : buildElem tag d eff text kids = .ok e) :
    e.tag = xmlTag (inverse (effNs d eff)) tag d.ns ∧ e.kids = kids := by
  unfold buildElem at h
  simp only [bind, Except.bind, pure, Except.pure] at h
  split at h
  · cases h
  · cases h; exact ⟨rfl, rfl⟩

theorem parse_kids {scope e p} (h : parseElem scope e = .ok p) :
    ∃ scope', All2 (fun x y => parseElem scope' x = .ok y) e.kids p.kids := by
  obtain ⟨tag, attrs, text, tail, kids⟩ := e
  rw [parseElem_ok_iff] at h
  obtain ⟨hd, tag', as, text', tl, kids', h1, h2, h3, h4, h5, h6, rfl⟩ := h
  rw [parseElems_eq, mapPy_ok_iff] at h6
  exact ⟨_, h6⟩

theorem parse_tag {scope e p} (h : parseElem scope e = .ok p) : ∃ scope' dflt, resolveName scope' dflt e.tag = .ok p.tag := by
  obtain ⟨tag, attrs, text, tail, kids⟩ := e
  rw [parseElem_ok_iff] at h
  obtain ⟨hd, tag', as, text', tl, kids', h1, h2, h3, h4, h5, h6, rfl⟩ := h
  exact ⟨_, _, h1⟩

/-- if an element written under the name `tag` is read as `t`, then `t` is `tag` (or in a namespace) -/
theorem written_tag {tag d eff text kids e scope p} (h : buildElem tag d eff text kids = .ok e) (hp : parseElem scope e = .ok p)
    {t : Str} (ht : t.head? ≠ some '{') (he : p.tag = t) : t = tag := by
  obtain ⟨s, dflt, hr⟩ := parse_tag hp
  rw [(buildElem_ok h).1] at hr
  exact resolveName_local hr t ht he

theorem buildMd_elem {eff x e} (h : buildMd eff x = .ok e) : ∃ ks, buildElem (lit! "metadata") x.data eff none ks = .ok e := by
  simp only [buildMd, bind, Except.bind] at h
  split at h
  · cases h
  · exact ⟨_, h⟩

theorem tier_written {eff x e scope p} (h : buildTier eff x = .ok e) (hp : parseElem scope e = .ok p) : ReadTierOK p := by
  simp only [buildTier, bind, Except.bind] at h
  split at h
  · cases h
  · rename_i ms hms
    split at h
    · cases h
    · rename_i ks hks
      intro k hk ht
      obtain ⟨scope', h2⟩ := parse_kids hp
      obtain ⟨x', hx', hpx⟩ := mem_all2 h2 hk
      rw [(buildElem_ok h).2] at hx'
      rcases List.mem_append.1 hx' with hm | hm
      · obtain ⟨o, _, ho⟩ := mem_all2 (mapPy_ok_iff.1 hms) hm
        obtain ⟨_, hb⟩ := buildMd_elem ho
        have := written_tag hb hpx (by decide) ht
        cases this
      · obtain ⟨o, _, ho⟩ := mem_all2 (mapPy_ok_iff.1 hks) hm
        obtain ⟨s, h3⟩ := parse_kids hpx
        rw [(buildElem_ok ho).2] at h3
        cases hkk : k.kids with
        | nil => rfl
        | cons a l => rw [hkk] at h3; cases h3

theorem igt_written {eff x e scope p} (h : buildIgt eff x = .ok e) (hp : parseElem scope e = .ok p) : ReadIgtOK p := by
  simp only [buildIgt, bind, Except.bind] at h
  split at h
  · cases h
  · rename_i ms hms
    split at h
    · cases h
    · rename_i ks hks
      intro k hk ht
      obtain ⟨scope', h2⟩ := parse_kids hp
      obtain ⟨x', hx', hpx⟩ := mem_all2 h2 hk
      rw [(buildElem_ok h).2] at hx'
      rcases List.mem_append.1 hx' with hm | hm
      · obtain ⟨o, _, ho⟩ := mem_all2 (mapPy_ok_iff.1 hms) hm
        obtain ⟨_, hb⟩ := buildMd_elem ho
        have := written_tag hb hpx (by decide) ht
        cases this
      · obtain ⟨o, _, ho⟩ := mem_all2 (mapPy_ok_iff.1 hks) hm
        exact tier_written ho hpx

theorem corpus_written {x e scope p} (h : buildCorpus x = .ok e) (hp : parseElem scope e = .ok p) : ReadCorpusOK p := by
  simp only [buildCorpus, bind, Except.bind] at h
  split at h
  · cases h
  · rename_i ms hms
    split at h
    · cases h
    · rename_i ks hks
      intro k hk ht
      obtain ⟨scope', h2⟩ := parse_kids hp
      obtain ⟨x', hx', hpx⟩ := mem_all2 h2 hk
      rw [(buildElem_ok h).2] at hx'
      rcases List.mem_append.1 hx' with hm | hm
      · obtain ⟨o, _, ho⟩ := mem_all2 (mapPy_ok_iff.1 hms) hm
        obtain ⟨_, hb⟩ := buildMd_elem ho
        have := written_tag hb hpx (by decide) ht
        cases this
      · obtain ⟨o, _, ho⟩ := mem_all2 (mapPy_ok_iff.1 hks) hm
        exact igt_written ho hpx

end
end Xigt
