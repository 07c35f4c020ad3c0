import Verif.Schema.DefaultSchema
/- C105: whether what the Toolbox importer writes is valid against default-xigt.rnc. -/

set_option linter.unusedSectionVars false

namespace Xigt.Rng

section
variable [Uni] [XmlLex] [Xsd] [Tbx.Lex]

def IsRef (k : Str) : Prop := k = ALN ∨ k = CNT ∨ k = SEG

/-- an item as the importer makes it: an identifier, no type, at most references -/
def ItemBare (x : Obj) : Prop := HasId x.data ∧ x.data.type = none ∧ RefsX AlgnFits x.data.attrs
/-- a tier as the importer makes it -/
def TierBare (x : Obj) : Prop := HasId x.data ∧ x.md = [] ∧ RefsX IdFits x.data.attrs ∧ ∀ i ∈ x.kids, ItemBare i

theorem refsX_nil {F : Str → Prop} : RefsX F [] := ⟨by simp, .inl (by simp [Lacks])⟩

theorem refsX_one {F : Str → Prop} {k v : Str} (hk : IsRef k) (h : F v) : RefsX F [(k, v)] := by
  refine ⟨fun k' v' hm => ?_, ?_⟩
  · cases List.mem_singleton.1 hm; exact .inr ⟨hk, h⟩
  · by_cases hs : k = SEG
    · subst hs
      refine .inr ⟨fun w hw => ?_, fun w hw => ?_⟩
      all_goals
        have := List.mem_singleton.1 hw
        injection this with e
        exact absurd e (by decide)
    · refine .inl fun w hw => ?_
      have := List.mem_singleton.1 hw
      injection this with e
      exact hs e.symm

/-- options that refer by the three attributes that refer -/
structure OptsFitD (o : Tbx.Opts) : Prop where
  tiers : ∀ mkr tid, Dict.get? o.tierMap mkr = some tid → IdFits tid
  phrase : ∀ wid pid, o.phrase = some (wid, pid) → IdFits pid
  refs : ∀ tid ra aid, Dict.get? o.alignments tid = some (some ra, aid) → IsRef ra

theorem item_bare {tid : Str} {i : Nat} {t : Str} {a : Dict Str Str} {x : Obj} (h : Tbx.mkItem tid i t a = .ok x) (hid : IdFits tid)
    (ha : RefsX AlgnFits a) : ItemBare x := by
  rw [Tbx.mkItem_inv h]
  exact ⟨⟨_, rfl, hid.num i⟩, rfl, ha⟩

theorem refItems_bare {ty : Option Str} {tid ra : Str} {item : Option Obj} {tgt : Option Str} {toks : List Str} (hra : IsRef ra) (hid : IdFits tid)
    (hi : ∀ x, item = some x → HasId x.data) : ∀ (ts : List Str) (s i : Nat) (xs : List Obj),
    Tbx.refItems ty tid ra item tgt toks ts s i = .ok xs → ∀ x ∈ xs, ItemBare x := by
  intro ts
  induction ts with
  | nil => intro s i xs h; cases h; simp
  | cons t ts ih =>
    intro s i xs h
    simp only [Tbx.refItems, bind, Except.bind] at h
    split at h
    · cases h
    next r hr =>
    split at h
    · cases h
    next x hx =>
    split at h
    · cases h
    next ys hys =>
    cases h
    intro y hy
    rcases List.mem_cons.1 hy with rfl | hy
    · exact item_bare hx hid (refsX_one hra (refOf_fits hi hr))
    · exact ih _ _ _ hys y hy

theorem alnItems_bare {ty : Option Str} {tid ra : Str} (hra : IsRef ra) (hid : IdFits tid) :
    ∀ (ps : List (Option Obj × Option Tbx.Aln)) (i : Nat) (xs : List Obj), (∀ p ∈ ps, ∀ x, p.1 = some x → HasId x.data) →
    Tbx.alnItems ty tid ra ps i = .ok xs → ∀ x ∈ xs, ItemBare x := by
  intro ps
  induction ps with
  | nil => intro i xs _ h; cases h; simp
  | cons p ps ih =>
    intro i xs hp h
    obtain ⟨item, al⟩ := p
    match al with
    | none => cases h
    | some (_, none) => cases h
    | some (tgt, some toks) =>
      simp only [Tbx.alnItems, bind, Except.bind] at h
      split at h
      · cases h
      next ys hys =>
      split at h
      · cases h
      next zs hzs =>
      cases h
      intro y hy
      rcases List.mem_append.1 hy with hy | hy
      · exact refItems_bare hra hid (hp (item, some (tgt, some toks)) (by simp)) _ _ _ _ hys y hy
      · exact ih _ _ (fun p h => hp p (by simp [h])) hzs y hy

theorem plainToks_bare {tid : Str} (hid : IdFits tid) : ∀ (ts : List Str) (i : Nat) (xs : List Obj),
    Tbx.plainToks tid ts i = .ok xs → ∀ x ∈ xs, ItemBare x := by
  intro ts
  induction ts with
  | nil => intro i xs h; cases h; simp
  | cons t ts ih =>
    intro i xs h
    simp only [Tbx.plainToks, bind, Except.bind] at h
    split at h
    · cases h
    next x hx =>
    split at h
    · cases h
    next ys hys =>
    cases h
    intro y hy
    rcases List.mem_cons.1 hy with rfl | hy
    · exact item_bare hx hid refsX_nil
    · exact ih _ _ hys y hy

theorem plainItems_bare {tid : Str} (hid : IdFits tid) : ∀ (as : List Tbx.Aln) (i : Nat) (xs : List Obj),
    Tbx.plainItems tid as i = .ok xs → ∀ x ∈ xs, ItemBare x := by
  intro as
  induction as with
  | nil => intro i xs h; cases h; simp
  | cons a as ih =>
    intro i xs h
    obtain ⟨u, al⟩ := a
    match al with
    | none => cases h
    | some toks =>
      simp only [Tbx.plainItems, bind, Except.bind] at h
      split at h
      · cases h
      next ys hys =>
      split at h
      · cases h
      next zs hzs =>
      cases h
      intro y hy
      rcases List.mem_append.1 hy with hy | hy
      · exact plainToks_bare hid _ _ _ hys y hy
      · exact ih _ _ hzs y hy

theorem tier_bare {ty : Option Str} {tid : Str} {a : Dict Str Str} {xs : List Obj} {t : Obj} (h : Tbx.mkTier ty tid a xs = .ok t)
    (hid : IdFits tid) (ha : RefsX IdFits a) (hx : ∀ x ∈ xs, ItemBare x) : TierBare t := by
  obtain ⟨rfl, -⟩ := Tbx.mkTier_inv h
  exact ⟨⟨_, rfl, hid⟩, rfl, ha, hx⟩

theorem makeTier_bare {ty : Option Str} {tid : Str} {ra : Option Str} {aln : List Tbx.Aln} {algn : Option Obj} {t : Obj}
    (hid : IdFits tid) (hra : ∀ r, ra = some r → IsRef r) (hal : ∀ u, algn = some u → TierBare u) (h : Tbx.makeTier ty tid ra aln algn = .ok t) :
    TierBare t := by
  unfold Tbx.makeTier at h
  split at h
  · exact tier_bare h hid refsX_nil (by simp)
  · split at h
    · next r u =>
      simp only [bind, Except.bind] at h
      split at h
      · cases h
      next xs hxs =>
      obtain ⟨⟨i, hi, hf⟩, _, _, hk⟩ := hal u rfl
      refine tier_bare h hid (refsX_one (hra _ rfl) (by rw [hi]; exact hf)) (alnItems_bare (hra _ rfl) hid _ _ _ ?_ hxs)
      intro p hp x hx
      exact (hk x ((Tbx.zipLongest_parts _ _ p hp).1 x hx)).1
    · simp only [bind, Except.bind] at h
      split at h
      · cases h
      next xs hxs =>
      exact tier_bare h hid refsX_nil (plainItems_bare hid _ _ _ hxs)

theorem phraseTier_bare {pid : Str} {aln : List Tbx.Aln} {p : Obj} (hid : IdFits pid) (h : Tbx.makePhraseTier pid aln = .ok p) : TierBare p := by
  obtain ⟨rfl, -⟩ := Tbx.makePhraseTier_inv h
  refine ⟨⟨_, rfl, hid⟩, rfl, refsX_nil, ?_⟩
  intro x hx
  cases List.mem_singleton.1 hx
  exact ⟨⟨_, rfl, hid.num 1⟩, rfl, refsX_nil⟩

theorem alignmentOf_ref {o : Tbx.Opts} (ho : OptsFitD o) {tid : Str} : ∀ r, (Tbx.alignmentOf o tid).1 = some r → IsRef r := by
  intro r h
  unfold Tbx.alignmentOf at h
  split at h
  · next ra aid e =>
    cases h
    exact ho.refs _ _ _ e
  · cases h

theorem makeAllTiers_bare {o : Tbx.Opts} (ho : OptsFitD o) : ∀ (fs : List (Py Tbx.Field)) (prev : Dict Str Obj) (done r : List Obj),
    (∀ t ∈ done, TierBare t) → (∀ a t, Dict.get? prev a = some t → TierBare t) → Tbx.makeAllTiers o fs prev done = .ok r → ∀ t ∈ r, TierBare t := by
  intro fs
  induction fs with
  | nil => intro prev done r hd _ h; cases h; exact hd
  | cons f fs ih =>
    intro prev done r hd hp h
    cases f with
    | error e => cases h
    | ok f =>
      obtain ⟨mkr, aln⟩ := f
      cases hm : Dict.get? o.tierMap mkr with
      | none =>
        simp only [Tbx.makeAllTiers, hm] at h
        exact ih _ _ _ hd hp h
      | some tid =>
        obtain ⟨prev', done', ty, t, hps, hty, ht, hne, hr⟩ := Tbx.makeAllTiers_step hm h
        have hsnoc : ∀ {ts : List Obj} {u : Obj}, (∀ t ∈ ts, TierBare t) → TierBare u → ∀ t ∈ ts ++ [u], TierBare t := by
          intro ts u h1 h2 t ht
          rcases List.mem_append.1 ht with h | h
          · exact h1 t h
          · cases List.mem_singleton.1 h; exact h2
        have hstep : (∀ t ∈ done', TierBare t) ∧ ∀ a t, Dict.get? prev' a = some t → TierBare t := by
          rcases Tbx.phraseStep_inv hps with ⟨_, rfl, rfl⟩ | ⟨pid, p, hph, hpt, rfl, rfl, hid⟩
          · exact ⟨hd, hp⟩
          · have hg := phraseTier_bare (ho.phrase _ _ hph) hpt
            refine ⟨hsnoc hd hg, ?_⟩
            intro a u hu
            rw [Dict.get?_set] at hu
            split at hu
            · cases hu; exact hg
            · exact hp a u hu
        have hg : TierBare t := by
          refine makeTier_bare (ho.tiers _ _ hm) (alignmentOf_ref ho) ?_ ht
          intro u hu
          obtain ⟨a, _, ha⟩ := Option.bind_eq_some_iff.1 hu
          exact hstep.2 a u ha
        refine ih _ _ _ (hsnoc hstep.1 hg) ?_ hr
        intro a u hu
        rw [Dict.get?_set] at hu
        split at hu
        · cases hu; exact hg
        · exact hstep.2 a u hu

/-- the type of a tier, if any, is listed in the schema -/
def Listed (t : Obj) : Prop :=
  ∀ v, t.data.type = some v → OneOf [lit! "phrases", lit! "words", lit! "morphemes", lit! "glosses", lit! "translations"] v

theorem listed_iff {t : Obj} (h : TierBare t) : TierFitsD t ↔ Listed t := by
  have hi : ∀ T : Str → Prop, ∀ i ∈ t.kids, ItemFitsD T i := fun T i hi => by
    obtain ⟨h1, h2, h3⟩ := h.2.2.2 i hi
    exact ⟨h1, fun v hv => (by rw [h2] at hv; cases hv), h3⟩
  constructor
  · rintro ⟨-, -, -, e, he, hv, -⟩ v hvt
    have := hv v hvt
    simp only [tierTable, List.mem_cons, List.not_mem_nil, or_false] at he
    rcases he with rfl | rfl | rfl | rfl | rfl | rfl <;>
      first
      | exact this.elim
      | (obtain ⟨w, hw, e⟩ := this
         cases List.mem_singleton.1 hw
         exact ⟨_, by simp, e⟩)
  · intro hl
    refine ⟨h.1, h.2.2.1, (by rw [h.2.1]; simp), ?_⟩
    cases ht : t.data.type with
    | none => exact ⟨_, List.mem_cons_self, by simp, hi _⟩
    | some v =>
      obtain ⟨w, hw, e⟩ := hl v ht
      have : ∃ e ∈ tierTable, e.1 v := by
        simp only [tierTable, List.mem_cons, List.not_mem_nil, or_false, exists_eq_or_imp, exists_eq_left, OneOf] at hw ⊢
        rcases hw with rfl | rfl | rfl | rfl | rfl <;> simp [e]
      obtain ⟨e, he, hv⟩ := this
      exact ⟨e, he, (by rintro _ ⟨⟩; exact hv), hi _⟩

theorem tbx_igt_default {o : Tbx.Opts} (ho : OptsFitD o) {r : Tbx.Record} {key : Str} {x : Obj}
    (h : Tbx.makeIgt o key r.data r.context r.fields = .ok (some x)) :
    (IgtFitsD x ↔ HasId x.data ∧ OnlyBase x.data.attrs ∧ ∀ t ∈ x.kids, Listed t) := by
  obtain ⟨i, ts, hi, hacc, hts, rfl⟩ := Tbx.makeIgt_inv h
  have hg := makeAllTiers_bare ho _ _ _ _ (by simp) (by intro a t h; cases h) hts
  rw [IgtFitsD]
  refine and_congr_right fun _ => ?_
  constructor
  · exact fun ⟨_, h1, _, h2⟩ => ⟨h1, fun t ht => (listed_iff (hg t ht)).1 (h2 t ht)⟩
  · exact fun ⟨h1, h2⟩ => ⟨(by rintro v ⟨⟩), h1, (by intro m hm; cases hm), fun t ht => (listed_iff (hg t ht)).2 (h2 t ht)⟩

theorem tbx_igts_default {o : Tbx.Opts} (ho : OptsFitD o) {k : Str} : ∀ (rs : List Tbx.Record) (xs : List Obj),
    Tbx.toolboxIgts o k rs = .ok xs → ∀ x ∈ xs,
      (IgtFitsD x ↔ HasId x.data ∧ OnlyBase x.data.attrs ∧ ∀ t ∈ x.kids, Listed t) := by
  intro rs
  induction rs with
  | nil => intro xs h; cases h; simp
  | cons r rs ih =>
    intro xs h
    rw [Tbx.toolboxIgts] at h
    split at h
    · next key hk =>
      simp only [bind, Except.bind] at h
      split at h
      · cases h
      next x hx =>
      split at h
      · cases h
      next ys hys =>
      cases h
      intro y hy
      rcases List.mem_append.1 hy with hy | hy
      · cases x with
        | none => cases hy
        | some x =>
          cases List.mem_singleton.1 hy
          exact tbx_igt_default ho hx
      · exact ih _ hys y hy
    · exact ih _ h

/-- **C105** for Toolbox: what is imported with suitable options from records that can be written and read
(C93) is a document default-xigt.rnc allows just if the identifiers made from the keys are identifiers of
the schema, no attribute was taken from the records (but `xml:lang` and `xml:space`), and the types of the
tiers are among the five of the schema. -/
theorem C105_toolbox (o : Tbx.Opts) (k : Str) (ho : Tbx.OptsOK o) (hf : OptsFitD o) (rs : List Tbx.Record)
    (hr : ∀ r ∈ rs, Tbx.RecordOK o k r) (xs : List Obj) (h : Tbx.toolboxIgts o k rs = .ok xs)
    (hd : (xs.map fun x => x.data.id).Nodup) (ind : Option Int) :
    ∃ s doc, dumpsXml ind (Tbx.corpus xs) = .ok s ∧ docText s = .ok doc ∧
      (Valid default_rnc doc ↔ ∀ x ∈ xs, (∃ i, x.data.id = some i ∧ IdFits i) ∧ OnlyBase x.data.attrs ∧ ∀ t ∈ x.kids, Listed t) := by
  obtain ⟨f1, f2, f3, -⟩ := Tbx.corpus_fine o k ho rs hr xs h hd
  have hx := tbx_igts_default hf rs xs h
  obtain ⟨s, doc, g1, g2, g3⟩ := C120_iff (Tbx.corpus xs) rfl f1 f2 f3 ind
  refine ⟨s, doc, g1, g2, g3.trans ?_⟩
  constructor
  · exact fun hc x hx' => (hx x hx').1 (hc.2.2.2 x hx')
  · exact fun hc => ⟨by rintro i ⟨⟩, (by intro k v hv; cases hv), (by intro m hm; cases hm), fun x hx' => (hx x hx').2 (hc x hx')⟩

end

section
attribute [local instance] asciiUni asciiXml asciiXsd Tbx.asciiLex

theorem defaults_fitD : OptsFitD Tbx.defaults := by
  refine ⟨fun mkr tid h => defaults_fit.tiers mkr tid h, fun w p h => defaults_fit.phrase w p h, ?_⟩
  intro tid ra aid h
  have h' := Dict.get?_mem h
  have : ∀ p ∈ Tbx.defaults.alignments, p.2.1 = some ALN ∨ p.2.1 = some SEG := by decide
  rcases this _ h' with e | e <;> injection e with e <;> subst e
  · exact .inl rfl
  · exact .inr (.inr rfl)

/-- a record with the key `7`, and what is above it -/
def recordOf (top : List (Str × Option Str)) (fs : List (Py Tbx.Field)) : Tbx.Record where
  context := top ++ [(lit! "\\ref", some (lit! "7"))]
  data := []
  fields := fs

def wordLine : Py Tbx.Field := .ok (lit! "\\t", [(some (lit! "inu"), some [lit! "inu"])])
def morphLine : Py Tbx.Field := .ok (lit! "\\m", [(some (lit! "inu"), some [lit! "inu"])])
def posLine : Py Tbx.Field := .ok (lit! "\\p", [(some (lit! "inu"), some [lit! "n"])])

theorem recordOf_ok (top : List (Str × Option Str)) (fs : List (Py Tbx.Field))
    (h1 : ∀ m v, (m, some v) ∈ top ++ [(lit! "\\ref", some (lit! "7"))] → XmlChars v)
    (hf : ∀ f ∈ fs, f = wordLine ∨ f = morphLine ∨ f = posLine) :
    Tbx.RecordOK Tbx.defaults (lit! "\\ref") (recordOf top fs) := by
  refine ⟨fun key hk => h1 _ _ (Dict.get?_mem hk), h1, ?_⟩
  intro f h
  rcases hf _ h with e | e | e <;>
  · injection e with e
    subst e
    refine ⟨?_, by intro _ _ _ _; decide⟩
    intro t ht
    simp only [Tbx.tokens, List.flatMap_cons, List.flatMap_nil, Option.getD_some, List.append_nil, List.mem_singleton] at ht
    subst ht
    exact ⟨by decide, chars_of (by decide), by decide⟩

theorem top_ok : ∀ m v, ((m, some v) : Str × Option Str) ∈ ([] : List (Str × Option Str)) ++ [(lit! "\\ref", some (lit! "7"))] → XmlChars v := by
  intro m v h
  simp only [List.nil_append, List.mem_singleton, Prod.mk.injEq, Option.some.injEq] at h
  rw [h.2]; exact chars_of (by decide)

/-- records of words and morphemes are written as valid documents -/
example (ind : Option Int) : ∃ xs s doc, Tbx.toolboxIgts Tbx.defaults (lit! "\\ref") [recordOf [] [wordLine, morphLine]] = .ok xs ∧
    (xs.map fun x => x.kids.length) = [3] ∧ dumpsXml ind (Tbx.corpus xs) = .ok s ∧ docText s = .ok doc ∧ Valid default_rnc doc := by
  obtain ⟨s, doc, h1, h2, h3⟩ := C105_toolbox Tbx.defaults (lit! "\\ref") Tbx.defaults_ok defaults_fitD [recordOf [] [wordLine, morphLine]]
    (by intro r hr; cases List.mem_singleton.1 hr; exact recordOf_ok _ _ top_ok (by simp)) _ rfl (by decide +kernel) ind
  refine ⟨_, s, doc, rfl, by decide +kernel, h1, h2, h3.2 fun x hx => ?_⟩
  cases List.mem_singleton.1 hx
  refine ⟨⟨_, rfl, 'i', lit! "gt7", rfl, by decide, by decide +kernel⟩, (by intro k v hv; cases hv), ?_⟩
  intro t ht
  rcases List.mem_cons.1 ht with rfl | ht
  · rintro v ⟨⟩; exact ⟨_, List.mem_cons_self, word_self _⟩
  rcases List.mem_cons.1 ht with rfl | ht
  · rintro v ⟨⟩; exact ⟨lit! "words", by simp, word_self _⟩
  rcases List.mem_cons.1 ht with rfl | ht
  · rintro v ⟨⟩; exact ⟨lit! "morphemes", by simp, word_self _⟩
  cases ht

/-- **C105** refuted: with the options the importer has by default, a record with parts of speech is written
with a tier of a type the default schema does not have. -/
theorem C105_refuted_pos (ind : Option Int) : ∃ xs s doc, Tbx.toolboxIgts Tbx.defaults (lit! "\\ref") [recordOf [] [wordLine, morphLine, posLine]] = .ok xs ∧
    xs.length = 1 ∧ dumpsXml ind (Tbx.corpus xs) = .ok s ∧ docText s = .ok doc ∧ ¬ Valid default_rnc doc := by
  obtain ⟨s, doc, h1, h2, h3⟩ := C105_toolbox Tbx.defaults (lit! "\\ref") Tbx.defaults_ok defaults_fitD [recordOf [] [wordLine, morphLine, posLine]]
    (by intro r hr; cases List.mem_singleton.1 hr; exact recordOf_ok _ _ top_ok (by simp)) _ rfl (by decide +kernel) ind
  refine ⟨_, s, doc, rfl, rfl, h1, h2, fun hv => ?_⟩
  obtain ⟨_, _, h⟩ := h3.1 hv _ (List.mem_singleton.2 rfl)
  obtain ⟨w, hw, e⟩ := h _ (.tail _ (.tail _ (.tail _ (.head _)))) (lit! "pos") rfl
  have hs : ∀ w ∈ [lit! "phrases", lit! "words", lit! "morphemes", lit! "glosses", lit! "translations"], Solid w ∧ w ≠ lit! "pos" := by decide
  have e' : [lit! "pos"] = [w] := (tokens_iff (hs w hw).1.1 (hs w hw).1.2).2 e
  injection e' with e'
  exact (hs w hw).2 e'.symm

/-- **C105** refuted: with the options the importer has by default, a record below a text with a name is
written with the attribute `corpus-id`, which the default schema does not have. -/
theorem C105_refuted_attribute (ind : Option Int) : ∃ xs s doc,
    Tbx.toolboxIgts Tbx.defaults (lit! "\\ref") [recordOf [(lit! "\\id", some (lit! "a"))] [wordLine]] = .ok xs ∧
    xs.length = 1 ∧ dumpsXml ind (Tbx.corpus xs) = .ok s ∧ docText s = .ok doc ∧ ¬ Valid default_rnc doc := by
  obtain ⟨s, doc, h1, h2, h3⟩ := C105_toolbox Tbx.defaults (lit! "\\ref") Tbx.defaults_ok defaults_fitD [recordOf [(lit! "\\id", some (lit! "a"))] [wordLine]]
    (by
      intro r hr; cases List.mem_singleton.1 hr
      refine recordOf_ok _ _ ?_ (by simp)
      intro m v h
      simp only [List.cons_append, List.nil_append, List.mem_cons, List.not_mem_nil, or_false, Prod.mk.injEq, Option.some.injEq] at h
      rcases h with h | h <;> rw [h.2] <;> exact chars_of (by decide)) _ rfl (by decide +kernel) ind
  refine ⟨_, s, doc, rfl, rfl, h1, h2, fun hv => ?_⟩
  obtain ⟨_, h, _⟩ := h3.1 hv _ (List.mem_singleton.2 rfl)
  have hb := h (lit! "corpus-id") (lit! "a") (.head _)
  rcases hb with e | ⟨e, _⟩ <;> exact absurd e (by decide)

end
end Xigt.Rng
