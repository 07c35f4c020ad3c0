import Verif.Scripts.ValidateExamples
import Verif.Igt.Keep
/-
C138: the validator (/repo/xigt/scripts/xigt_validate.py) says the same of equal corpora, and of a corpus that was saved and loaded.
-/

set_option linter.unusedSectionVars false

namespace Xigt.Vld

section
variable [Uni]

theorem hasId_same {x y : Obj} (h : Sm x y) : hasId x = hasId y := by simp only [hasId, h.id]
theorem hasType_same {x y : Obj} (h : Sm x y) : hasType x = hasType y := by simp only [hasType, h.type]
theorem idIsUnique_same {x y : Obj} (h : Sm x y) (seen : List Str) : idIsUnique seen x = idIsUnique seen y := by
  simp only [idIsUnique, h.id]
theorem addId_same {x y : Obj} (h : Sm x y) (seen : List Str) : addId seen x = addId seen y := by simp only [addId, h.id]
theorem has_same {x y : Obj} (h : Sm x y) (k : Str) : Dict.has x.data.attrs k = Dict.has y.data.attrs k := by
  simp only [Dict.has, h.attr k]

theorem isNone_same {o o' : Option Obj} (h : SmO o o') : o.isNone = o'.isNone := by
  cases o <;> cases o' <;> first | rfl | exact h.elim

theorem refIdInIgt_same {g g' t t' : Obj} (hg : Sm g g') (ht : Sm t t') (ra : Str) : refIdInIgt g t ra = refIdInIgt g' t' ra := by
  simp only [refIdInIgt, ht.attr ra, isNone_same (contGet_same hg.kids _)]

theorem any_same {f f' : Obj → Bool} (hf : ∀ x y, Sm x y → f x = f' y) : ∀ l l', SmL l l' → l.any f = l'.any f' := by
  refine SmL.induct rfl fun x y l l' hxy _ ih => ?_
  rw [List.any_cons, List.any_cons, hf x y hxy, ih]

theorem itemRefattrs_same {t t' : Obj} (ht : Sm t t') : itemRefattrs t = itemRefattrs t' := by
  have : ∀ ra, (t.kids.any fun i => Dict.has i.data.attrs ra) = t'.kids.any fun i => Dict.has i.data.attrs ra :=
    fun ra => any_same (fun x y h => has_same h ra) _ _ ht.kids
  simp only [itemRefattrs, this, has_same ht]

theorem nil_same {l l' : List Obj} (h : SmL l l') : l = [] ↔ l' = [] := by
  rw [← List.length_eq_zero_iff, ← List.length_eq_zero_iff, h.1]

theorem referredTier_same {g g' t t' : Obj} (hg : Sm g g') (ht : Sm t t') (ra : Str) :
    SmO (referredTier g t ra) (referredTier g' t' ra) := by
  simp only [referredTier, ht.attr ra]
  cases Dict.get? t'.data.attrs ra with
  | none => trivial
  | some s =>
    simp only
    by_cases h0 : s = []
    · rw [if_pos h0, if_pos h0]; trivial
    · rw [if_neg h0, if_neg h0]
      have := contGet_same hg.kids s
      cases hu : contGet g.kids s <;> cases hu' : contGet g'.kids s <;> rw [hu, hu'] at this
      · trivial
      · exact this.elim
      · exact this.elim
      · rename_i u u'
        simp only
        have hs : Sm u u' := this
        by_cases h1 : u.kids = []
        · rw [if_pos h1, if_pos ((nil_same hs.kids).1 h1)]; trivial
        · rw [if_neg h1, if_neg fun h => h1 ((nil_same hs.kids).2 h)]; exact hs

/-- both references are false, or both are the same expression and tiers with the same data -/
theorem itemRef_same {g g' t t' x x' : Obj} (hg : Sm g g') (ht : Sm t t') (hx : Sm x x') (ra : Str) :
    (itemRef g t x ra = none ∧ itemRef g' t' x' ra = none) ∨
    ∃ e u u', itemRef g t x ra = some (e, u) ∧ itemRef g' t' x' ra = some (e, u') ∧ Sm u u' := by
  simp only [itemRef, hx.attr ra]
  have := referredTier_same hg ht ra
  cases Dict.get? x'.data.attrs ra with
  | none => exact .inl ⟨rfl, rfl⟩
  | some e =>
    cases hu : referredTier g t ra <;> cases hu' : referredTier g' t' ra <;> rw [hu, hu'] at this
    · exact .inl ⟨rfl, rfl⟩
    · exact this.elim
    · exact this.elim
    · simp only
      by_cases h0 : e = []
      · rw [if_pos h0, if_pos h0]; exact .inl ⟨rfl, rfl⟩
      · rw [if_neg h0, if_neg h0]; exact .inr ⟨_, _, _, rfl, rfl, this⟩

theorem idsInTier_same {g g' t t' x x' : Obj} (hg : Sm g g') (ht : Sm t t') (hx : Sm x x') (ra : Str) :
    idsInTier g t x ra = idsInTier g' t' x' ra := by
  unfold idsInTier
  rcases itemRef_same hg ht hx ra with ⟨h1, h2⟩ | ⟨e, u, u', h1, h2, h3⟩ <;> rw [h1, h2]
  simp only [isNone_same (contGet_same h3.kids _), h3.id]

theorem spansOutLoop_same {depth : Nat} {g g' u u' : Obj} (hg : Sm g g') (hu : Sm u u') : ∀ toks,
    spansOutLoop depth g u toks = spansOutLoop depth g' u' toks := by
  intro toks
  induction toks with
  | nil => rfl
  | cons s toks ih =>
    simp only [spansOutLoop, ih]
    split
    · rfl
    · split
      · rfl
      · split
        · rfl
        · split
          · rfl
          · next _ m _ _ _ r _ =>
            have := contGet_same hu.kids (m.2.group 2)
            cases hy : contGet u.kids (m.2.group 2) <;> cases hy' : contGet u'.kids (m.2.group 2) <;> rw [hy, hy'] at this
            · exact this.elim
            · exact this.elim
            · rename_i y y'
              simp only [value_same depth (some g) (some g') (some u) (some u') y y' hg hu this]

theorem overlapLoop_same {depth : Nat} {g g' u u' : Obj} (hg : Sm g g') (hu : Sm u u') : ∀ toks d,
    overlapLoop depth g u toks d = overlapLoop depth g' u' toks d := by
  intro toks
  induction toks with
  | nil => intro d; rfl
  | cons s toks ih =>
    intro d
    simp only [overlapLoop, ih]
    split
    · rfl
    · have := contGet_same hu.kids s
      cases hy : contGet u.kids s <;> cases hy' : contGet u'.kids s <;> rw [hy, hy'] at this
      · exact this.elim
      · exact this.elim
      · rename_i y y'
        simp only [value_same depth (some g) (some g') (some u) (some u') y y' hg hu this]

theorem spansInItem_same {depth : Nat} {g g' t t' x x' : Obj} (hg : Sm g g') (ht : Sm t t') (hx : Sm x x') (ra : Str) :
    spansInItem depth g t x ra = spansInItem depth g' t' x' ra := by
  unfold spansInItem
  rcases itemRef_same hg ht hx ra with ⟨h1, h2⟩ | ⟨e, u, u', h1, h2, h3⟩ <;> rw [h1, h2]
  simp only [spansOutLoop_same hg h3]

theorem spansOverlap_same {depth : Nat} {g g' t t' x x' : Obj} (hg : Sm g g') (ht : Sm t t') (hx : Sm x x') (ra : Str) :
    spansOverlap depth g t x ra = spansOverlap depth g' t' x' ra := by
  unfold spansOverlap
  rcases itemRef_same hg ht hx ra with ⟨h1, h2⟩ | ⟨e, u, u', h1, h2, h3⟩ <;> rw [h1, h2]
  simp only [overlapLoop_same hg h3]

theorem validateItem_same {depth : Nat} {g g' t t' x x' : Obj} (hg : Sm g g') (ht : Sm t t') (hx : Sm x x') :
    validateItem depth g t x = validateItem depth g' t' x' := by
  simp only [validateItem, hasId_same hx, idsInTier_same hg ht hx, spansInItem_same hg ht hx, spansOverlap_same hg ht hx]

theorem validateItems_same {depth : Nat} {g g' t t' : Obj} (hg : Sm g g') (ht : Sm t t') : ∀ l l', SmL l l' → ∀ seen,
    validateItems depth g t l seen = validateItems depth g' t' l' seen := by
  refine SmL.induct (fun _ => rfl) fun x y l l' hxy _ ih seen => ?_
  simp only [validateItems, validateItem_same hg ht hxy, idIsUnique_same hxy, addId_same hxy, ih]

theorem validateTier_same {depth : Nat} {g g' t t' : Obj} (hg : Sm g g') (ht : Sm t t') :
    validateTier depth g t = validateTier depth g' t' := by
  simp only [validateTier, hasId_same ht, hasType_same ht, itemRefattrs_same ht, refIdInIgt_same hg ht,
    validateItems_same hg ht _ _ ht.kids]

theorem igtItems_same : ∀ l l', SmL l l' → ∀ (rs : List Report) seen, igtItems (l.zip rs) seen = igtItems (l'.zip rs) seen := by
  refine SmL.induct (fun _ _ => rfl) fun x y l l' hxy _ ih rs seen => ?_
  cases rs with
  | nil => rfl
  | cons r rs => simp only [List.zip_cons_cons, igtItems, idIsUnique_same hxy, addId_same hxy, ih]

theorem validateTiers_same {depth : Nat} {g g' : Obj} (hg : Sm g g') : ∀ l l', SmL l l' → ∀ tseen iseen,
    validateTiers depth g l tseen iseen = validateTiers depth g' l' tseen iseen := by
  refine SmL.induct (fun _ _ => rfl) fun x y l l' hxy _ ih tseen iseen => ?_
  simp only [validateTiers, validateTier_same hg hxy, idIsUnique_same hxy, addId_same hxy, igtItems_same _ _ hxy.kids, ih]

theorem validateIgt_same {depth : Nat} {g g' : Obj} (hg : Sm g g') : validateIgt depth g = validateIgt depth g' := by
  simp only [validateIgt, hasId_same hg, validateTiers_same hg _ _ hg.kids]

theorem validateIgts_same {depth : Nat} : ∀ l l', SmL l l' → ∀ seen,
    validateIgts depth (l.map .ok) seen = validateIgts depth (l'.map .ok) seen := by
  refine SmL.induct (fun _ => rfl) fun x y l l' hxy _ ih seen => ?_
  simp only [List.map_cons, validateIgts, ih]
  change (do
      let r ← validateIgt depth x
      let us ← cond ERROR (Except.ok (idIsUnique seen x))
      let l ← validateIgts depth (List.map Except.ok l') (addId seen x)
      Except.ok (extend us r :: l)) = do
    let r ← validateIgt depth y
    let us ← cond ERROR (Except.ok (idIsUnique seen y))
    let l ← validateIgts depth (List.map Except.ok l') (addId seen y)
    Except.ok (extend us r :: l)
  simp only [validateIgt_same hxy, idIsUnique_same hxy, addId_same hxy]

/-- a corpus in memory, as the validator reads it -/
def opened (x : Obj) : Opened := ⟨x, x.kids.map .ok⟩

theorem validateCorpus_same {depth : Nat} {x y : Obj} (h : Sm x y) (seen : List Str) :
    validateCorpus depth seen (opened x) = validateCorpus depth seen (opened y) := by
  simp only [validateCorpus, opened, hasId_same h, idIsUnique_same h, validateIgts_same _ _ h.kids]

/-! ### C138 -/

/-- **C138**: corpora that are equal (`==`, C10) get the same report, or the same exception. -/
theorem C138_equal (x y : Obj) (hx : x.WF) (hy : y.WF) (hc : x.cls = y.cls) (he : Obj.eq x y = true) (depth : Nat) (seen : List Str) :
    validateCorpus depth seen (opened x) = validateCorpus depth seen (opened y) :=
  validateCorpus_same ⟨(C10_eq_is_same_data x y hx hy hc).1 he, hx⟩ seen

variable [XmlLex]

/-- `load` in transient mode (xigt_validate.py:396): `look` is how the file is cut into chunks -/
def openText (look : Nat → Nat) (s : Str) : Py Opened := do
  let p ← readText s
  openXml look p

theorem drain_ok : ∀ {l : List (Py Obj)} {ks : List Obj}, drain l = .ok ks → l = ks.map .ok := by
  intro l
  induction l with
  | nil => intro ks h; cases h; rfl
  | cons x l ih =>
    intro ks h
    cases x with
    | error e => cases h
    | ok x =>
      unfold drain at h
      simp only [bind, Except.bind, pure, Except.pure] at h
      split at h
      · cases h
      · cases h; rw [ih (by assumption)]; rfl

/-- A file that is loaded whole is opened too, and validated as what was loaded. -/
theorem opened_loaded {look : Nat → Nat} {s : Str} {y : Obj} (h : loadsXml look s = .ok y) : ∃ o, openText look s = .ok o ∧
    o.corpus.data.id = y.data.id ∧ ∀ depth seen, validateCorpus depth seen o = validateCorpus depth seen (opened y) := by
  unfold loadsXml loadXml at h
  unfold openText
  simp only [bind, Except.bind] at h ⊢
  split at h
  · cases h
  · rename_i p _
    split at h
    · cases h
    · rename_i o ho
      split at h
      · cases h
      · rename_i ks hks
        obtain ⟨h1, -⟩ := construct_ok_iff.1 h
        subst h1
        refine ⟨o, ho, rfl, fun depth seen => ?_⟩
        simp only [validateCorpus, opened, drain_ok hks]
        rfl

/-- **C138** for XML: a corpus whose data XML keeps (C40), written with any indentation, and the file validated: the same report,
or the same exception, as of the corpus in memory. -/
theorem C138_xml_partial (x : Obj) (hc : x.cls = .corpus) (hw : x.WF) (hv : x.Valid) (hk : XmlKept [] x) (hn : NamesOK [] x)
    (look : Nat → Nat) (ind : Option Int) : ∃ s o, dumpsXml ind x = .ok s ∧ openText look s = .ok o ∧
      o.corpus.data.id = x.data.id ∧ ∀ depth seen, validateCorpus depth seen o = validateCorpus depth seen (opened x) := by
  obtain ⟨s, y, h1, h2, h3, -⟩ := C90_partial x hc hw hv hk hn look ind
  obtain ⟨o, h4, h5, h6⟩ := opened_loaded h2
  have hs : Sm x y := ⟨h3.symm, hw⟩
  exact ⟨s, o, h1, h4, h5.trans hs.id.symm, fun depth seen => (h6 depth seen).trans (validateCorpus_same hs seen).symm⟩

/-- **C138** for the whole command: saved to files, corpora get the answer they get in memory. -/
theorem C138_run_partial (ind : Option Int) (look : Nat → Nat) (level depth : Nat) : ∀ xs : List Obj,
    (∀ x ∈ xs, x.cls = .corpus ∧ x.WF ∧ x.Valid ∧ XmlKept [] x ∧ NamesOK [] x) →
    run level depth (xs.map fun x => dumpsXml ind x >>= openText look) = run level depth (xs.map fun x => .ok (opened x)) := by
  have : ∀ xs : List Obj, (∀ x ∈ xs, x.cls = .corpus ∧ x.WF ∧ x.Valid ∧ XmlKept [] x ∧ NamesOK [] x) → ∀ seen,
      runFiles level depth (xs.map fun x => dumpsXml ind x >>= openText look) seen =
        runFiles level depth (xs.map fun x => .ok (opened x)) seen := by
    intro xs
    induction xs with
    | nil => intro _ _; rfl
    | cons x xs ih =>
      intro h seen
      obtain ⟨hc, hw, hv, hk, hn⟩ := h x (List.mem_cons_self ..)
      obtain ⟨s, o, h1, h2, h3, h4⟩ := C138_xml_partial x hc hw hv hk hn look ind
      have hb : (dumpsXml ind x >>= openText look) = .ok o := by rw [h1]; exact h2
      have hi : ∀ seen, addId seen o.corpus = addId seen x := fun seen => by simp only [addId, h3]
      simp only [List.map_cons, hb, runFiles, h4, hi, ih (fun y hy => h y (List.mem_cons_of_mem _ hy))]
      rfl
  intro xs h
  simp only [run, this xs h []]

/-- **C138** for JSON: a corpus whose data JSON keeps (C38), written with any indentation and read again. -/
theorem C138_json_partial (x : Obj) (hc : x.cls = .corpus) (hw : x.WF) (hv : x.Valid) (hk : JsonKept noScope x) (ind : Option Int) :
    ∃ s y, dumpsJson ind x = .ok s ∧ loadsJson s = .ok y ∧
      ∀ depth seen, validateCorpus depth seen (opened x) = validateCorpus depth seen (opened y) := by
  obtain ⟨j, y, h1, h2, h3, -⟩ := C38_partial x hc hw hv hk
  have := C91_text x ind
  obtain ⟨s, y', g1, g2, -⟩ := C91_equal x ind hc hw hv hk
  rw [g1, h1] at this
  simp only [bind, Except.bind, h2, g2] at this
  cases this
  exact ⟨s, y, g1, g2, fun depth seen => validateCorpus_same ⟨h3.symm, hw⟩ seen⟩

end

section
attribute [local instance] asciiUni asciiXml

/-- a word with empty text, of which a part is selected -/
def spanOfEmpty : Obj := .mk { cls := .corpus } [] [.mk { cls := .igt, id := some (lit! "i") } [] [
  .mk { cls := .tier, id := some (lit! "w"), type := some (lit! "words") } []
    [.mk { cls := .item, id := some (lit! "w1"), text := some [] } [] []],
  .mk { cls := .tier, id := some (lit! "m"), type := some (lit! "morphemes"), attrs := [(SEGMENTATION, lit! "w")] } []
    [.mk { cls := .item, id := some (lit! "m1"), attrs := [(SEGMENTATION, lit! "w1[0:1]")], text := some (lit! "x") } [] []]]]

/-- **C138** is false in XML of an empty text: of the corpus in memory the validator reports a span beyond the end; with the file
it fails. -/
theorem C138_refuted_xml : ∃ (x : Obj) (o : Opened), x.WF ∧ (dumpsXml (some 2) x >>= openText id) = .ok o ∧
    failure (validateCorpus 9 [] (opened x)) = none ∧ failure (validateCorpus 9 [] o) = some .typeError := by
  obtain ⟨o, h1, h2⟩ := ok_of_B (r := dumpsXml (some 2) spanOfEmpty >>= openText id)
    (f := fun o => decide (failure (validateCorpus 9 [] o) = some .typeError)) (by decide +kernel)
  exact ⟨spanOfEmpty, o, wf_of_B (n := 9) (by decide +kernel), h1, by decide +kernel, of_decide_eq_true h2⟩

/-- **C138** is false in JSON too of an empty text. -/
theorem C138_refuted_json : ∃ x y : Obj, x.WF ∧ (dumpsJson (some 2) x >>= loadsJson) = .ok y ∧
    failure (validateCorpus 9 [] (opened x)) = none ∧ failure (validateCorpus 9 [] (opened y)) = some .typeError := by
  obtain ⟨y, h1, h2⟩ := ok_of_B (r := dumpsJson (some 2) spanOfEmpty >>= loadsJson)
    (f := fun y => decide (failure (validateCorpus 9 [] (opened y)) = some .typeError)) (by decide +kernel)
  exact ⟨spanOfEmpty, y, wf_of_B (n := 9) (by decide +kernel), h1, by decide +kernel, of_decide_eq_true h2⟩

/-- the hypotheses of `C138_json_partial` are met; those of `C138_xml_partial` are met by `exXml` (see StreamProps) -/
example (ind : Option Int) : ∃ s y, dumpsJson ind exJson = .ok s ∧ loadsJson s = .ok y ∧
    ∀ depth seen, validateCorpus depth seen (opened exJson) = validateCorpus depth seen (opened y) :=
  C138_json_partial exJson rfl exJson_wf exJson_valid exJson_kept ind

/-- and those of `C138_equal`, by a corpus with attributes in another order -/
example : ∃ x y : Obj, x ≠ y ∧ x.WF ∧ y.WF ∧ x.cls = y.cls ∧ Obj.eq x y = true :=
  ⟨.mk { cls := .corpus, attrs := [(lit! "a", lit! "1"), (lit! "b", lit! "2")] } [] [],
    .mk { cls := .corpus, attrs := [(lit! "b", lit! "2"), (lit! "a", lit! "1")] } [] [], by
      intro h; injection h with h; injection h with _ _ _ h; exact absurd h (by decide),
    wf_of_B (n := 9) (by decide +kernel), wf_of_B (n := 9) (by decide +kernel), rfl, by decide +kernel⟩

end

end Xigt.Vld
