import Verif.Scripts.ValidateSpans
/- Cases of C52, C53, C54, C69, and where the validator fails. -/

namespace Xigt.Vld

attribute [local instance] asciiUni

def vItem (id : Str) (text : Option Str) (attrs : Dict Str Str) : Obj :=
  .mk { cls := .item, id := some id, text := text, attrs := attrs } [] []
def vTier (id : Str) (attrs : Dict Str Str) (items : List Obj) : Obj :=
  .mk { cls := .tier, id := some id, type := some (lit! "t"), attrs := attrs } [] items
def vIgt (id : Str) (tiers : List Obj) : Obj := .mk { cls := .igt, id := some id } [] tiers
def vCorpus : Obj := .mk { cls := .corpus, id := some (lit! "c") } [] []

/-- a tier of words and one with an item aligned to them -/
def vWords : Obj := vTier (lit! "w") [] [vItem (lit! "w1") (some (lit! "dog")) [], vItem (lit! "w2") (some (lit! "cats")) []]
def vRef (e : Str) : Obj := vItem (lit! "x1") (some (lit! "x")) [(ALIGNMENT, e)]
def vWith (e : Str) : Obj := vIgt (lit! "i1") [vWords, vTier (lit! "x") [(ALIGNMENT, lit! "w")] [vRef e]]
def vAligned (e : Str) : Obj := vTier (lit! "x") [(ALIGNMENT, lit! "w")] [vRef e]

/-- the records of a report and those below, in order -/
def flat (r : Py Report) : Py (List (List Rec)) :=
  r.map fun r => r.records :: (r.children.flatMap fun c => c.records :: (c.children.flatMap fun d =>
    d.records :: d.children.map Report.records))

/-- records that are not empty -/
def found (r : Py Report) : Option (List Rec) :=
  match flat r with
  | .ok l => some l.flatten
  | .error _ => none

def failure (r : Py Report) : Option PyErr :=
  match r with
  | .ok _ => none
  | .error e => some e

def check (igts : List Obj) : Py Report := validateCorpus 9 [] ⟨vCorpus, igts.map .ok⟩

/-! ### C53, C69 -/

/-- C53 fails: the second character of `w1` is selected twice, but nothing is reported. -/
theorem C53_refuted : ∃ g t x u, itemRef g t x ALIGNMENT = some (lit! "w1[0:2]+w1[1:3]", u) ∧
    spans (lit! "w1[0:2]+w1[1:3]") = [lit! "w1[0:2]", lit! "+", lit! "w1[1:3]"] ∧
    (contGet u.kids (lit! "w1")).map (fun y => y.data.text) = some (some (lit! "dog")) ∧
    spansOverlap 9 g t x ALIGNMENT = .ok none ∧ found (check [g]) = some [] :=
  ⟨vWith (lit! "w1[0:2]+w1[1:3]"), vAligned (lit! "w1[0:2]+w1[1:3]"), vRef (lit! "w1[0:2]+w1[1:3]"), vWords,
    rfl, by decide +kernel, by decide +kernel, rfl, by decide +kernel⟩

/-- whole items selected twice are reported, beyond the end too -/
example : found (check [vWith (lit! "w1+w2,w1")]) = some [⟨WARNING, .overlap [lit! "w1"]⟩] := by decide +kernel
example : found (check [vWith (lit! "w1[0:2,1:4]+w2[5:6]+w2[0:4]")]) =
    some [⟨WARNING, .spansOut [lit! "w1[1:4]", lit! "w2[5:6]"]⟩] := by decide +kernel

/-- `w1[0:2]` -/
def vSel : Sel := ⟨lit! "w1", some ⟨⟨⟨false, ['0']⟩, ⟨false, ['2']⟩⟩, []⟩⟩
def vE : Expr := ⟨vSel, [(['+'], ⟨lit! "w2", none⟩)]⟩

theorem vId {i : Str} (c : Char) (cs : Str) (h : i = c :: cs) (h1 : letter c = true) (h2 : (cs.all idChar) = true) : IdOK i :=
  ⟨c, cs, h, h1, List.all_eq_true.1 h2⟩

theorem vE_std : Std vE where
  ok := by
    have h1 : vSel.OK := ⟨vId 'w' ['1'] rfl (by decide) (by decide), by
      intro r hr; cases hr
      exact ⟨⟨⟨by decide, by decide⟩, ⟨by decide, by decide⟩⟩, by simp⟩⟩
    refine ⟨h1, ?_⟩
    intro p hp
    simp only [vE, List.mem_singleton] at hp
    subst hp
    exact ⟨⟨⟨'+', [], rfl, by decide, by decide⟩, by decide⟩, vId 'w' ['2'] rfl (by decide) (by decide), by simp⟩
  seps := by simp [vE]
  delims := by
    intro s hs r hr p hp
    simp only [vE, Expr.sels, List.map_cons, List.map_nil, List.mem_cons, List.not_mem_nil, or_false] at hs
    rcases hs with rfl | rfl
    · cases hr; cases hp
    · cases hr

example : vE.render = lit! "w1[0:2]+w2" := by decide +kernel

theorem vWords_value : ∀ y ∈ vWords.kids, ∃ v, value 9 (some (vWith vE.render)) (some vWords) y = .ok (some v) := by
  intro y hy
  simp only [vWords, vTier, Obj.kids, List.mem_cons, List.not_mem_nil, or_false] at hy
  rcases hy with rfl | rfl <;> exact ⟨_, rfl⟩

/-- the hypotheses of C53 and C69 are met -/
example : spansInItem 9 (vWith vE.render) (vAligned vE.render) (vRef vE.render) ALIGNMENT = .ok none ∧
    ∃ o, spansOverlap 9 (vWith vE.render) (vAligned vE.render) (vRef vE.render) ALIGNMENT = .ok o := by
  have hr : itemRef (vWith vE.render) (vAligned vE.render) (vRef vE.render) ALIGNMENT = some (vE.render, vWords) := rfl
  refine ⟨?_, ?_⟩
  · rw [C69_spans 9 _ _ _ _ vWords vE vE_std hr fun s _ _ y hy => vWords_value y (List.mem_of_find?_eq_some hy), if_neg]
    rintro ⟨s, hs, r, y, v, h1, h2, h3, h4⟩
    simp only [vE, vSel, Expr.split, Sel.split, Expr.sels, List.flatMap_cons, List.flatMap_nil, List.map_nil, List.nil_append,
      List.append_nil, List.map_cons, List.mem_cons, List.not_mem_nil, or_false] at hs
    rcases hs with rfl | rfl
    · cases h1
      have : y = vItem (lit! "w1") (some (lit! "dog")) [] := by
        have : some (vItem (lit! "w1") (some (lit! "dog")) []) = some y := h2
        cases this; rfl
      subst this
      have : v = lit! "dog" := by
        have : (Except.ok (some (lit! "dog")) : Py (Option Str)) = .ok (some v) := h3
        cases this; rfl
      subst this
      revert h4; decide
    · cases h1
  · obtain ⟨o, h, _⟩ := C53_partial 9 _ _ _ _ vWords vE vE_std hr (by
      intro y hy i hi
      simp only [vWords, vTier, Obj.kids, List.mem_cons, List.not_mem_nil, or_false] at hy
      rcases hy with rfl | rfl
      · cases hi; exact vId 'w' ['1'] rfl (by decide) (by decide)
      · cases hi; exact vId 'w' ['2'] rfl (by decide) (by decide))
      fun s _ _ y hy => let ⟨v, h⟩ := vWords_value y (List.mem_of_find?_eq_some hy); ⟨some v, h⟩
    exact ⟨o, h⟩

/-! ### C54 -/

/-- every kind of finding -/
example : found (check [vIgt (lit! "i1") [vWords,
      vTier (lit! "x") [(ALIGNMENT, lit! "w")] [vRef (lit! "w1 w3"), vItem (lit! "w2") none [(CONTENT, lit! "q1")]],
      .mk { cls := .tier, attrs := [(SEGMENTATION, lit! "zz")] } [] [.mk { cls := .item } [] []]],
    vIgt (lit! "i1") []]) = none := by decide +kernel

example : found (check [vIgt (lit! "i1") [vWords,
      vTier (lit! "x") [(ALIGNMENT, lit! "w")] [vRef (lit! "w1,w3"), vItem (lit! "w2") none [(CONTENT, lit! "q1")]],
      .mk { cls := .tier, attrs := [(SEGMENTATION, lit! "zz")] } [] [.mk { cls := .item } [] []]],
    vIgt (lit! "i1") []]) = some
    [⟨ERROR, .refattrs [CONTENT]⟩, ⟨ERROR, .idsMissing ALIGNMENT (lit! "w") [lit! "w3"]⟩, ⟨ERROR, .notUnique⟩,
     ⟨WARNING, .noId⟩, ⟨WARNING, .noType⟩, ⟨ERROR, .tierRef SEGMENTATION⟩, ⟨WARNING, .noId⟩,
     ⟨ERROR, .notUnique⟩] := by decide +kernel

/-- the hypothesis of C54 is met -/
theorem vWith_plain (e : Str) : PlainRefs (vWith e) := by
  intro t ht ra hra s hs
  simp only [vWith, vIgt, Obj.kids, List.mem_cons, List.not_mem_nil, or_false] at ht
  rcases ht with rfl | rfl
  · simp [vWords, vTier, Obj.data, Dict.get?] at hs
  · have : s = lit! "w" := by
      simp only [refAttrs, List.mem_cons, List.not_mem_nil, or_false] at hra
      rcases hra with rfl | rfl | rfl
      · have : some (lit! "w") = some s := hs
        cases this; rfl
      · have : (none : Option Str) = some s := hs
        cases this
      · have : (none : Option Str) = some s := hs
        cases this
    subst this
    refine ⟨fun h => absurd rfl (h vWords (by simp [vWith, vIgt, Obj.kids])), ?_⟩
    intro u hu hi
    simp only [vWith, vIgt, Obj.kids, List.mem_cons, List.not_mem_nil, or_false] at hu
    rcases hu with rfl | rfl
    · simp [vWords, vTier, Obj.kids]
    · have hi : some (lit! "x") = some (lit! "w") := hi
      exact absurd hi (by decide)

/-- and that of the theorem about finishing -/
example : ∀ g ∈ [vWith vE.render], Checkable 9 g := by
  intro g hg
  simp only [List.mem_singleton] at hg
  subst hg
  have hval : ∀ t ∈ (vWith vE.render).kids, ∀ x ∈ t.kids, ∃ v, value 9 (some (vWith vE.render)) (some t) x = .ok (some v) := by
    intro t ht x hx
    simp only [vWith, vIgt, Obj.kids, List.mem_cons, List.not_mem_nil, or_false] at ht
    rcases ht with rfl | rfl
    · exact vWords_value x hx
    · simp only [vTier, Obj.kids, List.mem_singleton] at hx
      subst hx
      exact ⟨lit! "x", rfl⟩
  refine ⟨?_, ?_, ?_, fun t ht x hx => let ⟨v, h⟩ := hval t ht x hx; ⟨some v, h⟩, ?_⟩
  · intro t ht i hi
    simp only [vWith, vIgt, Obj.kids, List.mem_cons, List.not_mem_nil, or_false] at ht
    rcases ht with rfl | rfl
    · cases hi; exact vId 'w' [] rfl (by decide) (by decide)
    · cases hi; exact vId 'x' [] rfl (by decide) (by decide)
  · intro t ht x hx i hi
    simp only [vWith, vIgt, Obj.kids, List.mem_cons, List.not_mem_nil, or_false] at ht
    rcases ht with rfl | rfl
    · simp only [vWords, vTier, Obj.kids, List.mem_cons, List.not_mem_nil, or_false] at hx
      rcases hx with rfl | rfl
      · cases hi; exact vId 'w' ['1'] rfl (by decide) (by decide)
      · cases hi; exact vId 'w' ['2'] rfl (by decide) (by decide)
    · simp only [vTier, Obj.kids, List.mem_singleton] at hx
      subst hx
      cases hi; exact vId 'x' ['1'] rfl (by decide) (by decide)
  · intro t ht x hx ra hra e he _
    simp only [vWith, vIgt, Obj.kids, List.mem_cons, List.not_mem_nil, or_false] at ht
    rcases ht with rfl | rfl
    · simp only [vWords, vTier, Obj.kids, List.mem_cons, List.not_mem_nil, or_false] at hx
      rcases hx with rfl | rfl <;> cases he
    · simp only [vTier, Obj.kids, List.mem_singleton] at hx
      subst hx
      refine ⟨vE, vE_std, ?_⟩
      simp only [refAttrs, List.mem_cons, List.not_mem_nil, or_false] at hra
      rcases hra with rfl | rfl | rfl
      · have : some vE.render = some e := he
        cases this; rfl
      · have : (none : Option Str) = some e := he
        cases this
      · have : (none : Option Str) = some e := he
        cases this
  · intro t ht x hx ra E u hu _ s _ _ y hy hn
    obtain ⟨v, hv⟩ := hval u (itemRef_mem hu).1 y (List.mem_of_find?_eq_some hy)
    rw [hv] at hn; cases hn

/-- C54 fails: a number is taken as a position, so a reference to an unknown tier is not reported. -/
theorem C54_refuted : ∃ g, (∀ u ∈ g.kids, u.data.id ≠ some (lit! "0")) ∧
    (∃ t ∈ g.kids, Dict.get? t.data.attrs ALIGNMENT = some (lit! "0")) ∧ found (check [g]) = some [] :=
  ⟨vIgt (lit! "i1") [vWords, vTier (lit! "x") [(ALIGNMENT, lit! "0")] [vRef (lit! "w1")]], by decide, by decide, by decide +kernel⟩

/-- C54 fails: references into an empty tier are not reported. -/
theorem C54_refuted_empty : ∃ g x, Dict.get? x.data.attrs ALIGNMENT = some (lit! "w1") ∧
    g = vIgt (lit! "i1") [vTier (lit! "w") [] [], vTier (lit! "x") [(ALIGNMENT, lit! "w")] [x]] ∧ found (check [g]) = some [] :=
  ⟨_, vRef (lit! "w1"), rfl, rfl, by decide +kernel⟩

/-- The validator stops with an exception at: a list of IDs separated by spaces (which `ids` and `resolve`
accept); a span of an item without value; a missing item if the ID of the tier has braces; a number with a dot. -/
theorem C70_failures : failure (check [vWith (lit! "w1 w2")]) = some .attributeError ∧
    failure (check [vIgt (lit! "i1") [vTier (lit! "w") [] [vItem (lit! "w1") none []], vTier (lit! "x") [(ALIGNMENT, lit! "w")] [vRef (lit! "w1[0:1]")]]]) = some .typeError ∧
    failure (check [vIgt (lit! "i1") [vTier (lit! "a{b}") [] [vItem (lit! "w1") none []], vTier (lit! "x") [(ALIGNMENT, lit! "a{b}")] [vRef (lit! "w2")]]]) = some .keyError ∧
    failure (check [vWith (lit! "w1[0:1.5]")]) = some .valueError := by decide +kernel

/-! ### C52 -/

/-- A file that cannot be parsed does not count as failed. -/
theorem C52_unreadable : run ERROR 9 [.error .parseError] = .ok true := rfl

/-- but it is not passed over if the error is met later -/
example : failure (validateCorpus 9 [] ⟨vCorpus, [.ok (vWith (lit! "w1")), .error .parseError]⟩) = some .parseError := by decide +kernel

/-- reports with warnings pass at level ERROR only -/
def verdict (r : Py Bool) : Option Bool :=
  match r with
  | .ok b => some b
  | .error _ => none

example : verdict (run ERROR 9 [.ok ⟨vCorpus, [.ok (vWith (lit! "w1+w1"))]⟩]) = some true ∧
    verdict (run WARNING 9 [.ok ⟨vCorpus, [.ok (vWith (lit! "w1+w1"))]⟩]) = some false ∧
    verdict (run ERROR 9 [.ok ⟨vCorpus, [.ok (vWith (lit! "w1"))]⟩, .ok ⟨vCorpus, []⟩]) = some false := by decide +kernel

end Xigt.Vld
