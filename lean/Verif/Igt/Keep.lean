import Verif.Igt.Same
import Verif.Xml.Again
import Verif.Json.TextProps
/- C133: what items say, and what refers to what, is the same after a corpus is saved and loaded. -/

set_option linter.unusedSectionVars false

namespace Xigt

section
variable [Uni]

/-- What a corpus says: at the same places there are the same items, with the same values (or
exceptions), and the referents and referrers of every ID, in every new igt, are the same. -/
def SaysSame (x y : Obj) : Prop :=
  x.kids.length = y.kids.length ∧ ∀ (a : Nat) g, x.kids[a]? = some g → ∃ g', y.kids[a]? = some g' ∧ g.kids.length = g'.kids.length ∧
    (∀ allowed s ras, ByType allowed → igtReferents allowed (newIgt allowed g) s ras = igtReferents allowed (newIgt allowed g') s ras ∧
      igtReferrers allowed (newIgt allowed g) s ras = igtReferrers allowed (newIgt allowed g') s ras) ∧
    ∀ (b : Nat) t, g.kids[b]? = some t → ∃ t', g'.kids[b]? = some t' ∧ t.kids.length = t'.kids.length ∧
      ∀ (c : Nat) i, t.kids[c]? = some i → ∃ i', t'.kids[c]? = some i' ∧ ∀ n, value n (some g) (some t) i = value n (some g') (some t') i'

theorem SmL.get {l l' : List Obj} (h : SmL l l') {n : Nat} {x : Obj} (hx : l[n]? = some x) : ∃ y, l'[n]? = some y ∧ Sm x y := by
  have := getElem?_same h n
  rw [hx] at this
  cases hy : l'[n]? with
  | none => rw [hy] at this; exact False.elim this
  | some y => rw [hy] at this; exact ⟨y, rfl, this⟩

theorem refs_same {x y : Obj} (hs : Sm x y) (allowed : Entry → List Str) (hal : ByType allowed) (s : Str) (ras : Option (List Str)) :
    igtReferents allowed (newIgt allowed x) s ras = igtReferents allowed (newIgt allowed y) s ras ∧
    igtReferrers allowed (newIgt allowed x) s ras = igtReferrers allowed (newIgt allowed y) s ras := by
  obtain ⟨-, h1, h2, -⟩ := C132_same x y hs allowed hal
  exact ⟨h1 s ras, h2 s ras⟩

theorem says_same {x y : Obj} (h : Sm x y) : SaysSame x y := by
  refine ⟨h.kids.1, fun a g hg => ?_⟩
  obtain ⟨g', hg', sg⟩ := h.kids.get hg
  refine ⟨g', hg', sg.kids.1, fun allowed s ras hal => refs_same sg allowed hal s ras, fun b t ht => ?_⟩
  obtain ⟨t', ht', st⟩ := sg.kids.get ht
  refine ⟨t', ht', st.kids.1, fun c i hi => ?_⟩
  obtain ⟨i', hi', si⟩ := st.kids.get hi
  exact ⟨i', hi', fun n => value_same n _ _ _ _ i i' sg st si⟩

variable [XmlLex]

/-- **C133** for XML: a corpus whose data XML keeps (C40), written with any indentation and read again. -/
theorem C133_xml_partial (x : Obj) (hc : x.cls = .corpus) (hw : x.WF) (hv : x.Valid) (hk : XmlKept [] x) (hn : NamesOK [] x)
    (look : Nat → Nat) (ind : Option Int) : ∃ s y, dumpsXml ind x = .ok s ∧ loadsXml look s = .ok y ∧ SaysSame x y := by
  obtain ⟨s, y, h1, h2, h3, -⟩ := C90_partial x hc hw hv hk hn look ind
  exact ⟨s, y, h1, h2, says_same ⟨h3.symm, hw⟩⟩

/-- **C133** for JSON: a corpus whose data JSON keeps (C38), written with any indentation and read again. -/
theorem C133_json_partial (x : Obj) (hc : x.cls = .corpus) (hw : x.WF) (hv : x.Valid) (hk : JsonKept noScope x) (ind : Option Int) :
    ∃ s y, dumpsJson ind x = .ok s ∧ loadsJson s = .ok y ∧ SaysSame x y := by
  obtain ⟨j, y, h1, h2, h3, -⟩ := C38_partial x hc hw hv hk
  have := C91_text x ind
  obtain ⟨s, y', g1, g2, -⟩ := C91_equal x ind hc hw hv hk
  rw [g1, h1] at this
  simp only [bind, Except.bind, h2, g2] at this
  cases this
  exact ⟨s, y, g1, g2, says_same ⟨h3.symm, hw⟩⟩

end

section
attribute [local instance] asciiUni asciiXml

/-- an item with empty text that also refers to a word -/
def emptyText : Obj := .mk { cls := .corpus } [] [.mk { cls := .igt, id := some (lit! "i") } [] [
  .mk { cls := .tier, id := some (lit! "w") } [] [.mk { cls := .item, id := some (lit! "w1"), text := some (lit! "dog") } [] []],
  .mk { cls := .tier, id := some (lit! "g"), attrs := [(lit! "content", lit! "w")] } []
    [.mk { cls := .item, id := some (lit! "g1"), attrs := [(lit! "content", lit! "w1")], text := some [] } [] []]]]

/-- the hypotheses of `C133_json_partial` are met by a corpus with metadata and namespaces (those of
`C133_xml_partial`: see C40) -/
example (ind : Option Int) : ∃ s y, dumpsJson ind exJson = .ok s ∧ loadsJson s = .ok y ∧ SaysSame exJson y :=
  C133_json_partial exJson rfl exJson_wf exJson_valid exJson_kept ind

/-- the value of the item at a place -/
def valueAt (x : Obj) (a b c : Nat) : Py (Option Str) :=
  match x.kids[a]? with
  | none => .error .indexError
  | some g => match g.kids[b]? with
    | none => .error .indexError
    | some t => match t.kids[c]? with
      | none => .error .indexError
      | some i => value 10 (some g) (some t) i

/-- C133 is false in XML of an empty text: it is lost, and then the item has the value of what it
refers to. -/
theorem C133_refuted_xml : ∃ x y : Obj, x.WF ∧ (dumpsXml (some 2) x >>= loadsXml id) = .ok y ∧ valueAt x 0 1 0 = .ok (some []) ∧
    valueAt y 0 1 0 = .ok (some (lit! "dog")) := by
  obtain ⟨y, h1, h2⟩ := ok_of_B (r := dumpsXml (some 2) emptyText >>= loadsXml id)
    (f := fun y => decide (valueAt y 0 1 0 = .ok (some (lit! "dog")))) (by decide +kernel)
  exact ⟨emptyText, y, wf_of_B (n := 9) (by decide +kernel), h1, by decide +kernel, of_decide_eq_true h2⟩

/-- C133 is false in JSON too of an empty text. -/
theorem C133_refuted_json : ∃ x y : Obj, x.WF ∧ (dumpsJson (some 2) x >>= loadsJson) = .ok y ∧ valueAt x 0 1 0 = .ok (some []) ∧
    valueAt y 0 1 0 = .ok (some (lit! "dog")) := by
  obtain ⟨y, h1, h2⟩ := ok_of_B (r := dumpsJson (some 2) emptyText >>= loadsJson)
    (f := fun y => decide (valueAt y 0 1 0 = .ok (some (lit! "dog")))) (by decide +kernel)
  exact ⟨emptyText, y, wf_of_B (n := 9) (by decide +kernel), h1, by decide +kernel, of_decide_eq_true h2⟩

end
end Xigt
