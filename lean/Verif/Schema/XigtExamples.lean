import Verif.Schema.XigtProps
import Verif.Schema.Examples
/- C103: corpora that fit xigt.rnc and corpora that do not. -/

set_option linter.unusedSectionVars false

namespace Xigt.Rng

section
variable [Uni] [XmlLex] [Xsd]

/-- **C103**, the two schemata together: what is written is valid against both xigt.rnc and
xigt-structure.rnc only if there is no tier at all, as the one forbids a type and the other demands it. -/
theorem C103_both (x : Obj) (hc : x.cls = .corpus) (hw : x.WF) (hv : x.Valid) (hk : XmlKept [] x) (ind : Option Int) :
    ∃ s doc, dumpsXml ind x = .ok s ∧ docText s = .ok doc ∧
      (Valid xigt_rnc doc → Valid structure_rnc doc → ∀ g ∈ x.kids, g.kids = []) := by
  obtain ⟨s, doc, h1, h2, h3⟩ := C103_iff x hc hw hv hk ind
  obtain ⟨s', doc', g1, g2, g3⟩ := C98_iff x hc hw hv hk ind
  rw [h1] at g1; cases g1
  rw [h2] at g2; cases g2
  refine ⟨s, doc, h1, h2, fun a b g hg => List.eq_nil_iff_forall_not_mem.2 fun t ht => ?_⟩
  have e1 := ((h3.1 a).2.2.2 g hg).2.2.2.2 t ht
  have e2 := ((g3.1 b).2.2.2 g hg).2.2.2 t ht
  have := e2.2.1
  rw [e1.2.1] at this
  cases this

end

section
attribute [local instance] asciiUni asciiXml asciiXsd

/-- **C103** refuted: the structure xigt.rnc describes "without extensions" has no tier types, so that a
corpus with a tier of words (which xigt-structure.rnc allows) is not written as a valid document. -/
theorem C103_refuted (ind : Option Int) : ∃ s doc, dumpsXml ind (oneTier goodTier) = .ok s ∧ docText s = .ok doc ∧ ¬ Valid xigt_rnc doc := by
  have h := goodTier_ok
  obtain ⟨s, doc, h1, h2, h3⟩ := C103_iff (oneTier goodTier) h.1 h.2.1 h.2.2.1 h.2.2.2 ind
  refine ⟨s, doc, h1, h2, fun hv => ?_⟩
  have e := ((h3.1 hv).2.2.2 _ (List.mem_singleton.2 rfl)).2.2.2.2 _ (List.mem_singleton.2 rfl)
  cases e.2.1

/-- a note in the metadata of a corpus -/
def note (kids : List Obj) : Obj :=
  .mk { cls := .corpus } [.mk { cls := .metadata } [] [.mk { cls := .metaC, text := some (lit! "seen") } [] kids]] []

theorem note_ok : (note []).cls = .corpus ∧ (note []).WF ∧ (note []).Valid ∧ XmlKept [] (note []) := by
  refine ⟨rfl, ?_, ?_, ?_⟩
  · refine .mk Dict.wf_nil (fun _ => rfl) (by decide) (by simp [Cls.hasMd]) ?_ (by simp) ?_ (by simp)
    · intro x hx; cases List.mem_singleton.1 hx; rfl
    · intro x hx
      cases List.mem_singleton.1 hx
      refine simple_wf Dict.wf_nil rfl rfl (by decide) fun x hx => ?_
      cases List.mem_singleton.1 hx
      exact ⟨rfl, .mk Dict.wf_nil (by simp [Cls.hasText]) (by decide) (by simp) (by simp) (by simp) (by simp) (by simp)⟩
  · refine .mk (by simp) (by simp) (by decide) (by simp) (by simp) ?_ (by simp)
    intro x hx
    cases List.mem_singleton.1 hx
    refine simple_valid (by simp) rfl rfl (by decide) fun x hx => ?_
    cases List.mem_singleton.1 hx
    exact simple_valid (by simp) rfl rfl (by simp) (by simp)
  · refine .mk (by constructor <;> simp) (fun x hx => ?_) (by simp)
    cases List.mem_singleton.1 hx
    refine .mk (by constructor <;> simp) (by simp) fun x hx => ?_
    cases List.mem_singleton.1 hx
    refine .mk ?_ (by simp) (by simp)
    constructor <;> first | (simp; done) | skip
    · rintro - t ⟨⟩
      exact ⟨'s', by decide, by decide +kernel⟩
    · rintro t ⟨⟩
      exact ⟨chars_of (by decide), by decide⟩

/-- **C103** refuted also by text in a `meta`: `mixed { AnyElement }*` asks for an element after it.
xigt-structure.rnc, with `text | AnyElement*`, allows it. -/
theorem C103_refuted_text (ind : Option Int) : ∃ s doc, dumpsXml ind (note []) = .ok s ∧ docText s = .ok doc ∧
    Valid structure_rnc doc ∧ ¬ Valid xigt_rnc doc := by
  obtain ⟨hc, hw, hv, hk⟩ := note_ok
  obtain ⟨s, doc, h1, h2, h3⟩ := C103_iff (note []) hc hw hv hk ind
  obtain ⟨s', doc', g1, g2, g3⟩ := C98_iff (note []) hc hw hv hk ind
  rw [h1] at g1; cases g1
  rw [h2] at g2; cases g2
  refine ⟨s, doc, h1, h2, g3.2 ?_, fun hv => ?_⟩
  · refine ⟨by simp [note, OptId], rfl, fun m hm => ?_, by simp [note]⟩
    cases List.mem_singleton.1 hm
    refine ⟨by simp [OptId], by simp [NoRefs, Lacks], fun m hm => ?_⟩
    cases List.mem_singleton.1 hm
    exact ⟨by simp [OptId], by simp [NoRefs, Lacks], .inl rfl⟩
  · have e := ((h3.1 hv).2.2.1 _ (List.mem_singleton.2 rfl)).2.2.2 _ (List.mem_singleton.2 rfl)
    rcases e.2.2.2 with e | e
    · cases e
    · exact e rfl

/-- a corpus that fits, with the untyped tier xigt-structure.rnc does not allow: C103 is not empty -/
example (ind : Option Int) : ∃ s doc, dumpsXml ind (oneTier noType) = .ok s ∧ docText s = .ok doc ∧ Valid xigt_rnc doc ∧ ¬ Valid structure_rnc doc := by
  obtain ⟨hc, hw, hv, hk⟩ := noType_ok
  obtain ⟨s, doc, h1, h2, h3⟩ := C103_iff (oneTier noType) hc hw hv hk ind
  obtain ⟨s', doc', g1, g2, g3⟩ := C98_refuted_type ind
  rw [h1] at g1; cases g1
  rw [h2] at g2; cases g2
  refine ⟨s, doc, h1, h2, h3.2 ?_, g3⟩
  have hno : ∀ F, RefsX F ([] : List (Str × Str)) := fun F => ⟨by simp, .inl (by simp [Lacks])⟩
  refine ⟨(by rintro i ⟨⟩), by simp [oneTier, OnlyBase], by simp [oneTier], fun x hx => ?_⟩
  cases List.mem_singleton.1 hx
  refine ⟨⟨_, rfl, 'i', lit! "1", rfl, by decide, by decide⟩, (by rintro v ⟨⟩), by simp [OnlyBase], by simp, fun x hx => ?_⟩
  cases List.mem_singleton.1 hx
  exact ⟨⟨_, rfl, 'w', [], rfl, by decide, by decide⟩, rfl, hno _, by simp, by simp⟩

end
end Xigt.Rng
