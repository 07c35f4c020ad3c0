import Verif.Schema.Props
import Verif.Xml.StreamProps
/- C98: corpora that fit the schema and corpora that do not. -/

set_option linter.unusedSectionVars false

namespace Xigt.Rng

section
attribute [local instance] asciiUni asciiXml

/-- the word characters of ASCII; used for concrete examples only -/
@[reducible] def asciiXsd : Xsd where
  word c := decide (c.toNat < 128) && (c.isAlphanum || ['$', '+', '<', '=', '>', '^', '`', '|', '~'].contains c)
  digit c := Uni.isDigit c
  word_py := by
    intro c h hc
    have h' : (48 ≤ c.toNat ∧ c.toNat ≤ 57) ∨ (65 ≤ c.toNat ∧ c.toNat ≤ 90) ∨ c.toNat = 95 ∨ (97 ≤ c.toNat ∧ c.toNat ≤ 122) := by
      have : ((48 ≤ c.toNat && c.toNat ≤ 57) || (65 ≤ c.toNat && c.toNat ≤ 90) || c.toNat == 95 || (97 ≤ c.toNat && c.toNat ≤ 122)) = true := h
      simp only [Bool.or_eq_true, Bool.and_eq_true, decide_eq_true_eq, beq_iff_eq] at this
      omega
    have h95 : c.toNat ≠ 95 := by
      intro e
      apply hc
      rw [← Char.ofNat_toNat c, e]
    rw [Bool.and_eq_true, Bool.or_eq_true, decide_eq_true_eq]
    refine ⟨by omega, .inl ?_⟩
    have hn : c.toNat = c.val.toNat := rfl
    simp only [Char.isAlphanum, Char.isAlpha, Char.isUpper, Char.isLower, Char.isDigit, Bool.or_eq_true, Bool.and_eq_true, decide_eq_true_eq,
      ge_iff_le, UInt32.le_iff_toNat_le]
    simp only [hn] at h' h95
    rcases h' with h | h | h | h
    · exact .inr h
    · exact .inl (.inl h)
    · exact absurd h h95
    · exact .inl (.inr h)
  digit_py _ := rfl
  ascii := by intro c h; simp [h]

attribute [local instance] asciiXsd

theorem simple_wf {d : Data} (h : d.attrs.WF) (ht : d.text = none) (hn : d.name = none) (hc : d.cls ≠ .metaChild) {kids : List Obj}
    (hk : ∀ x ∈ kids, some x.cls = d.cls.contained ∧ x.WF) : (Obj.mk d [] kids).WF :=
  .mk h (fun _ => ht) ⟨fun h => (by rw [hn] at h; cases h), fun h => absurd h hc⟩ (by simp) (by simp) (fun x hx => (hk x hx).1) (by simp) (fun x hx => (hk x hx).2)

theorem simple_valid {d : Data} (hi : ∀ i, d.id = some i → idAccepted i = true) (hn : d.name = none) (hm : d.nsmap = none) {kids : List Obj}
    (hids : (kids.filterMap fun x => x.data.id).Nodup) (hk : ∀ x ∈ kids, x.Valid) : (Obj.mk d [] kids).Valid :=
  .mk hi (fun i h => by rw [hn] at h; cases h) (by simp) hids (fun m h => by rw [hm] at h; cases h) (by simp) hk

theorem chars_of {s : Str} (h : s.all isXmlChar = true) : XmlChars s := List.all_eq_true.1 h

/-- the corpus with one IGT, which has no identifier -/
def noId : Obj := .mk { cls := .corpus } [] [.mk { cls := .igt } [] []]

/-- **C98** refuted: a corpus with an IGT without identifier is written as a document that
xigt-structure.rnc does not allow, with whatever indentation. -/
theorem C98_refuted (ind : Option Int) : noId.cls = .corpus ∧ noId.WF ∧ noId.Valid ∧
    ∃ s doc, dumpsXml ind noId = .ok s ∧ docText s = .ok doc ∧ ¬ Valid structure_rnc doc := by
  have hw : noId.WF := simple_wf Dict.wf_nil rfl rfl (by decide) fun x hx => by
    cases List.mem_singleton.1 hx
    exact ⟨rfl, simple_wf Dict.wf_nil rfl rfl (by decide) (by simp)⟩
  have hv : noId.Valid := simple_valid (by simp) rfl rfl (by decide) fun x hx => by
    cases List.mem_singleton.1 hx
    exact simple_valid (by simp) rfl rfl (by decide) (by simp)
  have hk : XmlKept [] noId := by
    refine .mk (by constructor <;> simp) (by simp) fun x hx => ?_
    cases List.mem_singleton.1 hx
    exact .mk (by constructor <;> simp) (by simp) (by simp)
  refine ⟨rfl, hw, hv, ?_⟩
  obtain ⟨s, doc, h1, h2, h3⟩ := C98_iff noId rfl hw hv hk ind
  refine ⟨s, doc, h1, h2, fun h => ?_⟩
  obtain ⟨-, -, -, h⟩ := h3.1 h
  obtain ⟨⟨i, hi, -⟩, -⟩ := h _ (List.mem_singleton.2 rfl)
  cases hi

/-- one IGT with one tier -/
def oneTier (d : Data) : Obj := .mk { cls := .corpus } [] [.mk { cls := .igt, id := some (lit! "i1") } [] [.mk d [] []]]

theorem oneTier_ok {d : Data} (hc : d.cls = .tier) (hn : d.name = none) (ht : d.text = none) (hm : d.nsmap = none)
    (hi : ∀ i, d.id = some i → idAccepted i = true) (ha : d.attrs.WF) (hk : XmlDataKept [] d) :
    (oneTier d).cls = .corpus ∧ (oneTier d).WF ∧ (oneTier d).Valid ∧ XmlKept [] (oneTier d) := by
  refine ⟨rfl, ?_, ?_, ?_⟩
  · refine simple_wf Dict.wf_nil rfl rfl (by decide) fun x hx => ?_
    cases List.mem_singleton.1 hx
    refine ⟨rfl, simple_wf Dict.wf_nil rfl rfl (by decide) fun x hx => ?_⟩
    cases List.mem_singleton.1 hx
    exact ⟨congrArg some hc, simple_wf ha ht hn (by rw [hc]; decide) (by simp)⟩
  · refine simple_valid (by simp) rfl rfl (by simp [Obj.data_mk]) fun x hx => ?_
    cases List.mem_singleton.1 hx
    refine simple_valid (by intro i hi; cases hi; decide +kernel) rfl rfl ?_ fun x hx => ?_
    · cases h : d.id <;> simp [h]
    cases List.mem_singleton.1 hx
    exact simple_valid hi hn hm (by simp) (by simp)
  · refine .mk (by constructor <;> simp) (by simp) fun x hx => ?_
    cases List.mem_singleton.1 hx
    refine .mk ?_ (by simp) fun x hx => ?_
    · constructor <;> first | (simp; done) | skip
      intro i hi; cases hi; exact chars_of (by decide)
    cases List.mem_singleton.1 hx
    exact .mk (by rw [hm]; exact hk) (by simp) (by simp)

/-- a tier without the type the schema asks for -/
def noType : Data := { cls := .tier, id := some (lit! "w") }
/-- an identifier of which the code looks only at the beginning -/
def badId : Data := { cls := .tier, id := some (lit! "w w"), type := some (lit! "words") }
/-- a segmentation and a content, which the constructor rejects but `attributes` lets through -/
def bothRefs : Data :=
  { cls := .tier, id := some (lit! "w"), type := some (lit! "words"), attrs := [(lit! "segmentation", lit! "p"), (lit! "content", lit! "p")] }
/-- a tier as it should be -/
def goodTier : Data :=
  { cls := .tier, id := some (lit! "w"), type := some (lit! "words"), attrs := [(lit! "segmentation", lit! "p"), (lit! "x", lit! "y")] }

theorem noType_ok : (oneTier noType).cls = .corpus ∧ (oneTier noType).WF ∧ (oneTier noType).Valid ∧ XmlKept [] (oneTier noType) := oneTier_ok (d := noType) rfl rfl rfl rfl (by intro i hi; cases hi; decide +kernel) Dict.wf_nil
  (by constructor <;> first | (simp [noType]; done) | (intro i hi; cases hi; exact chars_of (by decide)))

theorem badId_ok : (oneTier badId).cls = .corpus ∧ (oneTier badId).WF ∧ (oneTier badId).Valid ∧ XmlKept [] (oneTier badId) := oneTier_ok (d := badId) rfl rfl rfl rfl (by intro i hi; cases hi; decide +kernel) Dict.wf_nil
  (by constructor <;> first | (simp [badId]; done) | (intro i hi; cases hi; exact chars_of (by decide)))

theorem plain_attr {k : Str} (h : asciiNc k = true) (h1 : k ≠ lit! "id") (h2 : k ≠ lit! "type") (h3 : k ≠ lit! "xmlns") : AttrKept [] k := .inl ⟨h, h1, h2, h3⟩

theorem bothRefs_ok : (oneTier bothRefs).cls = .corpus ∧ (oneTier bothRefs).WF ∧ (oneTier bothRefs).Valid ∧ XmlKept [] (oneTier bothRefs) := oneTier_ok (d := bothRefs) rfl rfl rfl rfl (by intro i hi; cases hi; decide +kernel) (by unfold Dict.WF; decide)
  (by
    constructor <;> first | (simp [bothRefs]; done) | (intro i hi; cases hi; exact chars_of (by decide)) | skip
    intro k v h
    simp only [bothRefs, List.mem_cons, List.not_mem_nil, or_false, Prod.mk.injEq] at h
    rcases h with ⟨rfl, rfl⟩ | ⟨rfl, rfl⟩
    · exact ⟨chars_of (by decide), plain_attr (by decide) (by decide) (by decide) (by decide)⟩
    · exact ⟨chars_of (by decide), plain_attr (by decide) (by decide) (by decide) (by decide)⟩)

theorem goodTier_ok : (oneTier goodTier).cls = .corpus ∧ (oneTier goodTier).WF ∧ (oneTier goodTier).Valid ∧ XmlKept [] (oneTier goodTier) := oneTier_ok (d := goodTier) rfl rfl rfl rfl (by intro i hi; cases hi; decide +kernel) (by unfold Dict.WF; decide)
  (by
    constructor <;> first | (simp [goodTier]; done) | (intro i hi; cases hi; exact chars_of (by decide)) | skip
    intro k v h
    simp only [goodTier, List.mem_cons, List.not_mem_nil, or_false, Prod.mk.injEq] at h
    rcases h with ⟨rfl, rfl⟩ | ⟨rfl, rfl⟩
    · exact ⟨chars_of (by decide), plain_attr (by decide) (by decide) (by decide) (by decide)⟩
    · exact ⟨chars_of (by decide), plain_attr (by decide) (by decide) (by decide) (by decide)⟩)

theorem tier_of {d : Data} (h : CorpusFits (oneTier d)) : TierFits (.mk d [] []) := by
  obtain ⟨-, -, -, h⟩ := h
  exact (h _ (List.mem_singleton.2 rfl)).2.2.2 _ (List.mem_singleton.2 rfl)

theorem not_valid {d : Data} (h : (oneTier d).cls = .corpus ∧ (oneTier d).WF ∧ (oneTier d).Valid ∧ XmlKept [] (oneTier d))
    (hf : ¬ TierFits (.mk d [] [])) (ind : Option Int) :
    ∃ s doc, dumpsXml ind (oneTier d) = .ok s ∧ docText s = .ok doc ∧ ¬ Valid structure_rnc doc := by
  obtain ⟨s, doc, h1, h2, h3⟩ := C98_iff (oneTier d) h.1 h.2.1 h.2.2.1 h.2.2.2 ind
  exact ⟨s, doc, h1, h2, fun hv => hf (tier_of (h3.1 hv))⟩

/-- **C98** refuted also by a tier without a type -/
theorem C98_refuted_type (ind : Option Int) :
    ∃ s doc, dumpsXml ind (oneTier noType) = .ok s ∧ docText s = .ok doc ∧ ¬ Valid structure_rnc doc :=
  not_valid noType_ok (fun h => by cases h.2.1) ind

/-- **C98** refuted also by an identifier that only begins like one -/
theorem C98_refuted_id (ind : Option Int) :
    ∃ s doc, dumpsXml ind (oneTier badId) = .ok s ∧ docText s = .ok doc ∧ ¬ Valid structure_rnc doc :=
  not_valid badId_ok (fun h => by
    obtain ⟨i, hi, c, r, he, -, hr⟩ := h.1
    cases hi
    cases he
    exact absurd (hr ' ' (by decide)) (by decide +kernel)) ind

/-- **C98** refuted also by a tier with a segmentation and a content -/
theorem C98_refuted_refs (ind : Option Int) :
    ∃ s doc, dumpsXml ind (oneTier bothRefs) = .ok s ∧ docText s = .ok doc ∧ ¬ Valid structure_rnc doc :=
  not_valid bothRefs_ok (fun h => by
    rcases h.2.2.1 with h | h
    · exact h.2.2 (lit! "p") (by decide)
    · exact h.2.2 (lit! "p") (by decide)) ind

/-- a corpus that fits: C98 is not empty -/
example (ind : Option Int) : ∃ s doc, dumpsXml ind (oneTier goodTier) = .ok s ∧ docText s = .ok doc ∧ Valid structure_rnc doc := by
  have h := goodTier_ok
  obtain ⟨s, doc, h1, h2, h3⟩ := C98_iff (oneTier goodTier) h.1 h.2.1 h.2.2.1 h.2.2.2 ind
  refine ⟨s, doc, h1, h2, h3.2 ?_⟩
  have hid : ∀ i : Char, letter i = true → IdFits [i] := fun i h => ⟨i, [], rfl, h, by simp⟩
  refine ⟨(by intro i hi; cases hi), rfl, by simp [oneTier], fun x hx => ?_⟩
  cases List.mem_singleton.1 hx
  refine ⟨⟨_, rfl, 'i', lit! "1", rfl, by decide, by decide⟩, by simp [NoRefs, Lacks], by simp, fun x hx => ?_⟩
  cases List.mem_singleton.1 hx
  refine ⟨⟨_, rfl, hid 'w' (by decide)⟩, rfl, .inr ⟨?_, by simp [Lacks, goodTier, ALN], by simp [Lacks, goodTier, CNT]⟩, by simp, by simp⟩
  intro v hv
  simp only [Obj.data_mk, goodTier, SEG, List.mem_cons, List.not_mem_nil, or_false, Prod.mk.injEq] at hv
  rcases hv with ⟨_, rfl⟩ | ⟨h, _⟩
  · refine seq_iff.2 ⟨lit! "p", [], rfl, seq_iff.2 ⟨lit! "p", [], rfl, idRx_iff.2 (hid 'p' (by decide)), .right .eps⟩, .nil⟩
  · exact absurd h (by decide)

end
end Xigt.Rng
