import Verif.Xml.Document
import Verif.Files.Sort
/-
C114: what becomes of comments and processing instructions when a document is read and written.
-/

set_option linter.unusedSectionVars false

namespace Xigt.Mu

/-- every `<` is followed by something else than `!` and `?` -/
def noBang : Str → Bool
  | '<' :: c :: r => c != '!' && c != '?' && noBang (c :: r)
  | ['<'] => false
  | _ :: r => noBang r
  | [] => true

theorem noBang_ne {c : Char} (h : c ≠ '<') (r : Str) : noBang (c :: r) = noBang r := by
  rw [noBang]
  · rintro c' r' rfl; exact absurd rfl h
  · rintro rfl; exact absurd rfl h

theorem noBang_lt (c : Char) (r : Str) (h1 : c ≠ '!') (h2 : c ≠ '?') : noBang ('<' :: c :: r) = noBang (c :: r) := by
  rw [noBang]; simp [h1, h2]

theorem noBang_free (s t : Str) (h : '<' ∉ s) : noBang (s ++ t) = noBang t := by
  induction s with
  | nil => rfl
  | cons c s ih =>
    have hc : c ≠ '<' := by rintro rfl; exact h (by simp)
    rw [List.cons_append, noBang_ne hc, ih fun h' => h (by simp [h'])]

theorem escText_free (s : Str) : '<' ∉ escText s := by
  intro h
  simp only [escText, List.mem_flatMap] at h
  obtain ⟨c, _, h⟩ := h
  split at h
  · exact absurd h (by decide)
  split at h
  · exact absurd h (by decide)
  split at h
  · exact absurd h (by decide)
  · rename_i h1 h2 h3
    exact h2 (List.mem_singleton.1 h).symm

theorem escAttr_free (s : Str) : '<' ∉ escAttr s := by
  intro h
  simp only [escAttr, List.mem_flatMap] at h
  obtain ⟨c, _, h⟩ := h
  split at h
  · exact absurd h (by decide)
  split at h
  · exact absurd h (by decide)
  split at h
  · exact absurd h (by decide)
  split at h
  · exact absurd h (by decide)
  split at h
  · exact absurd h (by decide)
  split at h
  · exact absurd h (by decide)
  split at h
  · exact absurd h (by decide)
  · rename_i h2 _ _ _ _ _
    exact h2 (List.mem_singleton.1 h).symm

theorem name_free {s : Str} (h : ∀ c ∈ s, nameEnd c = false) : '<' ∉ s := fun h' => absurd (h _ h') (by decide)

theorem serAttrs_free {attrs : Dict Str Str} (h : ∀ p ∈ attrs, p.1 ≠ [] ∧ ∀ c ∈ p.1, nameEnd c = false) : '<' ∉ serAttrs attrs := by
  intro h'
  simp only [serAttrs, List.mem_flatMap] at h'
  obtain ⟨p, hp, h'⟩ := h'
  simp only [List.mem_cons, List.mem_append, List.not_mem_nil, or_false] at h'
  rcases h' with h' | h' | h' | h' | h' | h'
  · exact absurd h' (by decide)
  · exact name_free (h p hp).2 h'
  · exact absurd h' (by decide)
  · exact absurd h' (by decide)
  · exact escAttr_free _ h'
  · exact absurd h' (by decide)

/-- the serialiser writes no comments -/
theorem noBang_ser : ∀ e : Elem, ElemOK e → ∀ t, noBang (ser e ++ t) = noBang t := by
  refine Elem.ind fun tag attrs text tail kids ih hok t => ?_
  cases hok with
  | mk h1 h2 h3 h4 h5 h6 h7 h8 =>
    have hkids : ∀ t, noBang (sers kids ++ t) = noBang t := by
      clear h1 h2 h3 h4 h5 h6 h7
      induction kids with
      | nil => intro t; rfl
      | cons k ks ihk =>
        intro t
        rw [sers, List.append_assoc, ih k (by simp) (h8 k (by simp)), ihk (fun x hx => ih x (by simp [hx])) (fun x hx => h8 x (by simp [hx]))]
    obtain ⟨c, tag, rfl⟩ := List.exists_cons_of_ne_nil h1
    have hc := h2 c (by simp)
    have c1 : c ≠ '!' := by rintro rfl; exact absurd hc (by decide)
    have c2 : c ≠ '?' := by rintro rfl; exact absurd hc (by decide)
    have hf := name_free h2
    simp only [ser, List.cons_append, List.append_assoc]
    rw [noBang_lt _ _ c1 c2, ← List.cons_append, noBang_free _ _ hf, noBang_free _ _ (serAttrs_free h3)]
    split
    · rw [noBang_free _ _ (by decide), noBang_free _ _ (escText_free _)]
    · rw [List.cons_append, noBang_ne (by decide), List.append_assoc, noBang_free _ _ (escText_free _), List.append_assoc, hkids]
      simp only [List.cons_append, List.append_assoc]
      rw [noBang_lt _ _ (by decide) (by decide), noBang_ne (by decide), ← List.cons_append, noBang_free _ _ hf]
      simp only [List.nil_append]
      rw [noBang_ne (by decide), noBang_free _ _ (escText_free _)]

theorem noBang_infix {s : Str} (h : noBang s = true) (c : Char) (hc : c = '!' ∨ c = '?') : ¬ ['<', c] <:+: s := by
  rintro ⟨a, b, rfl⟩
  induction a with
  | nil =>
    simp only [List.nil_append, List.cons_append, noBang, Bool.and_eq_true, bne_iff_ne] at h
    rcases hc with rfl | rfl
    · exact h.1.1 rfl
    · exact h.1.2 rfl
  | cons x a ih =>
    refine ih ?_
    simp only [List.cons_append, List.append_assoc] at h ⊢
    by_cases hx : x = '<'
    · subst hx
      cases ha : a ++ '<' :: c :: ([] ++ b) with
      | nil => simp at ha
      | cons y r =>
        rw [ha] at h
        rw [noBang, Bool.and_eq_true] at h
        exact h.2
    · rw [noBang_ne hx] at h; exact h

section
variable [Uni] [XmlLex]

/-- **C114** (the negation, in general): no corpus whatever is written with a comment, a processing
instruction, a CDATA section or a declaration, if it is written so that it can be read -/
theorem C114_never (x : Obj) (ind : Option Int) (e : Elem) (p : PElem) (hb : buildCorpus x = .ok e) (hp : parseElem [] (indent ind e) = .ok p) :
    ∃ t, dumpsXml ind x = .ok t ∧ ¬ lit! "<!" <:+: t ∧ ¬ lit! "<?" <:+: t := by
  have hok := elemOK_of _ _ _ (indent_keys' (buildCorpus_keys x e hb) ind) hp
  have h := noBang_ser _ hok []
  rw [List.append_nil] at h
  refine ⟨ser (indent ind e), by simp only [dumpsXml, hb, bind, Except.bind]; rfl, noBang_infix h '!' (.inl rfl), noBang_infix h '?' (.inr rfl)⟩

end
end Xigt.Mu

namespace Xigt.Files
section
attribute [local instance] asciiUni asciiXml

def commented : Str := lit! "<?xml version=\"1.0\" encoding=\"utf-8\"?>\n<!-- Language: Abkhaz -->\n<xigt-corpus><igt id=\"i1\" /></xigt-corpus>"

/-- **C114** refuted: `xigt sort --in-place` on a file in which nothing is to be sorted removes its comments -/
theorem C114_refuted : ∃ fs fs' t, fs.OK ∧ contents fs (lit! "in.xml") = some commented ∧
    sortF Srt.exCfg id 10 { igtKey := [lit! "@id"] } true (lit! "in.xml") fs = some (.ok [], fs') ∧ contents fs' (lit! "in.xml") = some t ∧
    ¬ lit! "Abkhaz" <:+: t := by
  have h : (match sortF Srt.exCfg id 10 { igtKey := [lit! "@id"] } true (lit! "in.xml") (oneFile commented) with
    | some (.ok [], fs') => decide (contents fs' (lit! "in.xml") = some (lit! "<xigt-corpus>\n  <igt id=\"i1\" />\n</xigt-corpus>\n"))
    | _ => false) = true := by decide +kernel
  split at h
  · rename_i fs' hf
    refine ⟨_, fs', _, oneFile_ok _, rfl, hf, of_decide_eq_true h, by decide +kernel⟩
  · cases h

end
end Xigt.Files
