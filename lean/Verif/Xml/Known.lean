import Verif.Xml.Again
/- C40 and the namespaces that ElementTree has prefixes for. -/

namespace Xigt

section
attribute [local instance] asciiUni asciiXml

def exKnown (u : Str) : Obj := .mk { cls := .corpus } []
  [.mk { cls := .igt, id := some (lit! "i1"), attrs := [('{' :: u ++ lit! "}k", lit! "v")] } [] []]

/-- C40 is false also of attributes in some namespaces that are not declared, that of Dublin Core and others: they are written with a
prefix (xigtxml.py:10-20, 378-383) that is not declared in the file either, so the file cannot be read -/
theorem C40_refuted_known : ∀ p ∈ [(lit! "http://purl.org/dc/elements/1.1/", lit! "dc"), (lit! "http://www.w3.org/2001/XMLSchema", lit! "xs"),
      (lit! "http://www.w3.org/2001/XMLSchema-instance", lit! "xsi"), (lit! "http://www.w3.org/1999/xhtml", lit! "html"),
      (lit! "http://www.w3.org/1999/02/22-rdf-syntax-ns#", lit! "rdf"), (lit! "http://schemas.xmlsoap.org/wsdl/", lit! "wsdl")],
    dumpsXml none (exKnown p.1) = .ok (lit! "<xigt-corpus><igt id=\"i1\" " ++ p.2 ++ lit! ":k=\"v\" /></xigt-corpus>") ∧
      ∀ look, (dumpsXml none (exKnown p.1)).bind (loadsXml look) = .error .parseError := by
  intro p hp
  have h1 : dumpsXml none (exKnown p.1) = .ok (lit! "<xigt-corpus><igt id=\"i1\" " ++ p.2 ++ lit! ":k=\"v\" /></xigt-corpus>") := by
    have : ∀ p ∈ [(lit! "http://purl.org/dc/elements/1.1/", lit! "dc"), (lit! "http://www.w3.org/2001/XMLSchema", lit! "xs"),
      (lit! "http://www.w3.org/2001/XMLSchema-instance", lit! "xsi"), (lit! "http://www.w3.org/1999/xhtml", lit! "html"),
      (lit! "http://www.w3.org/1999/02/22-rdf-syntax-ns#", lit! "rdf"), (lit! "http://schemas.xmlsoap.org/wsdl/", lit! "wsdl")],
        okWith (dumpsXml none (exKnown p.1)) (fun t => decide (t = lit! "<xigt-corpus><igt id=\"i1\" " ++ p.2 ++ lit! ":k=\"v\" /></xigt-corpus>")) = true := by
      decide +kernel
    obtain ⟨t, h1, h2⟩ := ok_of_B (this p hp)
    rw [h1, of_decide_eq_true h2]
  refine ⟨h1, fun look => ?_⟩
  have h2 : readText (lit! "<xigt-corpus><igt id=\"i1\" " ++ p.2 ++ lit! ":k=\"v\" /></xigt-corpus>") = .error .parseError := by
    have : ∀ q ∈ [lit! "dc", lit! "xs", lit! "xsi", lit! "html", lit! "rdf", lit! "wsdl"],
        failed (readText (lit! "<xigt-corpus><igt id=\"i1\" " ++ q ++ lit! ":k=\"v\" /></xigt-corpus>")) .parseError = true := by
      decide +kernel
    refine failed_of_B (this p.2 ?_)
    simp only [List.mem_cons, List.not_mem_nil, or_false] at hp ⊢
    rcases hp with rfl | rfl | rfl | rfl | rfl | rfl <;> simp
  rw [h1, Except.bind, loadsXml, h2]
  rfl

/-- the namespace of the prefix xml needs no declaration -/
example : ∃ t y, dumpsXml none (exKnown xmlNs) = .ok t ∧ loadsXml id t = .ok y ∧ Obj.eq y (exKnown xmlNs) = true := by
  obtain ⟨t, h1, h2⟩ := ok_of_B (r := dumpsXml none (exKnown xmlNs)) (f := fun t => okWith (loadsXml id t) fun y => Obj.eq y (exKnown xmlNs)) (by decide +kernel)
  obtain ⟨y, h2, h3⟩ := ok_of_B h2
  exact ⟨t, y, h1, h2, h3⟩

end
end Xigt
