import Verif.Schema.Rewrite
import Verif.Files.Sort
import Verif.Schema.LoadExamples
import Verif.Schema.OdinGeneral
/- C150: reading, sorting and writing keep documents valid. -/

set_option linter.unusedSectionVars false

namespace Xigt.Rng
section
variable [Uni] [XmlLex] [Xsd]

/-- the schemata of /repo/schema and of the examples (`xsd:dateTime` of the schema for ODIN is left open) -/
inductive Schema : Grammar → Prop
  | struct : Schema structure_rnc
  | xigt : Schema xigt_rnc
  | default : Schema default_rnc
  | abkhaz : Schema abkhaz_rnc
  | syn : Schema syntax_rnc
  | dep : Schema dependencies_rnc
  | odin (dateTime) : Schema (odin_rnc dateTime)

theorem outline {S : Grammar} (h : Schema S) {doc : Node} (hd : Distinct doc) (hv : Valid S doc) : CorpusS doc := by
  have he : ∀ p : Names, (grammar p).defs ANY = AnyElement := fun p => by simp [grammar]
  cases h with
  | struct => exact (corpusS_of hd ((valid_iff hd).1 hv)).1
  | xigt => exact valid_outline good_xigt hv
  | default => exact valid_outline (good_default (he _)) hv
  | abkhaz => exact valid_outline (good_abkhaz (he _)) hv
  | syn => exact valid_outline (good_syntax (he _)) hv
  | dep => exact valid_outline (good_dependencies (he _)) hv
  | odin dt => exact valid_outline (good_odin (he _) dt) hv

/-! ### Order -/

theorem reord_all {n : Nat} {F : Obj → Prop} (hF : ∀ x y, Srt.Reord n x y → (F x ↔ F y)) {x y : Obj} (h : Srt.Reord (n + 1) x y) :
    (∀ k ∈ x.kids, F k) ↔ ∀ k ∈ y.kids, F k := by
  obtain ⟨-, -, l, hp, ha⟩ := h
  have h1 : (∀ k ∈ x.kids, F k) ↔ ∀ k ∈ l, F k := ⟨fun g k hk => g k (hp.subset hk), fun g k hk => g k (hp.symm.subset hk)⟩
  rw [h1]
  generalize y.kids = ys at ha
  clear h1 hp
  induction ha with
  | nil => simp
  | cons r _ ih => simp only [List.forall_mem_cons, hF _ _ r, ih]

theorem reord_zero {F : Obj → Prop} : ∀ x y, Srt.Reord 0 x y → (F x ↔ F y) := by
  intro x y h
  rw [show y = x from h]

theorem reord_structure {x y : Obj} (h : Srt.Reord 3 x y) : CorpusFits x ↔ CorpusFits y := by
  have ht : ∀ x y, Srt.Reord 1 x y → (TierFits x ↔ TierFits y) := fun x y h => by
    rw [TierFits, TierFits, reord_all reord_zero h, h.1, h.2.1]
  have hi : ∀ x y, Srt.Reord 2 x y → (IgtFits x ↔ IgtFits y) := fun x y h => by
    rw [IgtFits, IgtFits, reord_all ht h, h.1, h.2.1]
  rw [CorpusFits, CorpusFits, reord_all hi h, h.1, h.2.1]

theorem reord_tierX {x y : Obj} (h : Srt.Reord 1 x y) : TierFitsX x ↔ TierFitsX y := by
  rw [TierFitsX, TierFitsX, reord_all reord_zero h, h.1, h.2.1]

theorem reord_xigt {x y : Obj} (h : Srt.Reord 3 x y) : CorpusFitsX x ↔ CorpusFitsX y := by
  have hi : ∀ x y, Srt.Reord 2 x y → (IgtFitsX x ↔ IgtFitsX y) := fun x y h => by
    rw [IgtFitsX, IgtFitsX, reord_all (fun _ _ => reord_tierX) h, h.1, h.2.1]
  rw [CorpusFitsX, CorpusFitsX, reord_all hi h, h.1, h.2.1]

theorem reord_table {x y : Obj} (h : Srt.Reord 1 x y) : (∃ t ∈ tierTable, (∀ v, x.data.type = some v → t.1 v) ∧ ∀ i ∈ x.kids, ItemFitsD t.2 i) ↔
    ∃ t ∈ tierTable, (∀ v, y.data.type = some v → t.1 v) ∧ ∀ i ∈ y.kids, ItemFitsD t.2 i := by
  rw [h.1]
  exact exists_congr fun t => and_congr_right fun _ => and_congr_right fun _ => reord_all reord_zero h

theorem reord_default {x y : Obj} (h : Srt.Reord 3 x y) : CorpusFitsD x ↔ CorpusFitsD y := by
  have ht : ∀ x y, Srt.Reord 1 x y → (TierFitsD x ↔ TierFitsD y) := fun x y h => by
    rw [TierFitsD, TierFitsD, reord_table h, h.1, h.2.1]
  have hi : ∀ x y, Srt.Reord 2 x y → (IgtFitsD x ↔ IgtFitsD y) := fun x y h => by
    rw [IgtFitsD, IgtFitsD, reord_all ht h, h.1, h.2.1]
  rw [CorpusFitsD, CorpusFitsD, reord_all hi h, h.1, h.2.1]

theorem reord_abkhaz {x y : Obj} (h : Srt.Reord 3 x y) : CorpusFitsA x ↔ CorpusFitsA y := by
  have ht : ∀ x y, Srt.Reord 1 x y → (TierFitsA x ↔ TierFitsA y) := fun x y h => by
    rw [TierFitsA, TierFitsA, reord_table h, TreeTier, TreeTier, reord_all reord_zero h, h.1, h.2.1]
  have hi : ∀ x y, Srt.Reord 2 x y → (IgtFitsA x ↔ IgtFitsA y) := fun x y h => by
    rw [IgtFitsA, IgtFitsA, reord_all ht h, h.1, h.2.1]
  rw [CorpusFitsA, CorpusFitsA, reord_all hi h, h.1, h.2.1]

theorem reord_extension {ty k k' : Str} {R : List (Str × Str) → Prop} {x y : Obj} (h : Srt.Reord 3 x y) :
    CorpusFitsE (TierFitsE ty k k' R) x ↔ CorpusFitsE (TierFitsE ty k k' R) y := by
  have ht : ∀ x y, Srt.Reord 1 x y → (TierFitsE ty k k' R x ∨ TierFitsX x ↔ TierFitsE ty k k' R y ∨ TierFitsX y) := fun x y h => by
    rw [reord_tierX h, TierFitsE, TierFitsE, reord_all reord_zero h, h.1, h.2.1]
  have hi : ∀ x y, Srt.Reord 2 x y → (IgtFitsE (TierFitsE ty k k' R) x ↔ IgtFitsE (TierFitsE ty k k' R) y) := fun x y h => by
    rw [IgtFitsE, IgtFitsE, reord_all (F := fun t => TierFitsE ty k k' R t ∨ TierFitsX t) ht h, h.1, h.2.1]
  rw [CorpusFitsE, CorpusFitsE, reord_all hi h, h.1, h.2.1]

theorem reord_odin {dt : Str → Prop} {x y : Obj} (h : Srt.Reord 3 x y) : CorpusFitsO dt x ↔ CorpusFitsO dt y := by
  have ht : ∀ x y, Srt.Reord 1 x y → (TierFitsO dt x ↔ TierFitsO dt y) := fun x y h => by
    rw [TierFitsO, TierFitsO, h.1, h.2.1]
    exact and_congr_right fun _ => and_congr_right fun _ => exists_congr fun k => and_congr_right fun _ => and_congr_right fun _ => and_congr_right fun _ => reord_all reord_zero h
  have hi : ∀ x y, Srt.Reord 2 x y → (IgtFitsO dt x ↔ IgtFitsO dt y) := fun x y h => by
    rw [IgtFitsO, IgtFitsO, reord_all ht h, h.1, h.2.1]
  rw [CorpusFitsO, CorpusFitsO, reord_all hi h, h.1, h.2.1]

theorem reord_refl : ∀ n x, Srt.Reord n x x
  | 0, _ => rfl
  | n + 1, x => ⟨rfl, rfl, x.kids, .refl _, Srt.all2_self (reord_refl n) _⟩

/-- documents of the same objects in another order -/
theorem same_valid {S : Grammar} (hS : Schema S) {x y : Obj} (hr : Srt.Reord 3 x y) (hx : x.cls = .corpus) (sx : Stable [] x) {n m : Node} (hn : Distinct n)
    (hm : Distinct m) (wn : Wrote x n) (wm : Wrote y m) : Valid S n ↔ Valid S m := by
  obtain ⟨e, sy⟩ := stable_reord 3 x y [] sx hr
  obtain ⟨a1, a2, a3, -⟩ := stable_spec x [] sx
  obtain ⟨b1, b2, b3, -⟩ := stable_spec y [] sy
  have hy : y.cls = .corpus := by rw [Obj.cls, e]; exact hx
  have nx := XNode.of hx a1 a2 a3
  have ny := XNode.of hy b1 b2 b3
  obtain ⟨d, md, kids⟩ := x
  obtain ⟨d', md', kids'⟩ := y
  cases hS with
  | struct => rw [core_structure nx hn wn, core_structure ny hm wm]; exact reord_structure hr
  | xigt => rw [core_xigt nx wn, core_xigt ny wm]; exact reord_xigt hr
  | default => rw [core_default nx wn, core_default ny wm]; exact reord_default hr
  | abkhaz => rw [core_abkhaz nx wn, core_abkhaz ny wm]; exact reord_abkhaz hr
  | syn => rw [core_syntax nx wn, core_syntax ny wm]; exact reord_extension hr
  | dep => rw [core_dependencies nx wn, core_dependencies ny wm]; exact reord_extension hr
  | odin dt => rw [core_odin nx wn, core_odin ny wm]; exact reord_odin hr

theorem docText_read {s : Str} {doc : Node} (hs : docText s = .ok doc) : ∃ p, readText s = .ok p ∧ Rep p doc := by
  simp only [docText, document, bind, Except.bind] at hs
  cases hsc : scanXml s with
  | error e => rw [hsc] at hs; cases hs
  | ok e =>
    rw [hsc] at hs
    cases hp : parseElem [] e with
    | error e => simp only [hp] at hs; cases hs
    | ok p =>
      simp only [hp, pure, Except.pure, Except.ok.injEq] at hs
      subst hs
      exact ⟨p, by simp only [readText, hsc, hp, bind, Except.bind], rep_node e [] p (by intro q hq; cases hq) hp⟩

theorem lacks_get {a : List (Str × Str)} {k : Str} (h : Lacks a k) : Dict.get? a k = none := by
  cases hg : Dict.get? a k with
  | none => rfl
  | some v => exact absurd (Dict.get?_mem hg) (h v)

/-- what was read, in any order, is written as a document valid just if the one that was read is -/
theorem again_valid {s : Str} {doc : Node} {p : PElem} (hs : docText s = .ok doc) (hp : readText s = .ok p) (hcl : Every Clean p) (hv : CorpusS doc) (hc : DocRd doc)
    {look : Nat → Nat} {x : Obj} (hx : loadsXml look s = .ok x) {y : Obj} (hr : Srt.Reord 3 x y) (ind : Option Int) :
    ∃ s' doc', dumpsXml ind y = .ok s' ∧ docText s' = .ok doc' ∧ (∀ look', loadsXml look' s' = .ok y) ∧ ∀ S, Schema S → (Valid S doc ↔ Valid S doc') := by
  obtain ⟨p', hp', rp⟩ := docText_read hs
  rw [hp] at hp'
  cases hp'
  have hi : IsCorpus x doc := by
    obtain ⟨g1, g2⟩ := shape_reads s doc hs hv hc look
    by_cases hu : DocUnique doc
    · obtain ⟨x', e, i⟩ := g1 hu
      rw [hx] at e
      cases e
      exact i
    · obtain ⟨er, e⟩ := g2 hu
      rw [hx] at e
      cases e
  have hty : Dict.get? p.attrs (lit! "type") = none := by rw [rp.tag.2.1]; exact lacks_get hc.1
  obtain ⟨c1, c2⟩ := loaded_stable hp (layout rp hv hc) hcl hty hx
  obtain ⟨m, re, wm, -⟩ := corpus_again rp hv hc c2 hi
  obtain ⟨e, sy⟩ := stable_reord 3 x y [] c2 hr
  have hy : y.cls = .corpus := by rw [Obj.cls, e]; exact c1
  obtain ⟨b1, b2, b3, -⟩ := stable_spec y [] sy
  obtain ⟨s', doc', w1, w2, w3, w4⟩ := wrote_corpus y hy b1 b2 b3 ind
  obtain ⟨t, t1, t2⟩ := stable_again hy sy ind
  rw [w1] at t1
  cases t1
  refine ⟨s', doc', w1, w2, t2, fun S hS => ?_⟩
  rw [re.valid]
  exact same_valid hS hr c1 c2 (Re.distinct _ _ re (docText_distinct hs)) w3 wm w4

/-! ### C150 -/

/-- **C150** (for documents whose metadata is as in C100, with text before children).  What any of the schemata allows is read exactly if no
two siblings have the same identifier, and the corpus has everything that is in the document. -/
theorem C150_reads_partial (S : Grammar) (hS : Schema S) (s : Str) (doc : Node) (hs : docText s = .ok doc) (hv : Valid S doc) (hc : DocClean doc) (hf : InMd MdFirst doc)
    (look : Nat → Nat) : (DocUnique doc → ∃ x, loadsXml look s = .ok x ∧ IsCorpus x doc) ∧ (¬ DocUnique doc → ∃ e, loadsXml look s = .error e) :=
  shape_reads s doc hs (outline hS (docText_distinct hs) hv) (docRd hc hf) look

/-- **C150** (for such documents, without a default namespace): a document that one of the schemata allows, read and written with any indentation, is
valid against the same of the schemata as before. -/
theorem C150_partial (T : Grammar) (hT : Schema T) (s : Str) (doc : Node) (p : PElem) (hs : docText s = .ok doc) (hp : readText s = .ok p) (hcl : Every Clean p) (hv : Valid T doc)
    (hc : DocClean doc) (hf : InMd MdFirst doc) (look : Nat → Nat) (x : Obj) (hx : loadsXml look s = .ok x) (ind : Option Int) :
    ∃ s' doc', dumpsXml ind x = .ok s' ∧ docText s' = .ok doc' ∧ (∀ look', loadsXml look' s' = .ok x) ∧ ∀ S, Schema S → (Valid S doc ↔ Valid S doc') :=
  again_valid hs hp hcl (outline hT (docText_distinct hs) hv) (docRd hc hf) hx (reord_refl 3 x) ind

/-- **C150**: so it is after `xigt sort`, whatever the keys. -/
theorem C150_sort_partial (T : Grammar) (hT : Schema T) (s : Str) (doc : Node) (p : PElem) (hs : docText s = .ok doc) (hp : readText s = .ok p) (hcl : Every Clean p) (hv : Valid T doc)
    (hc : DocClean doc) (hf : InMd MdFirst doc) (look : Nat → Nat) (x : Obj) (hx : loadsXml look s = .ok x) (c : XP.PCfg) (n : Nat) (a : Srt.Args) (y : Obj)
    (hy : Srt.run c n a x = some (.ok y)) (ind : Option Int) :
    ∃ s' doc', dumpsXml ind y = .ok s' ∧ docText s' = .ok doc' ∧ (∀ look', loadsXml look' s' = .ok y) ∧ ∀ S, Schema S → (Valid S doc ↔ Valid S doc') :=
  again_valid hs hp hcl (outline hT (docText_distinct hs) hv) (docRd hc hf) hx (Srt.C68_reorders c n a x y hy) ind

end

section
attribute [local instance] asciiUni asciiXml asciiXsd

theorem good_first : InMd MdFirst goodDoc := by
  refine ⟨fun m hm => ?_, fun i hi => ?_⟩
  · cases List.mem_singleton.1 (show m ∈ [goodMd] from hm)
    intro k hk
    cases List.mem_singleton.1 (show k ∈ [Node.elem (lit! "meta") [(lit! "type", lit! "t")] [goodMc]] from hk)
    simp [content, goodMc, TextFirst, WsOnly]
  · cases List.mem_singleton.1 (show i ∈ [goodIgt] from hi)
    refine ⟨fun m hm => absurd (show m ∈ [] from hm) (by simp), fun t ht => ?_⟩
    cases List.mem_singleton.1 (show t ∈ [goodTierN] from ht)
    exact fun m hm => absurd (show m ∈ [] from hm) (by simp)

/-- the hypotheses are met: the document of C100 stays valid when it is written again -/
example (ind : Option Int) : ∃ x s' doc', loadsXml id goodText = .ok x ∧ dumpsXml ind x = .ok s' ∧ docText s' = .ok doc' ∧ Valid structure_rnc doc' := by
  obtain ⟨x, hx, -⟩ := (C150_reads_partial _ .struct goodText goodDoc good_text good_valid good_clean good_first id).1 good_unique
  obtain ⟨p, hp, hb⟩ := ok_of_B (r := readText goodText) (f := everyB cleanB) (by decide +kernel)
  obtain ⟨s', doc', h1, h2, -, h3⟩ := C150_partial _ .struct goodText goodDoc p good_text hp (clean_of_B hb) good_valid good_clean good_first id x hx ind
  exact ⟨x, s', doc', hx, h1, h2, (h3 _ .struct).1 good_valid⟩

/-- and when its items are sorted -/
example (ind : Option Int) : ∃ x y s' doc', loadsXml id goodText = .ok x ∧ Srt.run Srt.exCfg 10 { itemKey := [lit! "text()"] } x = some (.ok y) ∧
    dumpsXml ind y = .ok s' ∧ docText s' = .ok doc' ∧ Valid structure_rnc doc' := by
  obtain ⟨x, hx, g⟩ := ok_of_B (r := loadsXml id goodText) (f := fun x => (Srt.run Srt.exCfg 10 { itemKey := [lit! "text()"] } x).any fun r => okWith r fun _ => true) (by decide +kernel)
  obtain ⟨p, hp, hb⟩ := ok_of_B (r := readText goodText) (f := everyB cleanB) (by decide +kernel)
  cases hr : Srt.run Srt.exCfg 10 { itemKey := [lit! "text()"] } x with
  | none => rw [hr] at g; cases g
  | some r =>
    rw [hr] at g
    obtain ⟨y, rfl, -⟩ := ok_of_B (r := r) (f := fun _ => true) g
    obtain ⟨s', doc', h1, h2, -, h3⟩ := C150_sort_partial _ .struct goodText goodDoc p good_text hp (clean_of_B hb) good_valid good_clean good_first id x hx _ _ _ y hr ind
    exact ⟨x, y, s', doc', hx, hr, h1, h2, (h3 _ .struct).1 good_valid⟩

def junkDoc : Node := root [] [.elem (lit! "igt") [(lit! "id", lit! "i")] [.text (lit! "x")]]

/-- **C150** is false of documents that no schema allows: text where none is allowed is dropped, so that what is written is valid though what
was read is not. -/
theorem C150_refuted : ∃ s doc x s' doc', docText s = .ok doc ∧ ¬ Valid structure_rnc doc ∧ loadsXml id s = .ok x ∧ dumpsXml none x = .ok s' ∧
    docText s' = .ok doc' ∧ Valid structure_rnc doc' := by
  have hd : docText (lit! "<xigt-corpus><igt id=\"i\">x</igt></xigt-corpus>") = .ok junkDoc := by rfl
  have h2 : docText (lit! "<xigt-corpus><igt id=\"i\" /></xigt-corpus>") = .ok (root [] [igtN (lit! "i")]) := by rfl
  obtain ⟨x, hx, g⟩ := ok_of_B (r := loadsXml id (lit! "<xigt-corpus><igt id=\"i\">x</igt></xigt-corpus>"))
    (f := fun x => okWith (dumpsXml none x) fun t => decide (t = lit! "<xigt-corpus><igt id=\"i\" /></xigt-corpus>")) (by decide +kernel)
  obtain ⟨t, ht, e⟩ := ok_of_B g
  have e := of_decide_eq_true e
  subst e
  refine ⟨_, _, x, _, _, hd, fun hv => ?_, hx, ht, h2, ?_⟩
  · have := (outline .struct (docText_distinct hd) hv).2.2
    rcases two_kinds this (.elem (lit! "igt") [(lit! "id", lit! "i")] [.text (lit! "x")]) (List.mem_singleton.2 rfl) with h | h
    · exact absurd h.1 (by decide)
    · have := h.2.2.1 (lit! "x") (by simp) 'x' (by simp)
      exact absurd this (by decide)
  · refine (valid_iff (docText_distinct h2)).2 ⟨rfl, by simp [OptIdAttr], by simp, by simp [WsOnly, igtN], [], [igtN (lit! "i")], rfl, by simp, fun n hn => ?_⟩
    cases List.mem_singleton.1 hn
    exact valid_igt 'i' [] (by decide) (by simp)

end
end Xigt.Rng
