import Verif.Path.Props
/-
C43-C48: cases that meet the hypotheses of the theorems, and cases where the properties do not hold.
-/

namespace Xigt.XP
section
variable [Uni]

/-- for evaluation: tokens first -/
theorem findall_toks {c : PCfg} {v path} (t : Str) (ts : List Str) (h1 : path.getLast? ≠ some '/') (h2 : tokenize path = t :: ts) :
    findall c v path = (expr c (iterfindN c path.length) (fuelFor (t :: ts)) v (t :: ts)).1.toList := by
  rw [findall, iterfind, iterfindN, if_neg h1, h2]
end

section
attribute [local instance] asciiUni

def exCfg : PCfg := ⟨10, fun _ => [], fun _ => []⟩
def exItem (i t : Str) : Obj := .mk { cls := .item, id := some i, text := some t } [] []
def exTierA : Obj := .mk { cls := .tier, id := some (lit! "a"), type := some (lit! "words"), attrs := [(lit! "lang", lit! "de")] } []
  [exItem (lit! "a1") (lit! "x"), exItem (lit! "a2") (lit! "y")]
def exTierB : Obj := .mk { cls := .tier, id := some (lit! "b"), type := some (lit! "glosses") } [] [exItem (lit! "b1") (lit! "x")]
def exIgt1 : Obj := .mk { cls := .igt, id := some (lit! "i1") } [] [exTierA, exTierB]
def exIgt2 : Obj := .mk { cls := .igt, id := some (lit! "i2") } [] []
def exTop : Obj := .mk { cls := .corpus } [] [exIgt1, exIgt2]
def exRoot : PV := .node exTop []

theorem plain_igt : PlainName (lit! "igt") := ⟨by decide, ⟨'i', lit! "gt", rfl, by decide, by decide, by decide, by decide⟩, ⟨'t', lit! "ig", rfl, by decide⟩, by decide⟩
theorem plain_tier : PlainName (lit! "tier") := ⟨by decide, ⟨'t', lit! "ier", rfl, by decide, by decide, by decide, by decide⟩, ⟨'r', lit! "tie", rfl, by decide⟩, by decide⟩
theorem plain_item : PlainName (lit! "item") := ⟨by decide, ⟨'i', lit! "tem", rfl, by decide, by decide, by decide, by decide⟩, ⟨'m', lit! "ite", rfl, by decide⟩, by decide⟩
theorem plain_type : PlainName (lit! "type") := ⟨by decide, ⟨'t', lit! "ype", rfl, by decide, by decide, by decide, by decide⟩, ⟨'e', lit! "typ", rfl, by decide⟩, by decide⟩
theorem plain_id : PlainName (lit! "id") := ⟨by decide, ⟨'i', lit! "d", rfl, by decide, by decide, by decide, by decide⟩, ⟨'d', lit! "i", rfl, by decide⟩, by decide⟩
theorem plain_lang : PlainName (lit! "lang") := ⟨by decide, ⟨'l', lit! "ang", rfl, by decide, by decide, by decide, by decide⟩, ⟨'g', lit! "lan", rfl, by decide⟩, by decide⟩
theorem plain_dc : PlainName (lit! "dc:title") := ⟨by decide, ⟨'d', lit! "c:title", rfl, by decide, by decide, by decide, by decide⟩, ⟨'e', lit! "dc:titl", rfl, by decide⟩, by decide⟩

/-- a path of one step -/
def one (n : PNode) : PPath := .rel (.last n .nil)

/-- `igt/tier` -/
def exA : PPath := .rel (.more (.child (lit! "igt")) .nil (.last (.child (lit! "tier")) .nil))
/-- `item/(text()|@type)` -/
def exB : PPath := .rel (.more (.child (lit! "item")) .nil
  (.last (.alts (.more (one (.fn (lit! "text") none)) (.one (one (.attr (lit! "type")))))) .nil))
/-- `(igt|igt)` -/
def exG : PPath := .group (.more (one (.child (lit! "igt"))) (.one (one (.child (lit! "igt")))))

theorem exA_ok : exA.Ok := ⟨⟨Or.inl plain_igt, trivial, Or.inl plain_tier, trivial⟩, rfl, rfl⟩
theorem attr_ok {a : Str} (h : PlainName a) : (one (.attr a)).Ok := ⟨⟨Or.inl h, trivial⟩, rfl, rfl⟩
theorem exB_ok : exB.Ok := ⟨⟨Or.inl plain_item, trivial,
  ⟨⟨⟨⟨(by decide : lit! "text" ∈ keywords), trivial⟩, rfl, rfl⟩, trivial, attr_ok plain_type, trivial⟩, trivial⟩⟩, rfl, rfl⟩
theorem child_ok {a : Str} (h : PlainName a) : (one (.child a)).Ok := ⟨⟨Or.inl h, trivial⟩, rfl, rfl⟩
theorem exG_ok : exG.Ok := ⟨child_ok plain_igt, trivial, child_ok plain_igt, trivial⟩

/-- results of examples: what kind they are, and the ID or the string -/
def label : PV → Str × Str
  | .node x _ => (lit! "node", x.data.id.getD [])
  | .str s => (lit! "str", s)
  | .none => (lit! "None", [])
  | .list _ => (lit! "list", [])
def labels (r : Py (List PV)) : Py (List (Str × Str)) := r.map (·.map label)
theorem labels_err {r : Py (List PV)} {e} (h : labels r = .error e) : r = .error e := by
  cases r with
  | ok l => cases h
  | error x => exact congrArg _ (Except.error.inj h)
def nd (i : Str) : Str × Str := (lit! "node", i)
def sr (i : Str) : Str × Str := (lit! "str", i)

/-! C43: a path with several results, one with none, one that raises an exception -/
example : findall exCfg exRoot (lit! "igt") = .ok [.node exIgt1 [exTop], .node exIgt2 [exTop]] ∧
    find exCfg exRoot (lit! "igt") = .ok (.node exIgt1 [exTop]) := by
  have h : findall exCfg exRoot (lit! "igt") = .ok [.node exIgt1 [exTop], .node exIgt2 [exTop]] := by
    rw [findall_toks (lit! "igt") [] (by decide +kernel) (by decide +kernel)]; rfl
  exact ⟨h, C43_find_first _ _ _ _ h⟩

/-! C44 -/
example : exA.Ok ∧ exB.Ok ∧ exA.isGroup = false ∧ exB.isAbs = false ∧ exA.render = lit! "igt/tier" ∧
    exB.render = lit! "item/(text()|@type)" := ⟨exA_ok, exB_ok, rfl, rfl, rfl, rfl⟩
example : labels (findall exCfg exRoot (lit! "igt/tier/item/(text()|@type)")) =
    .ok [sr (lit! "x"), sr (lit! "y"), sr (lit! "x")] := by
  rw [findall_toks (lit! "igt") [lit! "/", lit! "tier", lit! "/", lit! "item", lit! "/", lit! "(", lit! "text", lit! "(", lit! ")", lit! "|", lit! "@", lit! "type", lit! ")"]
    (by decide +kernel) (by decide +kernel)]
  decide +kernel

/-- C44 does not hold for `A` of the form `(...)`: `(igt|igt)/@id` finds what `(igt|igt)` finds -/
theorem C44_refuted : ∃ (c : PCfg) (v : PV) (A B : PPath), A.Ok ∧ B.Ok ∧ B.isAbs = false ∧ ∃ l ys,
    findall c v (A.render ++ '/' :: B.render) = .ok l ∧ findall c v A.render = .ok ys ∧
    ¬ ForEach (fun y => findall c y B.render) ys l := by
  let r : List PV := [.node exIgt1 [exTop], .node exIgt2 [exTop], .node exIgt1 [exTop], .node exIgt2 [exTop]]
  have h1 : findall exCfg exRoot (exG.render ++ '/' :: (one (.attr (lit! "id"))).render) = .ok r := by
    rw [findall_toks (lit! "(") [lit! "igt", lit! "|", lit! "igt", lit! ")", lit! "/", lit! "@", lit! "id"] (by decide +kernel) (by decide +kernel)]
    rfl
  have h2 : findall exCfg exRoot exG.render = .ok r := by
    rw [findall_toks (lit! "(") [lit! "igt", lit! "|", lit! "igt", lit! ")"] (by decide +kernel) (by decide +kernel)]
    rfl
  refine ⟨exCfg, exRoot, exG, one (.attr (lit! "id")), exG_ok, attr_ok plain_id, rfl, r, r, h1, h2, fun hf => ?_⟩
  obtain ⟨a, b, h3, -, h4⟩ := forEach_cons.1 hf
  have h5 : findall exCfg (.node exIgt1 [exTop]) (lit! "@id") = .ok [.str (lit! "i1")] := (C48_member _ _ _).1
  rw [show (one (.attr (lit! "id"))).render = lit! "@id" from rfl] at h3
  rw [h5] at h3
  obtain rfl := Except.ok.inj h3
  injection h4 with h6
  cases h6

/-! C45 -/
theorem exTop_wf : exTop.WF := by
  have hi : ∀ i t, (exItem i t).WF := fun i t =>
    .mk Dict.wf_nil (by simp [Cls.hasText]) (by simp) (by simp) (by simp) (by simp) (by simp) (by simp)
  have ha : exTierA.WF := .mk (by simp [Dict.WF, Dict.keys]) (by simp) (by simp) (by simp) (by simp)
    (by simp [exItem, Obj.cls, Cls.contained]) (by simp) (by simp [hi])
  have hb : exTierB.WF := .mk Dict.wf_nil (by simp) (by simp) (by simp) (by simp)
    (by simp [exItem, Obj.cls, Cls.contained]) (by simp) (by simp [hi])
  have h1 : exIgt1.WF := .mk Dict.wf_nil (by simp) (by simp) (by simp) (by simp)
    (by simp [exTierA, exTierB, Obj.cls, Cls.contained]) (by simp) (by simp [ha, hb])
  have h2 : exIgt2.WF := .mk Dict.wf_nil (by simp) (by simp) (by simp) (by simp) (by simp) (by simp) (by simp)
  exact .mk Dict.wf_nil (by simp) (by simp) (by simp) (by simp)
    (by simp [exIgt1, exIgt2, Obj.cls, Cls.contained]) (by simp) (by simp [h1, h2])

example : labels (findall exCfg exRoot (lit! ".//item")) = .ok [nd (lit! "a1"), nd (lit! "a2"), nd (lit! "b1")] := by
  rw [show lit! ".//item" = lit! ".//" ++ lit! "item" from rfl, exRoot, C45_partial _ _ _ _ exTop_wf plain_item (by decide) (by decide) (by decide)]
  decide +kernel

/-- C45 does not hold for names with prefix: elements in other namespaces are found ... -/
theorem C45_refuted : ∃ (c : PCfg) (x : Obj) (up : List Obj) (p n u : Str) (k : Obj) (kup : List Obj), (nsmapOf (x :: up)).get? p = some u ∧
    x.WF ∧ findall c (.node x up) (lit! ".//" ++ p ++ ':' :: n) = .ok [.node k kup] ∧ k.data.name = some n ∧ k.data.ns ≠ some u := by
  let k : Obj := .mk { cls := .metaChild, name := some (lit! "x"), ns := some (lit! "other") } [] []
  let x : Obj := .mk { cls := .metaC, nsmap := some [(lit! "p", lit! "u")] } [] [k]
  refine ⟨exCfg, x, [], lit! "p", lit! "x", lit! "u", k, [x], rfl, ?_, ?_, rfl, by decide⟩
  · refine .mk Dict.wf_nil (by simp [Cls.hasText]) (by simp) (by simp) (by simp) (by simp [k, Obj.cls, Cls.contained]) (by simp) ?_
    intro x hx
    obtain rfl := List.mem_singleton.1 hx
    exact .mk Dict.wf_nil (by simp) (by simp) (by simp) (by simp) (by simp) (by simp) (by simp)
  · rw [findall_toks (lit! ".") [lit! "//", lit! "p:x"] (by decide +kernel) (by decide +kernel)]
    rfl

/-- ... and the corpus is not found by its name -/
theorem C45_corpus_refuted : ∃ (c : PCfg) (x : Obj), x.WF ∧ tagOf x = some (lit! "xigt-corpus") ∧
    findall c (.node x []) (lit! "//xigt-corpus") = .ok [] := by
  refine ⟨exCfg, exTop, exTop_wf, rfl, ?_⟩
  rw [findall_toks (lit! "//") [lit! "xigt-corpus"] (by decide +kernel) (by decide +kernel)]
  rfl

/-! C46 -/
example : (one (.child (lit! "igt"))).Ok ∧ (one (.attr (lit! "id"))).Ok ∧ (one (.attr (lit! "id"))).NoPred ∧ Quotable (lit! "i2") :=
  ⟨child_ok plain_igt, attr_ok plain_id, ⟨trivial, rfl⟩, by unfold Quotable; decide⟩
example : labels (findall exCfg exRoot (lit! "igt[@id=\"i2\"]")) = .ok [nd (lit! "i2")] ∧
    labels (findall exCfg exRoot (lit! "igt[@id!=\"i2\"]")) = .ok [nd (lit! "i1")] := by
  rw [findall_toks (path := lit! "igt[@id=\"i2\"]") (lit! "igt") [lit! "[", lit! "@", lit! "id", lit! "=", lit! "\"i2\"", lit! "]"] (by decide +kernel) (by decide +kernel),
    findall_toks (path := lit! "igt[@id!=\"i2\"]") (lit! "igt") [lit! "[", lit! "@", lit! "id", lit! "!=", lit! "\"i2\"", lit! "]"] (by decide +kernel) (by decide +kernel)]
  decide +kernel

/-- C46 does not hold for `A[P]`: `igt[@id]` raises an exception although there is an igt with an ID -/
theorem C46_refuted : ∃ (c : PCfg) (x y : PV) (s : PV), findall c x (lit! "igt") = .ok [y] ∧ findall c y (lit! "@id") = .ok [s] ∧
    findall c x (lit! "igt[@id]") = .error .typeError := by
  refine ⟨exCfg, .node (.mk { cls := .corpus } [] [exIgt2]) [], .node exIgt2 [.mk { cls := .corpus } [] [exIgt2]], .str (lit! "i2"), ?_, (C48_member _ _ _).1, ?_⟩
  · rw [findall_toks (lit! "igt") [] (by decide +kernel) (by decide +kernel)]; rfl
  · apply labels_err; rw [findall_toks (lit! "igt") [lit! "[", lit! "@", lit! "id", lit! "]"] (by decide +kernel) (by decide +kernel)]; decide +kernel

/-- ... nor for predicates within predicates -/
theorem C46_nested_refuted : ∃ (c : PCfg) (x y z s : PV), findall c x (lit! "igt") = .ok [y] ∧
    findall c y (lit! "tier[@type=\"words\"]") = .ok [z] ∧ findall c z (lit! "@id") = .ok [s] ∧
    findall c x (lit! "igt[tier[@type=\"words\"]/@id=\"a\"]") = .error .indexError := by
  refine ⟨exCfg, .node (.mk { cls := .corpus } [] [exIgt1]) [], .node exIgt1 [.mk { cls := .corpus } [] [exIgt1]], .node exTierA [exIgt1, .mk { cls := .corpus } [] [exIgt1]], .str (lit! "a"), ?_, ?_, (C48_member _ _ _).1, ?_⟩
  · rw [findall_toks (lit! "igt") [] (by decide +kernel) (by decide +kernel)]; rfl
  · rw [findall_toks (lit! "tier") [lit! "[", lit! "@", lit! "type", lit! "=", lit! "\"words\"", lit! "]"] (by decide +kernel) (by decide +kernel)]; rfl
  · rw [findall_toks (lit! "igt") [lit! "[", lit! "tier", lit! "[", lit! "@", lit! "type", lit! "=", lit! "\"words\"", lit! "]", lit! "/", lit! "@", lit! "id", lit! "=", lit! "\"a\"", lit! "]"] (by decide +kernel) (by decide +kernel)]
    exact labels_err (by decide +kernel)

/-! C47 -/
example : ∀ q ∈ [one (.child (lit! "igt")), one .self], q.Ok ∧ q.Tight := by
  simp only [List.mem_cons, List.not_mem_nil, or_false]
  rintro q (rfl | rfl)
  · exact ⟨child_ok plain_igt, trivial⟩
  · exact ⟨⟨⟨trivial, trivial⟩, rfl, rfl⟩, trivial⟩

/-- C47 does not hold for alternatives within alternatives: it depends on the data whether the path
works at all -/
theorem C47_refuted : ∃ (c : PCfg) (x y : PV) (l1 l2 l3 l4 : List PV),
    findall c x (lit! "tier/(item|metadata)") = .ok l1 ∧ findall c x (lit! ".") = .ok l2 ∧ findall c x (lit! "(tier/(item|metadata)|.)") = .ok (l1 ++ l2) ∧
    findall c y (lit! "tier/(item|metadata)") = .ok l3 ∧ findall c y (lit! ".") = .ok l4 ∧ findall c y (lit! "(tier/(item|metadata)|.)") = .error .xigtPathError := by
  refine ⟨exCfg, .node exIgt1 [], .node exIgt2 [], [.node (exItem (lit! "a1") (lit! "x")) [exTierA, exIgt1], .node (exItem (lit! "a2") (lit! "y")) [exTierA, exIgt1], .node (exItem (lit! "b1") (lit! "x")) [exTierB, exIgt1]], [.node exIgt1 []], [], [.node exIgt2 []], ?_, ?_, ?_, ?_, ?_, ?_⟩
  · rw [findall_toks (lit! "tier") [lit! "/", lit! "(", lit! "item", lit! "|", lit! "metadata", lit! ")"] (by decide +kernel) (by decide +kernel)]; rfl
  · rw [findall_toks (lit! ".") [] (by decide +kernel) (by decide +kernel)]; rfl
  · rw [findall_toks (lit! "(") [lit! "tier", lit! "/", lit! "(", lit! "item", lit! "|", lit! "metadata", lit! ")", lit! "|", lit! ".", lit! ")"] (by decide +kernel) (by decide +kernel)]; rfl
  · rw [findall_toks (lit! "tier") [lit! "/", lit! "(", lit! "item", lit! "|", lit! "metadata", lit! ")"] (by decide +kernel) (by decide +kernel)]; rfl
  · rw [findall_toks (lit! ".") [] (by decide +kernel) (by decide +kernel)]; rfl
  · rw [findall_toks (lit! "(") [lit! "tier", lit! "/", lit! "(", lit! "item", lit! "|", lit! "metadata", lit! ")", lit! "|", lit! ".", lit! ")"] (by decide +kernel) (by decide +kernel)]; rfl

/-! C48 -/
example : PlainName (lit! "lang") ∧ PlainName (lit! "dc:title") ∧ exTop.WF := ⟨plain_lang, plain_dc, exTop_wf⟩

/-- C48 does not hold for names that begin with one of the words of the tokenizer ... -/
theorem C48_refuted : ∃ (c : PCfg) (x k : Obj) (n : Str), x.cls = .metaC ∧ x.kids = [k] ∧ k.data.name = some n ∧ nameOK n = true ∧
    findall c (.node x []) n = .error .indexError := by
  refine ⟨exCfg, .mk { cls := .metaC } [] [.mk { cls := .metaChild, name := some (lit! "texts") } [] []], _, lit! "texts", rfl, rfl, rfl, by decide +kernel, ?_⟩
  rw [findall_toks (lit! "text") [lit! "s"] (by decide +kernel) (by decide +kernel)]; rfl

/-- ... nor for names with a `.`, where something else is found -/
theorem C48_dot_refuted : ∃ (c : PCfg) (x k1 k2 : Obj) (n : Str), x.cls = .metaC ∧ x.kids = [k1, k2] ∧ k1.data.name = some n ∧ k2.data.name ≠ some n ∧
    nameOK n = true ∧ findall c (.node x []) n = .ok [.node k2 [x]] := by
  refine ⟨exCfg, .mk { cls := .metaC } [] [.mk { cls := .metaChild, name := some (lit! "a.b") } [] [], .mk { cls := .metaChild, name := some (lit! "a") } [] []], _, _,
    lit! "a.b", rfl, rfl, rfl, by decide, by decide +kernel, ?_⟩
  rw [findall_toks (lit! "a") [lit! ".", lit! "b"] (by decide +kernel) (by decide +kernel)]; rfl

end
end Xigt.XP
