import Verif.Export.LatexExport
/-
Cases that meet the hypotheses of C60, C78 and C79, and cases where the claims are false.
-/
set_option linter.unusedSectionVars false

namespace Xigt.Ltx

section
attribute [local instance] asciiUni

def itemData (i : Str) (as : Dict Str Str) (t : Option Str) : Data := { cls := .item, id := some i, attrs := as, text := t }
def tierData (i ty : Str) : Data := { cls := .tier, id := some i, type := some ty }
def igtData : Data := { cls := .igt, id := some (lit! "i1") }

/-- a word, and an item with an alignment -/
def word (i t : Str) : Obj := .mk (itemData i [] (some t)) [] []
def item (i al t : Str) : Obj := .mk (itemData i [(ALIGNMENT, al)] (some t)) [] []

/-! ### `C60_partial`, `C78_partial`, `C79_partial` apply -/

def exW : Obj := .mk (tierData (lit! "w") (lit! "words")) [] [word (lit! "w1") (lit! "il"), word (lit! "w2") (lit! "ne"), word (lit! "w3") (lit! "dort")]
/-- two items in one column, and one over two columns -/
def exM : Obj := .mk (tierData (lit! "m") (lit! "Morphemes")) []
  [item (lit! "m1") (lit! "w1") (lit! "i"), item (lit! "m2") (lit! "w1") (lit! "l"), item (lit! "m3") (lit! "w2,w3") (lit! "{}_&")]
def exG : Obj := .mk (tierData (lit! "g") (lit! "glosses")) [] [item (lit! "g1") (lit! "m1,m2") (lit! "he"), item (lit! "g2") (lit! "m3") (lit! "NEG.sleeps")]
def exT : Obj := .mk (tierData (lit! "t") (lit! "translations")) [] [item (lit! "t1") (lit! "w1") (lit! "He does not sleep")]
def exIgt : Obj := .mk igtData [] [exW, exM, exG, exT]

def exLower (s : Str) : Str := s.map fun c => if c = 'M' then 'm' else c
def exCfg : Cfg := { lower := exLower }

theorem exFit : Fit [exW, exM, exG] := by
  have one : ∀ (P : List Obj) (i al t : Str) (l : List Str) (a b : Nat) (p q : Obj) (x y : Str), al ≠ [] → ids al = l → l.head? = some x → l.getLast? = some y →
      P[a]? = some p → p.data.id = some x → P[b]? = some q → q.data.id = some y → a ≤ b → Spans P (item i al t) a b :=
    fun P i al t l a b p q x y h0 h1 h2 h3 h4 h5 h6 h7 h8 => ⟨l, x, y, p, q, .inl ⟨al, rfl, h0, h1.symm⟩, h2, h3, h4, h5, h6, h7, h8⟩
  refine ⟨?_, ?_, ?_, ?_⟩
  · refine .cons ?_ (.cons ?_ .one)
    · refine .cons (one _ _ _ _ [lit! "w1"] 0 0 _ _ _ _ (by decide) (by decide +kernel) rfl rfl rfl rfl rfl rfl (by decide)) (by decide) ?_
      refine .cons (one _ _ _ _ [lit! "w1"] 0 0 _ _ _ _ (by decide) (by decide +kernel) rfl rfl rfl rfl rfl rfl (by decide)) (by decide) ?_
      refine .cons (one _ _ _ _ [lit! "w2", lit! "w3"] 1 2 _ _ _ _ (by decide) (by decide +kernel) rfl rfl rfl rfl rfl rfl (by decide)) (by decide) .nil
    · refine .cons (one _ _ _ _ [lit! "m1", lit! "m2"] 0 1 _ _ _ _ (by decide) (by decide +kernel) rfl rfl rfl rfl rfl rfl (by decide)) (by decide) ?_
      refine .cons (one _ _ _ _ [lit! "m3"] 2 2 _ _ _ _ (by decide) (by decide +kernel) rfl rfl rfl rfl rfl rfl (by decide)) (by decide) .nil
  · intro t ht
    cases ht
    exact List.cons_ne_nil _ _
  · decide
  · decide

example : exIgt.kids.filter (wanted exCfg) = [exW, exM, exG] := rfl
example : exCfg.Plain := ⟨fun _ _ => rfl, fun _ _ => rfl⟩
example : ∀ t ∈ exIgt.kids, ∀ x ∈ t.kids, ∃ v, value 1 (some exIgt) (some t) x = .ok v := by
  intro t ht x hx
  simp only [exIgt, Obj.kids_mk, List.mem_cons, List.not_mem_nil, or_false] at ht
  rcases ht with rfl | rfl | rfl | rfl <;>
    (simp only [exW, exM, exG, exT, Obj.kids_mk, List.mem_cons, List.not_mem_nil, or_false] at hx) <;>
    (rcases hx with rfl | rfl | rfl) <;> exact ⟨_, rfl⟩

/-- the text of the example -/
example : exportIgt exCfg 1 exIgt = .ok (lit!
    "\\begin{exe}\\small\n\\ex\\glll\n{il} {ne dort}\\\\\n{i l} {\\{\\}\\_\\&}\\\\\n{he} {NEG.sleeps}\\\\\n\\trans He does not sleep\n\\end{exe}") := by
  decide +kernel

/-! ### Cases where the claims are false -/

/-- IDs in the rows of a grid -/
def rowIds (T : Trellis) (j : Nat) : List (Option Str) := (rowOf T j).map fun x => x.data.id
def kidIds (t : Obj) : List (Option Str) := t.kids.map fun x => x.data.id

/-- an ordinary tier with an item that is not aligned -/
def badNone : Obj := .mk (tierData (lit! "g") (lit! "glosses")) [] [item (lit! "g1") (lit! "w1") (lit! "he"), word (lit! "g2") (lit! "NEG")]

/-- C60 is false: an item with neither alignment nor segmentation is an exception, there is no grid. -/
theorem C60_refuted : groupAlignments [exW, badNone] = .error .typeError := rfl

/-- items with an empty alignment and an empty segmentation wait for the next column -/
def waiting (i : Str) : Obj := .mk (itemData i [(ALIGNMENT, []), (SEGMENTATION, [])] (some (lit! "x"))) [] []
def badOrder : Obj := .mk (tierData (lit! "g") (lit! "glosses")) [] [item (lit! "g1") (lit! "w1") (lit! "a"), waiting (lit! "g2"), item (lit! "g3") (lit! "w1") (lit! "b")]

/-- C60 is false: an item that had to wait comes before items that were placed earlier. -/
theorem C60_refuted_order : ∃ T, groupAlignments [exW, badOrder] = .ok T ∧ rowIds T 1 = [some (lit! "g2"), some (lit! "g1"), some (lit! "g3")] ∧
    kidIds badOrder = [some (lit! "g1"), some (lit! "g2"), some (lit! "g3")] :=
  ⟨_, rfl, by decide +kernel, by decide⟩

def badEnd : Obj := .mk (tierData (lit! "g") (lit! "glosses")) [] [item (lit! "g1") (lit! "w1") (lit! "a"), waiting (lit! "g2")]

/-- C60 is false: the columns of items that wait to the end have a row too many. -/
theorem C60_refuted_rows : ∃ T, groupAlignments [exW, badEnd] = .ok T ∧ T.map List.length = [2, 2, 2, 3] :=
  ⟨_, rfl, by decide +kernel⟩

def badRange : Obj := .mk (tierData (lit! "g") (lit! "glosses")) [] [item (lit! "g1") (lit! "w3,w1") (lit! "a")]

/-- C60 is false of items that refer to items in another order: there is no grid. -/
theorem C60_refuted_range : groupAlignments [exW, badRange] = .error .indexError := rfl

/-- C60 is false of an empty first tier: the words of the second are lost in an exception. -/
theorem C60_refuted_empty : groupAlignments [.mk (tierData (lit! "p") (lit! "phrases")) [] [], exW] = .error .indexError := rfl

/-- two glosses in another order than the words -/
def badBack : Obj := .mk (tierData (lit! "g") (lit! "glosses")) [] [item (lit! "g1") (lit! "w3") (lit! "sleep"), item (lit! "g2") (lit! "w1") (lit! "he")]

/-- C78 is false of items in another order: the gloss of the first word is in the column of the last. -/
theorem C78_refuted : ∃ T, groupAlignments [exW, badBack] = .ok T ∧ T.map (fun c => c.map fun r => r.map fun x => x.data.id) =
    [[[some (lit! "w1")], []], [[some (lit! "w2")], []], [[some (lit! "w3")], [some (lit! "g1"), some (lit! "g2")]]] :=
  ⟨_, rfl, by decide +kernel⟩

/-- C79 is false of tiers with an item that is not aligned: there is no block but an exception. -/
theorem C79_refuted : exportIgt exCfg 1 (.mk igtData [] [exW, badNone]) = .error .typeError := by decide +kernel

/-- C79 is false of items without content: they are shown as a pair of braces, which is not their (empty) text. -/
theorem C79_refuted_empty : exportIgt exCfg 1 (.mk igtData [] [exW, .mk (tierData (lit! "g") (lit! "glosses")) []
    [item (lit! "g1") (lit! "w1") []]]) = .ok (lit!
    "\\begin{exe}\\small\n\\ex\\gll\n{il} {ne} {dort}\\\\\n{\\{\\}} {} {}\\\\\n\\end{exe}") := by decide +kernel

end
end Xigt.Ltx
