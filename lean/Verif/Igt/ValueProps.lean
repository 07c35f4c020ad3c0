import Verif.Igt.ValueLemmas
/-
Properties of item values: C20, C21, C22.
-/

set_option linter.unusedSectionVars false

namespace Xigt
section
variable [Uni]

/-! ### C20 -/

/-- C20: `value()` (with a stack that is deep enough) returns exactly the value that the item's data
determine: its text whatever references it has; else what its content expression denotes over the
values of the referred items; else its segmentation expression; else None. -/
theorem C20_value (igt t i : Obj) (v : Option Str)
    (hw : ∀ k y, Chain (Needs igt) k (t, i) y → ∀ ra e, ValueAttr y.2 ra →
      Dict.get? y.2.data.attrs ra = some e → ∃ ex : Expr, ex.Simple ∧ e = ex.render) :
    (∃ N, ∀ n, N ≤ n → value n (some igt) (some t) i = .ok v) ↔ Val igt t i v := by
  constructor
  · rintro ⟨N, hN⟩
    exact value_Val hw (hN N (Nat.le_refl N))
  · exact Val.value

/-- C20, the priority rule on its own, also for items outside a tier or igt and for any expressions:
text hides all references, content hides segmentation. -/
theorem C20_priority (n : Nat) (igt t : Option Obj) (i : Obj) :
    (∀ s, i.data.text = some s → value (n + 1) igt t i = .ok (some s)) ∧
    (i.data.text = none → (∃ e, (CONTENT, e) ∈ i.data.attrs) → value (n + 1) igt t i =
      (resolveRef (fun t i => value n igt (some t) i) igt t i CONTENT).map some) ∧
    (i.data.text = none → (∀ e, (CONTENT, e) ∉ i.data.attrs) → (∃ e, (SEGMENTATION, e) ∈ i.data.attrs) →
      value (n + 1) igt t i =
        (resolveRef (fun t i => value n igt (some t) i) igt t i SEGMENTATION).map some) ∧
    (i.data.text = none → (∀ e, (CONTENT, e) ∉ i.data.attrs) → (∀ e, (SEGMENTATION, e) ∉ i.data.attrs) →
      value (n + 1) igt t i = .ok none) := by
  refine ⟨fun s h => value_text h _ _ _, fun h h1 => ?_, fun h h1 h2 => ?_, fun h h1 h2 => ?_⟩
  · exact value_of_attr ⟨h, Or.inl ⟨rfl, h1⟩⟩ _ _ _
  · exact value_of_attr ⟨h, Or.inr ⟨rfl, h2, h1⟩⟩ _ _ _
  · exact value_none h h1 h2 _ _ _

/-! ### C21 -/

/-- C21, termination: if no reference chain from the item runs into a cycle, `value()` needs at most
one stack frame more than the igt has items, and the result does not depend on the stack size. -/
theorem C21_acyclic (igt : Obj) (x : Node)
    (h : ¬ ∃ k y, Chain (Needs igt) k x y ∧ OnCycle igt y) (n : Nat) (hn : (nodes igt).length < n) :
    value n (some igt) (some x.1) x.2 ≠ .error .recursionError ∧
    ∀ m, (nodes igt).length < m →
      value m (some igt) (some x.1) x.2 = value n (some igt) (some x.1) x.2 := by
  have key : ∀ n, (nodes igt).length < n → value n (some igt) (some x.1) x.2 ≠ .error .recursionError := by
    intro n hn he
    obtain ⟨y, hy⟩ := value_recursion_chain he
    obtain ⟨z, k, j, hk, hj⟩ := hy.cycle (nodes igt) needs_mem hn
    exact h ⟨k, z, hk, j, hj⟩
  refine ⟨key n hn, fun m hm => ?_⟩
  rcases Nat.le_total n m with hl | hl
  · exact value_stable (key n hn) hl
  · exact (value_stable (key m hm) hl).symm

/-- C21, non-termination: an item from which a reference cycle is reached never gets a value, for no
stack size; if the references met on the way are resolvable, it always exhausts the stack. -/
theorem C21_cyclic (igt : Obj) (x : Node) (h : ∃ k y, Chain (Needs igt) k x y ∧ OnCycle igt y) (n : Nat) :
    (∀ v, value n (some igt) (some x.1) x.2 ≠ .ok v) ∧
    ((∀ k y, Chain (Needs igt) k x y → Resolvable igt y) →
      value n (some igt) (some x.1) x.2 = .error .recursionError) := by
  obtain ⟨k, y, hk, j, hj⟩ := h
  have h1 : ∀ v, value n (some igt) (some x.1) x.2 ≠ .ok v := by
    intro v hv
    have := value_ok_chain (hk.trans (hj.repeat n)) hv
    have h2 : n ≤ n * (j + 1) := Nat.le_mul_of_pos_right n (by omega)
    omega
  refine ⟨h1, fun hr => ?_⟩
  cases hv : value n (some igt) (some x.1) x.2 with
  | ok v => exact absurd hv (h1 v)
  | error e => rw [value_error_recursion hr hv]

/-- C21, both directions: with resolvable references, `value()` exhausts every stack exactly if a
cycle is reached. -/
theorem C21_iff (igt : Obj) (x : Node) (hr : ∀ k y, Chain (Needs igt) k x y → Resolvable igt y) :
    (∀ n, value n (some igt) (some x.1) x.2 = .error .recursionError) ↔
      ∃ k y, Chain (Needs igt) k x y ∧ OnCycle igt y := by
  constructor
  · intro h
    apply Classical.byContradiction
    intro hc
    exact (C21_acyclic igt x hc _ (Nat.lt_succ_self _)).1 (h _)
  · exact fun h n => (C21_cyclic igt x h n).2 hr

/-! ### C22 -/

/-- what makes `resolve_ref` raise KeyError -/
def LacksAttr (tier : Option Obj) (i : Obj) (ra : Str) : Prop :=
  (∀ e, (ra, e) ∉ i.data.attrs) ∨ ∃ t, tier = some t ∧ ∀ e, (ra, e) ∉ t.data.attrs

/-- what makes `resolve_ref` raise XigtStructureError if both have the attribute; `ids` are the IDs
in the item's expression -/
def BrokenRef (igt tier : Option Obj) (ra : Str) (ids : List Str) : Prop :=
  tier = none ∨ igt = none ∨ ∃ t g tid, tier = some t ∧ igt = some g ∧
    Dict.get? t.data.attrs ra = some tid ∧ (contGet g.kids tid = none ∨
      ∃ r, contGet g.kids tid = some r ∧ ∃ j ∈ ids, contGet r.kids j = none)

theorem not_mem_iff_get {d : Dict Str Str} {k : Str} : (∀ e, (k, e) ∉ d) ↔ Dict.get? d k = none := by
  rw [← Dict.has_false_iff]
  constructor
  · intro h
    cases hh : Dict.has d k with
    | false => rfl
    | true => obtain ⟨v, hv⟩ := exists_mem_iff.2 hh; exact absurd hv (h v)
  · intro h e he
    rw [exists_mem_iff.1 ⟨e, he⟩] at h; cases h

/-- C22: every error of `resolve_ref` is a KeyError for a missing attribute, a XigtStructureError for
a broken reference, or was raised by the evaluation of a referred item of the referred tier; with a missing attribute or
a broken reference there is never a result. -/
theorem C22_errors (val : Obj → Obj → Py (Option Str)) (igt tier : Option Obj) (i : Obj) (ra : Str)
    (ex : Expr) (hs : ex.Simple) (he : ∀ e, Dict.get? i.data.attrs ra = some e → e = ex.render) :
    (∀ e, resolveRef val igt tier i ra = .error e →
      (e = .keyError ∧ LacksAttr tier i ra) ∨
      (e = .xigtStructureError ∧ BrokenRef igt tier ra (ex.sels.map Sel.id)) ∨
      ∃ g t tid r y, igt = some g ∧ tier = some t ∧ Dict.get? t.data.attrs ra = some tid ∧ contGet g.kids tid = some r ∧
        val r y = .error e ∧ ∃ j ∈ ex.sels.map Sel.id, contGet r.kids j = some y) ∧
    (LacksAttr tier i ra ∨ BrokenRef igt tier ra (ex.sels.map Sel.id) →
      ∀ s, resolveRef val igt tier i ra ≠ .ok s) := by
  cases h1 : Dict.get? i.data.attrs ra with
  | none =>
    have hr : resolveRef val igt tier i ra = .error .keyError := by
      simp only [resolveRef, Dict.getItem, h1]; rfl
    rw [hr]
    refine ⟨fun e h => ?_, fun _ s h => by cases h⟩
    cases h
    exact Or.inl ⟨rfl, Or.inl (not_mem_iff_get.2 h1)⟩
  | some e0 =>
    have := he _ h1
    subst this
    cases tier with
    | none =>
      have hr : resolveRef val igt none i ra = .error .xigtStructureError := by
        simp only [resolveRef, Dict.getItem, h1]; rfl
      rw [hr]
      refine ⟨fun e h => ?_, fun _ s h => by cases h⟩
      cases h
      exact Or.inr (Or.inl ⟨rfl, Or.inl rfl⟩)
    | some t =>
      cases h2 : Dict.get? t.data.attrs ra with
      | none =>
        have hr : resolveRef val igt (some t) i ra = .error .keyError := by
          simp only [resolveRef, Dict.getItem, h1, h2]; rfl
        rw [hr]
        refine ⟨fun e h => ?_, fun _ s h => by cases h⟩
        cases h
        exact Or.inl ⟨rfl, Or.inr ⟨t, rfl, not_mem_iff_get.2 h2⟩⟩
      | some tid =>
        cases igt with
        | none =>
          have hr : resolveRef val none (some t) i ra = .error .xigtStructureError := by
            simp only [resolveRef, Dict.getItem, h1, h2]; rfl
          rw [hr]
          refine ⟨fun e h => ?_, fun _ s h => by cases h⟩
          cases h
          exact Or.inr (Or.inl ⟨rfl, Or.inr (Or.inl rfl)⟩)
        | some g =>
          cases h3 : contGet g.kids tid with
          | none =>
            have hr : resolveRef val (some g) (some t) i ra = .error .xigtStructureError := by
              simp only [resolveRef, Dict.getItem, h1, h2, bind, Except.bind, h3]
            rw [hr]
            refine ⟨fun e h => ?_, fun _ s h => by cases h⟩
            cases h
            exact Or.inr (Or.inl ⟨rfl, Or.inr (Or.inr ⟨t, g, tid, rfl, rfl, h2, Or.inl h3⟩)⟩)
          | some r =>
            rw [resolveRef_def h1 h2 h3]
            constructor
            · intro e h
              rw [resolve] at h
              rcases resolveSels_error h with ⟨u, hu, hg⟩ | ⟨rfl, u, hu, hg⟩ | ⟨_, hn⟩
              · cases hy : contGet r.kids u.2.1 with
                | none => rw [hy] at hg; cases hg
                | some y =>
                  rw [hy] at hg
                  simp only [Option.map_some, Option.some.injEq] at hg
                  refine Or.inr (Or.inr ⟨g, t, tid, r, y, rfl, rfl, h2, h3, hg, u.2.1, ?_, hy⟩)
                  rw [← selIds_render hs]; exact mem_selIds.2 ⟨u, hu, rfl⟩
              · refine Or.inr (Or.inl ⟨rfl, Or.inr (Or.inr ⟨t, g, tid, rfl, rfl, h2, Or.inr ⟨r, h3, u.2.1, ?_, ?_⟩⟩)⟩)
                · rw [← selIds_render hs]; exact mem_selIds.2 ⟨u, hu, rfl⟩
                · simpa using hg
              · refine absurd ?_ (hn fun _ => some (.ok none))
                have h9 := resolve_render (fun _ => some (.ok none)) hs
                rw [resolve] at h9
                rw [h9]
                have one : ∀ s : Sel, ∃ a, s.denote (fun _ => some (.ok none)) = .ok a := fun s => ⟨_, rfl⟩
                have tl : ∀ l, ∃ a, denoteTail (fun _ => some (.ok none)) l = .ok a := by
                  intro l
                  induction l with
                  | nil => exact ⟨_, rfl⟩
                  | cons p l ih =>
                    obtain ⟨a, ha⟩ := one p.2
                    obtain ⟨b, hb⟩ := ih
                    rw [denoteTail, ha, hb]; exact ⟨_, rfl⟩
                obtain ⟨a, ha⟩ := one ex.head
                obtain ⟨b, hb⟩ := tl ex.tail
                rw [Expr.denote, ha, hb]; exact ⟨_, rfl⟩
            · intro hb s h
              rcases hb with hb | hb
              · rcases hb with hb | ⟨t', ht', hb⟩
                · rw [not_mem_iff_get.1 hb] at h1; cases h1
                · cases ht'; rw [not_mem_iff_get.1 hb] at h2; cases h2
              · rcases hb with hb | hb | ⟨t', g', tid', ht', hg', h2', hb⟩
                · cases hb
                · cases hb
                · cases ht'; cases hg'
                  rw [h2] at h2'; cases h2'
                  rcases hb with hb | ⟨r', hr', j, hj, hn⟩
                  · rw [h3] at hb; cases hb
                  · rw [h3] at hr'; cases hr'
                    rw [← selIds_render hs] at hj
                    obtain ⟨u, hu, rfl⟩ := mem_selIds.1 hj
                    rw [resolve] at h
                    obtain ⟨w, hw⟩ := resolveSels_ok h u hu
                    rw [hn] at hw; cases hw

/-- C22, if all referred items can be evaluated: exactly which of the two errors occurs when. -/
theorem C22_exact (val : Obj → Obj → Py (Option Str)) (hval : ∀ t y, ∃ v, val t y = .ok v)
    (igt tier : Option Obj) (i : Obj) (ra : Str)
    (ex : Expr) (hs : ex.Simple) (he : ∀ e, Dict.get? i.data.attrs ra = some e → e = ex.render) :
    (resolveRef val igt tier i ra = .error .keyError ↔ LacksAttr tier i ra) ∧
    (resolveRef val igt tier i ra = .error .xigtStructureError ↔
      ¬ LacksAttr tier i ra ∧ BrokenRef igt tier ra (ex.sels.map Sel.id)) ∧
    ((∃ s, resolveRef val igt tier i ra = .ok s) ↔
      ¬ LacksAttr tier i ra ∧ ¬ BrokenRef igt tier ra (ex.sels.map Sel.id)) := by
  obtain ⟨h1, h2⟩ := C22_errors val igt tier i ra ex hs he
  have hk : LacksAttr tier i ra → resolveRef val igt tier i ra = .error .keyError := by
    intro h
    rcases h with h | ⟨t, rfl, h⟩
    · have := not_mem_iff_get.1 h
      simp only [resolveRef, Dict.getItem, this]; rfl
    · have h' := not_mem_iff_get.1 h
      cases h1 : Dict.get? i.data.attrs ra with
      | none => simp only [resolveRef, Dict.getItem, h1]; rfl
      | some e => simp only [resolveRef, Dict.getItem, h1, h']; rfl
  have hx : ∀ e, resolveRef val igt tier i ra = .error e → (e = .keyError ∧ LacksAttr tier i ra) ∨
      (e = .xigtStructureError ∧ BrokenRef igt tier ra (ex.sels.map Sel.id)) := by
    intro e h
    rcases h1 e h with h | h | ⟨_, _, _, r, y, _, _, _, _, h, _⟩
    · exact Or.inl h
    · exact Or.inr h
    · obtain ⟨v, hv⟩ := hval r y
      rw [hv] at h; cases h
  cases hr : resolveRef val igt tier i ra with
  | ok s =>
    have n1 : ¬ LacksAttr tier i ra := fun h => h2 (Or.inl h) s hr
    have n2 : ¬ BrokenRef igt tier ra (ex.sels.map Sel.id) := fun h => h2 (Or.inr h) s hr
    simp [n1, n2]
  | error e =>
    rcases hx e hr with ⟨rfl, h⟩ | ⟨rfl, h⟩
    · simp [h]
    · have n1 : ¬ LacksAttr tier i ra := by
        intro h'
        have := hk h'
        rw [hr] at this; cases this
      simp [h, n1]

end

/-! ### the hypotheses are met -/

section
attribute [local instance] asciiUni

private def item (i : String) (attrs : List (String × String)) (text : Option String) : Obj :=
  .mk { cls := .item, id := some i.toList, attrs := attrs.map fun p => (p.1.toList, p.2.toList),
        text := text.map String.toList } [] []
private def tier (i : String) (attrs : List (String × String)) (kids : List Obj) : Obj :=
  .mk { cls := .tier, id := some i.toList, attrs := attrs.map fun p => (p.1.toList, p.2.toList) } [] kids

/-- phrase, words segmenting it, morphemes with content in the words; `m2` is on no chain but `g1` and
`g2` are each other's content -/
def exValIgt : Obj :=
  .mk { cls := .igt, id := some "i1".toList } []
    [tier "p" [] [item "p1" [] (some "inu=ga ippiki")],
     tier "w" [("segmentation", "p")] [item "w1" [("segmentation", "p1[0:6]")] none,
       item "w2" [("segmentation", "p1[7:13]")] none],
     tier "m" [("content", "w"), ("segmentation", "p")] [
       item "m1" [("content", "w1[0:3],w2"), ("segmentation", "p1")] none],
     tier "g" [("content", "g")] [item "g1" [("content", "g2")] none, item "g2" [("content", "g1")] none,
       item "g3" [("content", "g1")] (some "x")]]

private def nodeAt (a b : Nat) : Node :=
  match exValIgt.kids[a]? with
  | some t => match t.kids[b]? with
    | some i => (t, i)
    | none => (t, t)
  | none => (exValIgt, exValIgt)

example : value 10 (some exValIgt) (some (nodeAt 2 0).1) (nodeAt 2 0).2 = .ok (some "inu ippiki".toList) := by
  decide +kernel
example : value 1 (some exValIgt) (some (nodeAt 3 2).1) (nodeAt 3 2).2 = .ok (some "x".toList) := by
  decide +kernel

/-- `g1` is on a cycle: the hypothesis of `C21_cyclic` -/
example : ∃ k y, Chain (Needs exValIgt) k (nodeAt 3 0) y ∧ OnCycle exValIgt y := by
  have va : ∀ i, i = (nodeAt 3 0).2 ∨ i = (nodeAt 3 1).2 → ValueAttr i CONTENT := by
    rintro i (rfl | rfl)
    · exact ⟨by decide, Or.inl ⟨rfl, "g2".toList, by decide⟩⟩
    · exact ⟨by decide, Or.inl ⟨rfl, "g1".toList, by decide⟩⟩
  have n1 : Needs exValIgt (nodeAt 3 0) (nodeAt 3 1) :=
    ⟨CONTENT, "g2".toList, "g".toList, va _ (Or.inl rfl), by decide +kernel, by decide +kernel,
      rfl, "g2".toList, by decide +kernel, rfl⟩
  have n2 : Needs exValIgt (nodeAt 3 1) (nodeAt 3 0) :=
    ⟨CONTENT, "g1".toList, "g".toList, va _ (Or.inr rfl), by decide +kernel, by decide +kernel,
      rfl, "g1".toList, by decide +kernel, rfl⟩
  exact ⟨0, _, .zero _, 1, .step n1 (.step n2 (.zero _))⟩

/-- `p1` meets the hypothesis of `C21_acyclic`, as does everything without references -/
example : ¬ ∃ k y, Chain (Needs exValIgt) k (nodeAt 0 0) y ∧ OnCycle exValIgt y := by
  have no : ∀ y, ¬ Needs exValIgt (nodeAt 0 0) y := by
    rintro y ⟨ra, e, tid, ⟨h, _⟩, _⟩
    exact absurd h (by decide)
  rintro ⟨k, y, h, j, hj⟩
  cases h with
  | zero => cases hj with | step r _ => exact no _ r
  | step r _ => exact no _ r

example : resolveRef (fun _ _ => .ok none) none (some (nodeAt 1 0).1) (nodeAt 1 0).2 SEGMENTATION =
    .error .xigtStructureError := by decide +kernel
example : resolveRef (fun _ _ => .ok none) (some exValIgt) (some (nodeAt 3 0).1) (nodeAt 2 0).2 SEGMENTATION =
    .error .keyError := by decide +kernel
end

end Xigt
