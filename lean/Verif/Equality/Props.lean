import Verif.Equality.Lemmas
/- Properties C10-C12: equality of objects. -/

namespace Xigt

/-! ### C10 -/

/-- C10: on objects of one class `==` means "the same data": attribute order, namespace maps (and
parents, which are not part of the tree) do not matter, members are compared pairwise in order. -/
theorem C10_eq_is_same_data (x y : Obj) (hx : x.WF) (hy : y.WF) (hc : x.cls = y.cls) :
    Obj.eq x y = true ↔ SameData x y := eq_iff_same x y hx hy hc

/-- C10: `==` is reflexive, symmetric and transitive on the objects of one class. -/
theorem C10_equivalence :
    (∀ x : Obj, x.WF → Obj.eq x x = true) ∧
    (∀ x y : Obj, x.WF → y.WF → x.cls = y.cls → Obj.eq x y = Obj.eq y x) ∧
    (∀ x y z : Obj, x.WF → y.WF → z.WF → x.cls = y.cls → y.cls = z.cls →
      Obj.eq x y = true → Obj.eq y z = true → Obj.eq x z = true) := by
  refine ⟨fun x hx => (eq_iff_same x x hx hx rfl).2 (.refl x), ?_, ?_⟩
  · intro x y hx hy hc
    rw [Bool.eq_iff_iff, eq_iff_same x y hx hy hc, eq_iff_same y x hy hx hc.symm]
    exact ⟨.symm, .symm⟩
  · intro x y z hx hy hz h1 h2 h3 h4
    exact (eq_iff_same x z hx hz (h1.trans h2)).2
      (((eq_iff_same x y hx hy h1).1 h3).trans ((eq_iff_same y z hy hz h2).1 h4))

/-- C10: replacing an object by one with the same data never changes the outcome of `==`. -/
theorem C10_congruent (x x' y : Obj) (hx : x.WF) (hx' : x'.WF) (hy : y.WF) (hc : x.cls = y.cls)
    (h : SameData x x') : Obj.eq x y = Obj.eq x' y := by
  have hc' : x'.cls = y.cls := h.cls.symm.trans hc
  rw [Bool.eq_iff_iff, eq_iff_same x y hx hy hc, eq_iff_same x' y hx' hy hc']
  exact ⟨h.symm.trans, h.trans⟩

/-- C10: equal containers have pairwise equal members in the same order. -/
theorem C10_members (x y : Obj) (hx : x.WF) (hy : y.WF) (hc : x.cls = y.cls)
    (h : Obj.eq x y = true) :
    x.kids.length = y.kids.length ∧ x.md.length = y.md.length ∧
    (∀ (i : Nat) a b, x.kids[i]? = some a → y.kids[i]? = some b → Obj.eq a b = true) ∧
    (∀ (i : Nat) a b, x.md[i]? = some a → y.md[i]? = some b → Obj.eq a b = true) := by
  have hs := (eq_iff_same x y hx hy hc).1 h
  cases hs with
  | @mk a b md md' ks ks' h1 h2 h3 h4 h5 h6 h7 h8 h9 h10 h11 =>
    cases hx with | mk ax tx nx mx cmx ckx wmx wkx =>
    cases hy with | mk ay ty ny my cmy cky wmy wky =>
    refine ⟨h9, h8, fun i p q hp hq => ?_, fun i p q hp hq => ?_⟩
    · have m1 := List.mem_of_getElem? hp
      have m2 := List.mem_of_getElem? hq
      exact (eq_iff_same p q (wkx p m1) (wky q m2) (h11 i p q hp hq).cls).2 (h11 i p q hp hq)
    · have m1 := List.mem_of_getElem? hp
      have m2 := List.mem_of_getElem? hq
      exact (eq_iff_same p q (wmx p m1) (wmy q m2) (h10 i p q hp hq).cls).2 (h10 i p q hp hq)

/-! ### C11 -/

/-- C11 fails: an empty Item equals an empty Meta but not the other way round; likewise Meta and
MetaChild, Item and MetaChild. -/
theorem C11_refuted :
    let item := Obj.mk { cls := .item } [] []
    let m := Obj.mk { cls := .metaC } [] []
    let mc := Obj.mk { cls := .metaChild, name := some (lit! "x") } [] []
    (item.WF ∧ m.WF ∧ mc.WF) ∧
    (Obj.eq item m = true ∧ Obj.eq m item = false) ∧
    (Obj.eq m mc = true ∧ Obj.eq mc m = false) ∧
    (Obj.eq item mc = true ∧ Obj.eq mc item = false) := by
  refine ⟨⟨?_, ?_, ?_⟩, by decide +kernel, by decide +kernel, by decide +kernel⟩ <;>
    exact .mk Dict.wf_nil (by simp [Cls.hasText]) (by simp) (by simp) (by simp) (by simp) (by simp) (by simp)

/-- C11 (all pairs of classes but Item/Meta/MetaChild among each other): `==` is symmetric, and
objects of different classes are unequal. -/
theorem C11_partial (x y : Obj) (hx : x.WF) (hy : y.WF) (hp : ¬ MixedPair x.cls y.cls) :
    Obj.eq x y = Obj.eq y x ∧ (x.cls ≠ y.cls → Obj.eq x y = false) := by
  have hf : x.cls ≠ y.cls → Obj.eq x y = false ∧ Obj.eq y x = false := by
    intro hc
    have h : ¬ (x.cls.hasText = true ∧ y.cls.hasText = true) := fun h => hp ⟨hc, h.1, h.2⟩
    exact ⟨eq_false_of_cls hc h, eq_false_of_cls (fun e => hc e.symm) (fun h' => h ⟨h'.2, h'.1⟩)⟩
  refine ⟨?_, fun hc => (hf hc).1⟩
  by_cases hc : x.cls = y.cls
  · exact C10_equivalence.2.1 x y hx hy hc
  · rw [(hf hc).1, (hf hc).2]

/-! ### C12 -/

/-- C12 fails for every class but Item: two empty containers with different IDs are neither equal
nor unequal. -/
theorem C12_refuted : ∀ c : Cls, c ≠ .item → ∃ x y : Obj, x.WF ∧ y.WF ∧ x.cls = c ∧ y.cls = c ∧
    Obj.eq x y = false ∧ Obj.ne x y = false := by
  intro c hc
  refine ⟨.mk { cls := c, ns := some ['a'], name := if c = .metaChild then some ['n'] else none } [] [],
    .mk { cls := c, ns := some ['b'], name := if c = .metaChild then some ['n'] else none } [] [],
    ?_, ?_, rfl, rfl, ?_, ?_⟩
  · exact .mk Dict.wf_nil (by simp) (by cases c <;> simp) (by simp) (by simp) (by simp) (by simp) (by simp)
  · exact .mk Dict.wf_nil (by simp) (by cases c <;> simp) (by simp) (by simp) (by simp) (by simp) (by simp)
  · cases c <;> decide +kernel
  · cases c <;> first | exact absurd rfl hc | decide +kernel

/-- C12, what holds: for items `!=` negates `==`; for all other classes `!=` says whether the
contents differ, so unequal objects are never `==`, and for objects with the same data apart from
their contents `!=` negates `==`. -/
theorem C12_partial (x y : Obj) (hx : x.WF) (hy : y.WF) (hc : x.cls = y.cls) :
    (x.cls = .item → Obj.ne x y = !Obj.eq x y) ∧
    (Obj.ne x y = true → Obj.eq x y = false) ∧
    (x.cls ≠ .item → (Obj.ne x y = false ↔ x.kids.length = y.kids.length ∧
      ∀ (i : Nat) a b, x.kids[i]? = some a → y.kids[i]? = some b → SameData a b)) ∧
    (x.data = y.data → x.md = y.md → Obj.ne x y = !Obj.eq x y) := by
  have hk : x.cls ≠ .item → (Obj.ne x y = false ↔ x.kids.length = y.kids.length ∧
      ∀ (i : Nat) a b, x.kids[i]? = some a → y.kids[i]? = some b → SameData a b) := by
    intro hi
    have : Obj.ne x y = !(decide (x.kids.length = y.kids.length) && Obj.zipEq x.kids y.kids) := by
      unfold Obj.ne
      split
      · rename_i h; exact absurd h hi
      · rfl
    rw [this]
    simp only [Bool.not_eq_false', Bool.and_eq_true, decide_eq_true_eq, zipEq_iff]
    refine and_congr_right fun _ => ?_
    constructor <;> intro h i a b ha hb <;>
    · have m1 := List.mem_of_getElem? ha
      have m2 := List.mem_of_getElem? hb
      have key : Obj.eq a b = true ↔ SameData a b := by
        obtain ⟨d, md, ks⟩ := x
        obtain ⟨d', md', ks'⟩ := y
        cases hx with | mk ax tx nx mx cmx ckx wmx wkx =>
        cases hy with | mk ay ty ny my cmy cky wmy wky =>
        refine eq_iff_same a b (wkx a m1) (wky b m2) ?_
        have e1 := ckx a m1
        have e2 := cky b m2
        simp only [Obj.cls_mk] at hc
        rw [hc, ← e2] at e1
        exact Option.some.inj e1
      have := h i a b ha hb
      grind
  have hitem : x.cls = .item → Obj.ne x y = !Obj.eq x y := by intro h; simp [Obj.ne, h]
  refine ⟨hitem, ?_, hk, ?_⟩
  · intro hn
    by_cases hi : x.cls = .item
    · rw [hitem hi] at hn; simpa using hn
    · cases he : Obj.eq x y with
      | false => rfl
      | true =>
        exfalso
        have hs := (eq_iff_same x y hx hy hc).1 he
        have : Obj.ne x y = false := by
          rw [hk hi]
          cases hs with
          | mk h1 h2 h3 h4 h5 h6 h7 h8 h9 h10 h11 => exact ⟨h9, h11⟩
        rw [this] at hn; cases hn
  · intro hd hm
    by_cases hi : x.cls = .item
    · exact hitem hi
    · have he : Obj.eq x y = true ↔ Obj.ne x y = false := by
        rw [eq_iff_same x y hx hy hc, hk hi]
        constructor
        · intro hs
          cases hs with
          | mk h1 h2 h3 h4 h5 h6 h7 h8 h9 h10 h11 => exact ⟨h9, h11⟩
        · rintro ⟨h9, h11⟩
          obtain ⟨d, md, ks⟩ := x
          obtain ⟨d', md', ks'⟩ := y
          simp only [Obj.data_mk, Obj.md_mk] at hd hm
          subst hd hm
          refine .mk rfl rfl rfl rfl rfl rfl (.refl _) rfl h9 ?_ h11
          intro i a b h1 h2; rw [h1] at h2; cases h2; exact .refl a
      cases h1 : Obj.eq x y <;> cases h2 : Obj.ne x y <;> simp_all

/-! ### Concrete cases -/

/-- a tier with metadata, two items, attributes -/
def exTier (attrs : Dict Str Str) : Obj :=
  .mk { cls := .tier, id := some (lit! "w"), type := some (lit! "words"), attrs := attrs }
    [.mk { cls := .metadata } [] [.mk { cls := .metaC, type := some (lit! "k"), text := some (lit! "v") } []
      [.mk { cls := .metaChild, name := some (lit! "dc") } [] []]]]
    [.mk { cls := .item, id := some (lit! "w1"), text := some (lit! "a") } [] [],
     .mk { cls := .item, id := some (lit! "w2") } [] []]

/-- the hypothesis WF is met by a tree using every level below a tier -/
theorem exTier_wf : (exTier [(lit! "a", lit! "1"), (lit! "b", lit! "2")]).WF := by
  refine .mk (by simp [Dict.WF, Dict.keys]) (by simp) (by simp) (by simp [Cls.hasMd]) ?_ ?_ ?_ ?_
  · simp [Obj.cls]
  · simp [Obj.cls, Cls.contained]
  · intro x hx
    simp only [List.mem_singleton] at hx; subst hx
    refine .mk Dict.wf_nil (by simp) (by simp) (by simp) (by simp) (by simp [Obj.cls, Cls.contained]) (by simp) ?_
    intro x hx
    simp only [List.mem_singleton] at hx; subst hx
    refine .mk Dict.wf_nil (by simp [Cls.hasText]) (by simp) (by simp) (by simp) (by simp [Obj.cls, Cls.contained]) (by simp) ?_
    intro x hx
    simp only [List.mem_singleton] at hx; subst hx
    exact .mk Dict.wf_nil (by simp) (by simp) (by simp) (by simp) (by simp) (by simp) (by simp)
  · intro x hx
    simp only [List.mem_cons, List.not_mem_nil, or_false] at hx
    rcases hx with rfl | rfl <;>
      exact .mk Dict.wf_nil (by simp [Cls.hasText]) (by simp) (by simp) (by simp) (by simp) (by simp) (by simp)

example : Obj.eq (exTier [(lit! "a", lit! "1"), (lit! "b", lit! "2")])
    (exTier [(lit! "b", lit! "2"), (lit! "a", lit! "1")]) = true := by decide +kernel
example : Obj.eq (exTier [(lit! "a", lit! "1"), (lit! "b", lit! "2")])
    (exTier [(lit! "a", lit! "1")]) = false := by decide +kernel
example : ¬ MixedPair .tier .item := by simp [MixedPair, Cls.hasText]

end Xigt
