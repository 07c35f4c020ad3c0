import Verif.Igt.RefProps
import Verif.Tree.WfCheck
import Verif.Equality.Props
/-
C169: the warnings of Igt.refresh_indices() about items that already exist, /repo/xigt/model.py:157-166.

`warnings.warn` is modelled by the sequence of its calls; which of them are shown depends on the filters of the program.
-/
set_option linter.unusedSectionVars false

namespace Xigt

/-! ### Model -/

/-- model.py:160 `idict.get(i_id, item) != item` -/
def existsOther (d : Dict (Option Str) (Obj × Obj)) (x : Obj) : Bool :=
  Obj.ne (((Dict.get? d x.data.id).map Prod.snd).getD x) x

/-- model.py:157-166: the item index, and the IDs of the items of which there is a warning -/
def refreshItemsW (d : Dict (Option Str) (Obj × Obj)) : List (Obj × Obj) → List (Option Str) × Dict (Option Str) (Obj × Obj)
  | [] => ([], d)
  | n :: ns =>
    let r := refreshItemsW (Dict.set d n.2.data.id n) ns
    (if existsOther d n.2 then n.2.data.id :: r.1 else r.1, r.2)

/-- model.py:161-164 `'Item "{}" already exists in Igt.'.format(i_id)` -/
def existsText (i : Option Str) : Str := lit! "Item \"" ++ i.getD (lit! "None") ++ lit! "\" already exists in Igt."

/-- the warnings of `refresh_indices()` -/
def refreshWarnings (st : IgtState) : List Str := (refreshItemsW st.itemdict (itemNodes st.igt)).1.map existsText

/-! ### Specification -/

/-- the items of an igt, tier by tier -/
def allItems (igt : Obj) : List Obj := igt.kids.flatMap Obj.kids

/-- two of these with the ID are different -/
def Differ (i : Option Str) (xs : List Obj) : Prop := ∃ x ∈ xs, ∃ y ∈ xs, x.data.id = i ∧ y.data.id = i ∧ ¬ SameData x y

/-- the last of these with the ID -/
def LastWith (xs : List Obj) (i : Option Str) (y : Obj) : Prop := ∃ a b, xs = a ++ y :: b ∧ y.data.id = i ∧ ∀ z ∈ b, z.data.id ≠ i

/-! ### Properties -/

/-- **C169**: the warnings change nothing. -/
theorem C169_same (d : Dict (Option Str) (Obj × Obj)) (ns : List (Obj × Obj)) : (refreshItemsW d ns).2 = refreshItems d ns := by
  induction ns generalizing d with
  | nil => rfl
  | cons n ns ih => rw [refreshItemsW]; exact ih _

/-- the items are items -/
def ItemsOK (xs : List Obj) : Prop := ∀ x ∈ xs, x.WF ∧ x.cls = .item

/-- the item of the index with the ID, and those of the list -/
def sharing (d : Dict (Option Str) (Obj × Obj)) (ns : List (Obj × Obj)) (i : Option Str) : List Obj :=
  ((Dict.get? d i).map Prod.snd).toList ++ (ns.map Prod.snd).filter fun x => decide (x.data.id = i)

theorem warned_iff (i : Option Str) : ∀ (ns : List (Obj × Obj)) (d : Dict (Option Str) (Obj × Obj)), ItemsOK (sharing d ns i) →
    (i ∈ (refreshItemsW d ns).1 ↔ ∃ x ∈ sharing d ns i, ∃ y ∈ sharing d ns i, ¬ SameData x y) := by
  intro ns
  induction ns with
  | nil =>
    intro d _
    simp only [refreshItemsW, sharing, List.map_nil, List.filter_nil, List.append_nil, List.not_mem_nil, false_iff]
    rintro ⟨x, hx, y, hy, h⟩
    cases hd : Dict.get? d i with
    | none => rw [hd] at hx; cases hx
    | some n =>
      rw [hd] at hx hy
      simp only [Option.map_some, Option.toList_some, List.mem_singleton] at hx hy
      subst hx hy
      exact h (.refl _)
  | cons n ns ih =>
    intro d hok
    rw [refreshItemsW]
    by_cases hi : n.2.data.id = i
    · have hnew : sharing (Dict.set d n.2.data.id n) ns i = n.2 :: (ns.map Prod.snd).filter fun x => decide (x.data.id = i) := by
        simp [sharing, Dict.get?_set, hi]
      cases hd : Dict.get? d i with
      | none =>
        have hold : sharing d (n :: ns) i = sharing (Dict.set d n.2.data.id n) ns i := by rw [hnew]; simp [sharing, hd, hi]
        rw [hold] at hok ⊢
        have hn : n.2.cls = .item ∧ n.2.WF := by
          have := hok n.2 (by rw [hnew]; simp)
          exact ⟨this.2, this.1⟩
        have hw : existsOther d n.2 = false := by
          unfold existsOther
          rw [hi, hd]
          simp only [Option.map_none, Option.getD_none]
          rw [(C12_partial n.2 n.2 hn.2 hn.2 rfl).1 hn.1, C10_equivalence.1 n.2 hn.2]
          rfl
        rw [hw]
        simp only [Bool.false_eq_true, if_false]
        exact ih _ hok
      | some m =>
        have hold : sharing d (n :: ns) i = m.2 :: sharing (Dict.set d n.2.data.id n) ns i := by rw [hnew]; simp [sharing, hd, hi]
        rw [hold] at hok ⊢
        have hm := hok m.2 (by simp)
        have hn := hok n.2 (by rw [hnew]; simp)
        have hrest : ItemsOK (sharing (Dict.set d n.2.data.id n) ns i) := fun x hx => hok x (by simp [hx])
        have hw : existsOther d n.2 = true ↔ ¬ SameData m.2 n.2 := by
          unfold existsOther
          rw [hi, hd]
          simp only [Option.map_some, Option.getD_some]
          rw [(C12_partial m.2 n.2 hm.1 hn.1 (by rw [hm.2, hn.2])).1 hm.2, ← C10_eq_is_same_data m.2 n.2 hm.1 hn.1 (by rw [hm.2, hn.2])]
          simp
        have hin : n.2 ∈ sharing (Dict.set d n.2.data.id n) ns i := by rw [hnew]; simp
        constructor
        · intro h
          by_cases hs : SameData m.2 n.2
          · have : ¬ existsOther d n.2 = true := fun e => hw.1 e hs
            simp only [this] at h
            obtain ⟨x, hx, y, hy, hxy⟩ := (ih _ hrest).1 h
            exact ⟨x, by simp [hx], y, by simp [hy], hxy⟩
          · exact ⟨m.2, by simp, n.2, by simp [hin], hs⟩
        · rintro ⟨x, hx, y, hy, hxy⟩
          by_cases hs : SameData m.2 n.2
          · have : ¬ existsOther d n.2 = true := fun e => hw.1 e hs
            simp only [this]
            refine (ih _ hrest).2 ?_
            have swap : ∀ z, z ∈ m.2 :: sharing (Dict.set d n.2.data.id n) ns i → ∃ z' ∈ sharing (Dict.set d n.2.data.id n) ns i, SameData z z' := by
              intro z hz
              rcases List.mem_cons.1 hz with rfl | hz
              · exact ⟨n.2, hin, hs⟩
              · exact ⟨z, hz, .refl z⟩
            obtain ⟨x', hx', sx⟩ := swap x hx
            obtain ⟨y', hy', sy⟩ := swap y hy
            exact ⟨x', hx', y', hy', fun h => hxy (sx.trans (h.trans sy.symm))⟩
          · simp [hw.2 hs, hi]
    · have hold : sharing d (n :: ns) i = sharing (Dict.set d n.2.data.id n) ns i := by
        simp [sharing, Dict.get?_set, hi]
      rw [hold] at hok ⊢
      rw [← ih _ hok]
      split
      · rw [List.mem_cons]
        exact ⟨fun h => h.resolve_left fun e => hi e.symm, .inr⟩
      · exact Iff.rfl

theorem refreshItemsW_append (d : Dict (Option Str) (Obj × Obj)) (a b : List (Obj × Obj)) :
    (refreshItemsW d (a ++ b)).1 = (refreshItemsW d a).1 ++ (refreshItemsW (refreshItems d a) b).1 := by
  induction a generalizing d with
  | nil => rfl
  | cons n a ih =>
    rw [List.cons_append, refreshItemsW, refreshItemsW]
    simp only
    rw [ih]
    have : refreshItems (Dict.set d n.2.data.id n) a = refreshItems d (n :: a) := rfl
    rw [this]
    split <;> rfl

theorem get?_refreshLast (ns : List (Obj × Obj)) (i : Option Str) (y : Obj) :
    (Dict.get? (refreshItems [] ns) i).map Prod.snd = some y ↔ LastWith (ns.map Prod.snd) i y := by
  have key : ∀ (ns : List (Obj × Obj)) (d : Dict (Option Str) (Obj × Obj)),
      (Dict.get? (refreshItems d ns) i).map Prod.snd = some y ↔
        LastWith (ns.map Prod.snd) i y ∨ ((∀ z ∈ ns, z.2.data.id ≠ i) ∧ (Dict.get? d i).map Prod.snd = some y) := by
    intro ns
    induction ns with
    | nil =>
      intro d
      constructor
      · exact fun h => .inr ⟨by simp, h⟩
      · rintro (⟨a, b, h, _⟩ | ⟨_, h⟩)
        · exact absurd h (by simp)
        · exact h
    | cons n ns ih =>
      intro d
      have e : refreshItems d (n :: ns) = refreshItems (Dict.set d n.2.data.id n) ns := rfl
      rw [e, ih, Dict.get?_set]
      constructor
      · rintro (⟨a, b, h, h1, h2⟩ | ⟨h1, h2⟩)
        · exact .inl ⟨n.2 :: a, b, by rw [List.map_cons, h]; rfl, h1, h2⟩
        · split at h2
          · next hi =>
            simp only [Option.map_some, Option.some.injEq] at h2
            subst h2
            refine .inl ⟨[], ns.map Prod.snd, rfl, hi, fun z hz => ?_⟩
            obtain ⟨m, hm, rfl⟩ := List.mem_map.1 hz
            exact h1 m hm
          · next hi =>
            refine .inr ⟨fun z hz => ?_, h2⟩
            rcases List.mem_cons.1 hz with rfl | hz
            · exact hi
            · exact h1 z hz
      · rintro (⟨a, b, h, h1, h2⟩ | ⟨h1, h2⟩)
        · cases a with
          | nil =>
            rw [List.map_cons, List.nil_append, List.cons.injEq] at h
            obtain ⟨rfl, rfl⟩ := h
            refine .inr ⟨fun z hz => h2 z.2 (List.mem_map.2 ⟨z, hz, rfl⟩), ?_⟩
            simp [h1]
          | cons c a =>
            rw [List.map_cons, List.cons_append, List.cons.injEq] at h
            exact .inl ⟨a, b, h.2, h1, h2⟩
        · refine .inr ⟨fun z hz => h1 z (by simp [hz]), ?_⟩
          rw [if_neg (h1 n (by simp))]
          exact h2
  rw [key]
  constructor
  · rintro (h | ⟨_, h⟩)
    · exact h
    · exact absurd h (by simp [Dict.get?])
  · exact .inl

/-- **C169**: the warnings of a new igt are those of its items in order: of one more item there is a warning exactly if it differs from the last
one before it with the same ID. -/
theorem C169_last (ns : List (Obj × Obj)) (n : Obj × Obj) (h : ItemsOK ((ns ++ [n]).map Prod.snd)) :
    ((∃ y, LastWith (ns.map Prod.snd) n.2.data.id y ∧ ¬ SameData y n.2) →
      (refreshItemsW [] (ns ++ [n])).1 = (refreshItemsW [] ns).1 ++ [n.2.data.id]) ∧
    ((¬ ∃ y, LastWith (ns.map Prod.snd) n.2.data.id y ∧ ¬ SameData y n.2) →
      (refreshItemsW [] (ns ++ [n])).1 = (refreshItemsW [] ns).1) := by
  have hn := h n.2 (by simp)
  have hex : existsOther (refreshItems [] ns) n.2 = true ↔ ∃ y, LastWith (ns.map Prod.snd) n.2.data.id y ∧ ¬ SameData y n.2 := by
    unfold existsOther
    cases hg : (Dict.get? (refreshItems [] ns) n.2.data.id).map Prod.snd with
    | none =>
      simp only [Option.getD_none]
      rw [(C12_partial n.2 n.2 hn.1 hn.1 rfl).1 hn.2, C10_equivalence.1 n.2 hn.1]
      simp only [Bool.not_true, Bool.false_eq_true, false_iff]
      rintro ⟨y, hy, _⟩
      rw [← get?_refreshLast, hg] at hy
      cases hy
    | some m =>
      have hl := (get?_refreshLast ns n.2.data.id m).1 hg
      have hm : m.WF ∧ m.cls = .item := by
        obtain ⟨a, b, e, _⟩ := hl
        exact h m (by rw [List.map_append, e]; simp)
      simp only [Option.getD_some]
      rw [(C12_partial m n.2 hm.1 hn.1 (by rw [hm.2, hn.2])).1 hm.2]
      constructor
      · intro he
        refine ⟨m, hl, fun hs => ?_⟩
        rw [(C10_eq_is_same_data m n.2 hm.1 hn.1 (by rw [hm.2, hn.2])).2 hs] at he
        cases he
      · rintro ⟨y, hy, hs⟩
        rw [← get?_refreshLast, hg] at hy
        cases hy
        cases he : Obj.eq m n.2 with
        | false => rfl
        | true => exact (hs ((C10_eq_is_same_data m n.2 hm.1 hn.1 (by rw [hm.2, hn.2])).1 he)).elim
  rw [refreshItemsW_append]
  simp only [refreshItemsW]
  constructor
  · intro hy
    rw [if_pos (hex.2 hy)]
  · intro hy
    rw [if_neg (fun e => hy (hex.1 e))]
    exact List.append_nil _

theorem allItems_nodes (igt : Obj) : (itemNodes igt).map Prod.snd = allItems igt := by
  unfold itemNodes allItems
  rw [List.map_flatMap]
  congr 1
  funext t
  rw [List.map_map]
  exact List.map_id _

theorem allItems_ok {igt : Obj} (h : igt.WF) (hc : igt.cls = .igt) : ItemsOK (allItems igt) := by
  intro x hx
  obtain ⟨t, ht, hx⟩ := List.mem_flatMap.1 hx
  obtain ⟨d, md, ks⟩ := igt
  cases h with
  | mk _ _ _ _ _ h1 _ h2 =>
    have ht1 := h1 t ht
    have ht2 := h2 t ht
    have hd : d.cls = .igt := hc
    rw [hd] at ht1
    simp only [Cls.contained, Option.some.injEq] at ht1
    obtain ⟨d', md', ks'⟩ := t
    cases ht2 with
    | mk _ _ _ _ _ h3 _ h4 =>
      have hx1 := h3 x hx
      have ht' : d'.cls = .tier := ht1
      rw [ht'] at hx1
      simp only [Cls.contained, Option.some.injEq] at hx1
      exact ⟨h4 x hx, hx1⟩

theorem fresh_sharing (igt : Obj) (i : Option Str) : sharing [] (itemNodes igt) i = (allItems igt).filter fun x => decide (x.data.id = i) := by
  rw [sharing, allItems_nodes]
  rfl

theorem fresh_differ (igt : Obj) (i : Option Str) : (∃ x ∈ sharing [] (itemNodes igt) i, ∃ y ∈ sharing [] (itemNodes igt) i, ¬ SameData x y) ↔
    Differ i (allItems igt) := by
  rw [fresh_sharing]
  simp only [List.mem_filter, decide_eq_true_eq, Differ]
  constructor
  · rintro ⟨x, ⟨hx, ex⟩, y, ⟨hy, ey⟩, h⟩; exact ⟨x, hx, y, hy, ex, ey, h⟩
  · rintro ⟨x, hx, y, hy, ex, ey, h⟩; exact ⟨x, ⟨hx, ex⟩, y, ⟨hy, ey⟩, h⟩

/-- **C169**: a new igt warns of an ID (or of `None`) exactly if two of its items with this ID (or without an ID) are different. -/
theorem C169_new (igt : Obj) (h : igt.WF) (hc : igt.cls = .igt) (i : Option Str) :
    i ∈ (refreshItemsW [] (itemNodes igt)).1 ↔ Differ i (allItems igt) := by
  rw [warned_iff i _ _ ?_, fresh_differ]
  rw [fresh_sharing]
  exact fun x hx => allItems_ok h hc x ((List.mem_filter.1 hx).1)

/-- **C169**: if it has no warning, refreshing again has none. -/
theorem C169_again [Uni] (igt : Obj) (h : igt.WF) (hc : igt.cls = .igt) (hn : refreshWarnings { igt := igt } = []) (allowed : Entry → List Str) :
    refreshWarnings (newIgt allowed igt) = [] := by
  have hno : ∀ i, ¬ Differ i (allItems igt) := by
    intro i hi
    have := (C169_new igt h hc i).2 hi
    have he := List.map_eq_nil_iff.1 hn
    rw [he] at this
    cases this
  unfold refreshWarnings
  rw [List.map_eq_nil_iff, List.eq_nil_iff_forall_not_mem]
  intro i hi
  have hd : (newIgt allowed igt).itemdict = refreshItems [] (itemNodes igt) := rfl
  have hg : (newIgt allowed igt).igt = igt := rfl
  rw [hd, hg] at hi
  -- what is in the index is an item of the igt
  have hin : ∀ (ns : List (Obj × Obj)) (d : Dict (Option Str) (Obj × Obj)) j m, Dict.get? (refreshItems d ns) j = some m →
      Dict.get? d j = some m ∨ (m ∈ ns ∧ m.2.data.id = j) := by
    intro ns
    induction ns with
    | nil => intro d j m hm; exact .inl hm
    | cons n ns ih =>
      intro d j m hm
      rcases ih _ j m hm with hm | ⟨hm, e⟩
      · rw [Dict.get?_set] at hm
        split at hm
        · next e => cases hm; exact .inr ⟨by simp, e⟩
        · exact .inl hm
      · exact .inr ⟨by simp [hm], e⟩
  have hsub : ∀ x ∈ sharing (refreshItems [] (itemNodes igt)) (itemNodes igt) i, x ∈ allItems igt ∧ x.data.id = i := by
    intro x hx
    rcases List.mem_append.1 hx with hx | hx
    · cases hm : Dict.get? (refreshItems [] (itemNodes igt)) i with
      | none => rw [hm] at hx; cases hx
      | some m =>
        rw [hm] at hx
        simp only [Option.map_some, Option.toList_some, List.mem_singleton] at hx
        subst hx
        rcases hin _ _ _ _ hm with h | ⟨h, e⟩
        · cases h
        · exact ⟨by rw [← allItems_nodes]; exact List.mem_map.2 ⟨m, h, rfl⟩, e⟩
    · rw [allItems_nodes] at hx
      obtain ⟨h1, h2⟩ := List.mem_filter.1 hx
      exact ⟨h1, of_decide_eq_true h2⟩
  obtain ⟨x, hx, y, hy, hxy⟩ := (warned_iff i _ _ (fun x hx => allItems_ok h hc x (hsub x hx).1)).1 hi
  exact hno i ⟨x, (hsub x hx).1, y, (hsub y hy).1, (hsub x hx).2, (hsub y hy).2, hxy⟩

/-- **C169**, where all items have IDs: there is a warning only if an ID is used twice, and if it is used of different items there is one, with
the ID. -/
theorem C169_partial (igt : Obj) (h : igt.WF) (hc : igt.cls = .igt) (hid : ∀ x ∈ allItems igt, x.data.id ≠ none) :
    (((allItems igt).map fun x => x.data.id).Nodup → refreshWarnings { igt := igt } = []) ∧
    (∀ i, Differ (some i) (allItems igt) → lit! "Item \"" ++ i ++ lit! "\" already exists in Igt." ∈ refreshWarnings { igt := igt }) ∧
    (∀ w ∈ refreshWarnings { igt := igt }, ∃ i, w = lit! "Item \"" ++ i ++ lit! "\" already exists in Igt." ∧ Differ (some i) (allItems igt)) := by
  refine ⟨fun hnd => ?_, fun i hi => ?_, fun w hw => ?_⟩
  · unfold refreshWarnings
    rw [List.map_eq_nil_iff, List.eq_nil_iff_forall_not_mem]
    intro i hi
    obtain ⟨x, hx, y, hy, ex, ey, hxy⟩ := (C169_new igt h hc i).1 hi
    have : x = y := by
      obtain ⟨m, hm, rfl⟩ := List.getElem_of_mem hx
      obtain ⟨n, hn, rfl⟩ := List.getElem_of_mem hy
      have : m = n := (List.getElem_inj (h₀ := by simpa using hm) (h₁ := by simpa using hn) hnd).1 (by simp [ex, ey])
      subst this
      rfl
    exact hxy (this ▸ .refl x)
  · exact List.mem_map.2 ⟨some i, (C169_new igt h hc _).2 hi, rfl⟩
  · obtain ⟨i, hi, rfl⟩ := List.mem_map.1 hw
    have hd := (C169_new igt h hc i).1 hi
    cases i with
    | none =>
      obtain ⟨x, hx, _, _, ex, _⟩ := hd
      exact (hid x hx ex).elim
    | some i => exact ⟨i, rfl, hd⟩

/-! ### Examples -/

attribute [local instance] asciiUni

/-- a tier with these items -/
def itemsTier (i : Str) (xs : List (Option Str × Str)) : Obj :=
  .mk { cls := .tier, id := some i } [] (xs.map fun x => .mk { cls := .item, id := x.1, text := some x.2 } [] [])

/-- an igt of them -/
def warnIgt (ts : List Obj) : Obj := .mk { cls := .igt } [] ts

/-- two different items `a1` in two tiers: one warning at first, and two if refreshed again -/
example : refreshWarnings { igt := warnIgt [itemsTier (lit! "a") [(some (lit! "a1"), lit! "x")], itemsTier (lit! "b") [(some (lit! "a1"), lit! "y")]] } =
      [lit! "Item \"a1\" already exists in Igt."] ∧
    (refreshWarnings (newIgt (fun _ => []) (warnIgt [itemsTier (lit! "a") [(some (lit! "a1"), lit! "x")], itemsTier (lit! "b") [(some (lit! "a1"), lit! "y")]]))).length = 2 := by
  decide +kernel

/-- items with IDs, two of them different and with the same ID, and one more that has it too -/
def threeIgt : Obj := warnIgt [itemsTier (lit! "a") [(some (lit! "a1"), lit! "x"), (some (lit! "a2"), lit! "x")],
  itemsTier (lit! "b") [(some (lit! "a1"), lit! "y"), (some (lit! "a1"), lit! "y")]]

example : threeIgt.WF ∧ threeIgt.cls = .igt ∧ (∀ x ∈ allItems threeIgt, x.data.id ≠ none) ∧
    refreshWarnings { igt := threeIgt } = [lit! "Item \"a1\" already exists in Igt."] :=
  ⟨wf_of_B (n := 9) (by decide +kernel), rfl, by decide +kernel, by decide +kernel⟩

/-- the first two of them have no warning -/
def oneTier : Obj := warnIgt [itemsTier (lit! "a") [(some (lit! "a1"), lit! "x"), (some (lit! "a2"), lit! "x")]]

example : oneTier.WF ∧ oneTier.cls = .igt ∧ ((allItems oneTier).map fun x => x.data.id).Nodup ∧ refreshWarnings { igt := oneTier } = [] :=
  ⟨wf_of_B (n := 9) (by decide +kernel), rfl, by decide +kernel, by decide +kernel⟩

/-- C169 refuted: items without IDs are warned of, though no ID is used twice -/
theorem C169_refuted_none : refreshWarnings { igt := warnIgt [itemsTier (lit! "a") [(none, lit! "x"), (none, lit! "y")]] } =
    [lit! "Item \"None\" already exists in Igt."] := by decide +kernel

/-- C169 refuted: of items with the same ID that are equal otherwise too there is no warning -/
theorem C169_refuted_equal : refreshWarnings { igt := warnIgt [itemsTier (lit! "a") [(some (lit! "a1"), lit! "x")], itemsTier (lit! "b") [(some (lit! "a1"), lit! "x")]] } =
    [] := by decide +kernel

/-- C169 refuted: an item that was taken out of the igt is still warned of when another gets its ID -/
theorem C169_refuted_removed : refreshWarnings { newIgt (fun _ => []) (warnIgt [itemsTier (lit! "a") [(some (lit! "a1"), lit! "x")]]) with
      igt := warnIgt [itemsTier (lit! "a") [(some (lit! "a1"), lit! "y")]] } = [lit! "Item \"a1\" already exists in Igt."] := by decide +kernel

end Xigt
