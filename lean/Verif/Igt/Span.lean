import Verif.Igt.RefProps
import Verif.Ref.Props
/-
C123: parts of values, /repo/xigt/model.py:406-410 `Item.span`, and C124: /repo/xigt/ref.py:268-285, 296-304
`dereference`, `dereference_all`, `get_aligned_tier`.
-/

set_option linter.unusedSectionVars false

namespace Xigt

/-! ### Specification -/

/-- the place between characters that a bound stands for: negative ones count from the end, and those beyond an end stand for it -/
def place (n : Nat) (i : Int) : Int := max 0 (min n (if i < 0 then n + i else i))

/-- `s` is what stands in `v` between two places -/
def Between (v : Str) (a b : Int) (s : Str) : Prop :=
  (s.length : Int) = max 0 (place v.length b - place v.length a) ∧
  ∀ k : Nat, k < s.length → s[k]? = v[(place v.length a).toNat + k]?

/-- there is one such text only -/
theorem between_unique {v : Str} {a b : Int} {s t : Str} (h : Between v a b s) (g : Between v a b t) : s = t := by
  have hl : s.length = t.length := by have := h.1; have := g.1; omega
  apply List.ext_getElem? 
  intro k
  by_cases hk : k < s.length
  · rw [h.2 k hk, g.2 k (by omega)]
  · rw [List.getElem?_eq_none (by omega), List.getElem?_eq_none (by omega)]

/-- slices of Python as they are modelled -/
theorem pySlice_between (v : Str) (a b : Int) : Between v a b (pySlice v (some a) (some b)) := by
  have hc : ∀ i : Int, place v.length i = (clip v.length i : Nat) := by
    intro i
    unfold place clip
    split <;> omega
  have hle : ∀ i : Int, clip v.length i ≤ v.length := by
    intro i
    unfold clip
    split <;> omega
  have hlen : (pySlice v (some a) (some b)).length = clip v.length b - clip v.length a := by
    simp only [pySlice, List.length_take, List.length_drop]
    have := hle b
    omega
  refine ⟨by rw [hlen, hc, hc]; omega, ?_⟩
  intro k hk
  rw [hlen] at hk
  rw [hc]
  simp only [pySlice, List.getElem?_take, List.getElem?_drop, Int.toNat_natCast]
  rw [if_pos (by omega)]

section
variable [Uni]

/-- **C123**: `span(a, b)` is what stands between the two places of the value; None without value; what value() raises, it
raises. -/
theorem C123_span (fuel : Nat) (igt tier : Option Obj) (x : Obj) (a b : Int) :
    (∀ v, value fuel igt tier x = .ok (some v) → ∃ s, itemSpan fuel igt tier x a b = .ok (some s) ∧ Between v a b s) ∧
    (value fuel igt tier x = .ok none → itemSpan fuel igt tier x a b = .ok none) ∧
    (∀ e, value fuel igt tier x = .error e → itemSpan fuel igt tier x a b = .error e) := by
  unfold itemSpan
  refine ⟨?_, ?_, ?_⟩
  · intro v h
    exact ⟨_, by rw [h]; rfl, pySlice_between v a b⟩
  · intro h; rw [h]; rfl
  · intro e h; rw [h]; rfl

/-- **C123**: a reference `i[a:b]` resolves to what `span(a, b)` gives for the item `i` (nothing, where that gives None). -/
theorem C123_reference (get : Str → Option (Py (Option Str))) (fuel : Nat) (igt tier : Option Obj) (x : Obj) (i : Str) (s : SpanE)
    (hi : IdOK i) (hs : s.OK) (hx : get i = some (value fuel igt tier x)) :
    resolve get (i ++ '[' :: (s.render ++ [']'])) = (itemSpan fuel igt tier x s.a.value s.b.value).map (fun r => r.getD []) := by
  have he : Expr.Simple ⟨⟨i, some ⟨s, []⟩⟩, []⟩ := by
    refine ⟨⟨hi, ?_⟩, by intro p hp; cases hp⟩
    intro r hr
    cases hr
    exact ⟨hs, by intro p hp; cases hp⟩
  have h := C17_resolve get _ he
  have hr : Expr.render ⟨⟨i, some ⟨s, []⟩⟩, []⟩ = i ++ '[' :: (s.render ++ [']']) := by
    simp [Expr.render, Sel.render, Sel.rangeStr, RangeE.render]
  rw [hr] at h
  rw [h]
  cases hv : value fuel igt tier x with
  | error e => simp [Expr.denote, Sel.denote, hx, hv, itemSpan, bind, Except.bind, Except.map]
  | ok v =>
    cases v with
    | none => 
      simp only [Expr.denote, Sel.denote, hx, hv, itemSpan, bind, Except.bind, Except.map, denoteTail, Sel.select, SpanE.select, Option.getD_none, Option.map_none,
        List.flatMap_nil, List.append_nil]
      congr 1
      simp [pySlice]
    | some v => simp [Expr.denote, Sel.denote, hx, hv, itemSpan, bind, Except.bind, Except.map, denoteTail, Sel.select, SpanE.select]

/-! ### Following references -/

/-- ref.py:278-285 `dereference_all` of a tier or item; `igt` is its igt (`None.get_any` is an AttributeError) -/
def dereferenceAll (igt : Option IgtState) (x : Obj) (ra : Str) : Py (List (Option Entry)) := do
  let e ← Dict.getItem x.data.attrs ra
  match ids e, igt with
  | [], _ => .ok []
  | _ :: _, none => .error .attributeError
  | is, some st => .ok (is.map (getAny st))

/-- ref.py:296-304 `get_aligned_tier` of a tier in an igt; `XigtAttributeError` is not imported in ref.py.  A key with a
namespace is not modelled. -/
def getAlignedTier (igt : Obj) (t : Obj) (ra : Str) : Py (Option Obj) :=
  match Dict.get? t.data.attrs ra with
  | none => .error .nameError
  | some i => .ok (contGet igt.kids i)

/-- nothing but current items is in the item index -/
def Current (st : IgtState) : Prop := ∀ i e, igtGetItem st (some i) = some e → e ∈ itemEntries st.igt ∧ e.id = some i

/-- so it is in an igt as it is made -/
theorem new_current (allowed : Entry → List Str) (igt : Obj) : Current (newIgt allowed igt) := by
  intro i e h
  rw [newIgt, get?_refreshItems] at h
  split at h
  · rename_i f hf
    cases h
    exact ⟨List.mem_reverse.1 (List.mem_of_find?_eq_some hf), by simpa using List.find?_some hf⟩
  · cases h

theorem getAny_iff {st : IgtState} (hok : IgtOK st.igt) (hx : Indexed st) (hc : Current st) {i : Str} (hi : IdOK i) (e : Entry) :
    getAny st i = some e ↔ e ∈ tierEntries st.igt ++ itemEntries st.igt ∧ e.id = some i := by
  constructor
  · intro h
    by_cases ht : ∃ t ∈ st.igt.kids, t.data.id = some i
    · obtain ⟨t, ht, hti⟩ := ht
      have h1 : (⟨none, t⟩ : Entry) ∈ tierEntries st.igt := mem_tierEntries.2 ⟨rfl, ht⟩
      have h2 := getAny_tier hok h1 (i := i) hti
      rw [h] at h2
      cases h2
      exact ⟨List.mem_append_left _ h1, hti⟩
    · have hno : ∀ t ∈ st.igt.kids, t.data.id ≠ some i := fun t ht' hti => ht ⟨t, ht', hti⟩
      have ha : idAccepted i = true := by
        obtain ⟨c, cs, rfl, hl, _⟩ := hi
        exact (idAccepted_iff _).2 ⟨c, cs, rfl, hl⟩
      rw [getAny, contGet_none ha hno] at h
      exact ⟨List.mem_append_right _ (hc i e h).1, (hc i e h).2⟩
  · rintro ⟨he, hi⟩
    rcases List.mem_append.1 he with he | he
    · exact getAny_tier hok he hi
    · exact getAny_item hok hx he hi

/-- **C124** (where the item index is exact and no ID is used twice): `dereference_all` gives for each ID in the attribute, in order,
the tier or item of the igt with this ID, and None if there is none; `dereference` gives the first of these, and raises
IndexError if there are no IDs; both raise KeyError without the attribute. -/
theorem C124_partial (st : IgtState) (hok : IgtOK st.igt) (hx : Indexed st) (hc : Current st) (x : Obj) (ra : Str) :
    (Dict.get? x.data.attrs ra = none → dereferenceAll (some st) x ra = .error .keyError ∧ dereference st x ra = .error .keyError) ∧
    ∀ v, Dict.get? x.data.attrs ra = some v → ∃ l, dereferenceAll (some st) x ra = .ok l ∧ l.length = (ids v).length ∧
      (∀ (k : Nat) (i : Str) (r : Option Entry), (ids v)[k]? = some i → l[k]? = some r →
        ∀ e, r = some e ↔ e ∈ tierEntries st.igt ++ itemEntries st.igt ∧ e.id = some i) ∧
      dereference st x ra = (match l with
        | [] => .error .indexError
        | r :: _ => .ok r) := by
  constructor
  · intro h
    simp only [dereferenceAll, dereference, Dict.getItem, h, bind, Except.bind, and_self]
  · intro v hv
    refine ⟨(ids v).map (getAny st), ?_, by simp, ?_, ?_⟩
    · simp only [dereferenceAll, Dict.getItem, hv, bind, Except.bind]
      cases hi : ids v with
      | nil => rfl
      | cons i is => rfl
    · intro k i r hk hr e
      rw [List.getElem?_map, hk] at hr
      cases hr
      exact getAny_iff hok hx hc (C13_ids_occur v i (List.mem_of_getElem? hk)).1 e
    · simp only [dereference, Dict.getItem, hv, bind, Except.bind]
      cases hi : ids v with
      | nil => rfl
      | cons i is => rfl

/-- **C124**: `get_aligned_tier` gives the tier the attribute refers to, where that is the ID of a tier -/
theorem C124_tier {igt : Obj} (hok : IgtOK igt) {t u : Obj} {ra i : Str} (ht : Dict.get? t.data.attrs ra = some i) (hu : u ∈ igt.kids)
    (hi : u.data.id = some i) : getAlignedTier igt t ra = .ok (some u) := by
  rw [getAlignedTier, ht]
  exact congrArg Except.ok (contGet_tier hok hu hi)

/-- C124 fails of tiers without the attribute: `get_aligned_tier` raises NameError instead of a XigtAttributeError. -/
theorem C124_refuted (igt t : Obj) (ra : Str) (h : Dict.get? t.data.attrs ra = none) : getAlignedTier igt t ra = .error .nameError := by
  rw [getAlignedTier, h]

end

section
attribute [local instance] asciiUni

/-- the hypotheses are met, and spans count from either end -/
example : IdOK (lit! "a1") ∧ (SpanE.mk ⟨false, ['1']⟩ ⟨true, ['1']⟩).OK ∧ (SpanE.mk ⟨false, ['1']⟩ ⟨true, ['1']⟩).b.value = -1 ∧
    itemSpan 1 none none (.mk { cls := .item, text := some (lit! "perro") } [] []) 1 (-1) = .ok (some (lit! "err")) :=
  ⟨⟨'a', ['1'], rfl, rfl, by decide⟩, ⟨⟨by decide, by decide⟩, ⟨by decide, by decide⟩⟩, by decide, by decide⟩

/-- C124 fails after an item was removed: it is still found by references to it. -/
theorem C124_refuted_removed : ∃ hist st, History stdAllowed hist st ∧ itemEntries st.igt = [] ∧
    ∃ e, dereferenceAll (some st) (mkItem "b" [("alignment", "a")]) ALIGNMENT = .ok [some e] := by
  refine ⟨_, histStep stdAllowed (newIgt stdAllowed (mkIgt [mkTier "t" [] [mkItem "a" []]]))
    (.edit (mkIgt [mkTier "t" [] []])), .step _ (.new _), rfl,
    ⟨some (mkTier "t" [] [mkItem "a" []]), mkItem "a" []⟩, rfl⟩

/-- the hypotheses of C124_partial are met -/
example : IgtOK exRefIgt ∧ Indexed (newIgt stdAllowed exRefIgt) ∧ Current (newIgt stdAllowed exRefIgt) :=
  ⟨⟨by decide +kernel, by decide +kernel⟩, refresh_indexed _ _ (by decide +kernel), new_current _ _⟩

end
end Xigt
