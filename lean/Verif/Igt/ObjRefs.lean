import Verif.Igt.RefProps
/-
C122: the methods of tiers and items, /repo/xigt/mixins.py:259-271 `referents` and `referrers`.
-/

set_option linter.unusedSectionVars false

namespace Xigt

section
variable [Uni]

/-- mixins.py:260-264 and 267-271: the ID to look up; `igt` is the igt of the object (an igt without tiers is false) -/
def ownId (igt : Option IgtState) (x : Obj) : Py (IgtState × Str) :=
  match igt with
  | none => .error .xigtError
  | some st =>
    if st.igt.kids.isEmpty then .error .xigtError
    else match x.data.id with
      | some (c :: cs) => .ok (st, c :: cs)
      | _ => .error .xigtError

/-- mixins.py:259-264 `XigtReferenceAttributeMixin.referents` -/
def objReferents (allowed : Entry → List Str) (igt : Option IgtState) (x : Obj) (refattrs : Option (List Str)) :
    Py (Dict Str (List Str)) := do
  let p ← ownId igt x
  igtReferents allowed p.1 p.2 refattrs

/-- mixins.py:266-271 `XigtReferenceAttributeMixin.referrers` -/
def objReferrers (allowed : Entry → List Str) (igt : Option IgtState) (x : Obj) (refattrs : Option (List Str)) :
    Py (Dict Str (List Str)) := do
  let p ← ownId igt x
  igtReferrers allowed p.1 p.2 refattrs

theorem ownId_ok {st : IgtState} {x : Obj} {i} (hk : st.igt.kids ≠ []) (hx : x.data.id = some i) (hi : idAccepted i = true) :
    ownId (some st) x = .ok (st, i) := by
  unfold ownId
  cases h : st.igt.kids with
  | nil => exact absurd h hk
  | cons t ts =>
    cases i with
    | nil =>
      obtain ⟨c, cs, hc, _⟩ := (idAccepted_iff []).1 hi
      cases hc
    | cons c cs => simp only [h, List.isEmpty_cons, Bool.false_eq_true, if_false, hx]

theorem level_kids {igt : Obj} {lv e} (h : e ∈ levelEntries igt lv) : igt.kids ≠ [] := by
  intro hk
  cases lv <;> simp [levelEntries, tierEntries, itemEntries, itemNodes, hk] at h

theorem level_mem {igt : Obj} {lv e} (h : e ∈ levelEntries igt lv) : e ∈ tierEntries igt ++ itemEntries igt := by
  cases lv with
  | tiers => exact List.mem_append_left _ h
  | items => exact List.mem_append_right _ h

/-- C122, where no ID is used twice: the referents of a tier or item are the IDs in its own attributes, its referrers
are the tiers or the items, respectively, with its ID in their attributes, in document order, under the attributes
that are asked for. -/
theorem C122_partial (allowed : Entry → List Str) (st : IgtState) (hok : IgtOK st.igt) (hx : Indexed st) (ras : List Str)
    (hn : ras.Nodup) (lv : Level) (e : Entry) (he : e ∈ levelEntries st.igt lv) (i : Str) (hi : e.id = some i) :
    (∃ m, objReferents allowed (some st) e.obj (some ras) = .ok m ∧
      ∀ ra, Dict.get? m ra = if ra ∈ ras then some (ids (attr0 e.obj ra)) else none) ∧
    (∃ m, objReferrers allowed (some st) e.obj (some ras) = .ok m ∧
      ∀ ra, listed m ra = if ra ∈ ras then
        ((levelEntries st.igt lv).filter fun f => i ∈ ids (attr0 f.obj ra)).filterMap Entry.id else []) := by
  have ho := ownId_ok (level_kids he) hi (hok.valid e (level_mem he) i hi)
  have hg := getAny_level hok hx he hi
  constructor
  · refine ⟨raMap e.obj ras, ?_, get?_raMap e.obj ras⟩
    simp only [objReferents, ho, bind, Except.bind, igtReferents, referents, hg, Option.getD_some]
  · obtain ⟨m, h1, h2⟩ := referrers_level (allowed := allowed) hok hx (List.mem_filterMap.2 ⟨e, he, hi⟩) (some ras) (fun _ => hn)
    refine ⟨m, ?_, fun ra => ?_⟩
    · simp only [objReferrers, ho, bind, Except.bind, igtReferrers, h1]
    · rw [h2 ra]
      simp only [Option.getD_some]
      by_cases hra : ra ∈ ras
      · simp only [hra, true_and, if_true]
        generalize levelEntries st.igt lv = es
        induction es with
        | nil => rfl
        | cons f es ih =>
          rw [List.filterMap_cons, List.filter_cons]
          by_cases hf : i ∈ ids (attr0 f.obj ra)
          · simp only [hf, if_true, decide_true, List.filterMap_cons]
            cases f.id with
            | none => exact ih
            | some j => exact congrArg (j :: ·) ih
          · simp only [hf, if_false, decide_false]
            exact ih
      · simp [hra]

/-- C122 without a list of attributes, right after `refresh_indices()`: the attributes are those allowed for the object;
referrers are the tiers and items with the ID in one of the attributes allowed for them. -/
theorem C122_cached (allowed : Entry → List Str) (st : IgtState) (hok : IgtOK st.igt)
    (lv : Level) (e : Entry) (he : e ∈ levelEntries st.igt lv) (i : Str) (hi : e.id = some i) :
    (∃ m, objReferents allowed (some (refreshIndices allowed st)) e.obj none = .ok m ∧
      ∀ ra, Dict.get? m ra = if ra ∈ allowed e then some (ids (attr0 e.obj ra)) else none) ∧
    (∃ m, objReferrers allowed (some (refreshIndices allowed st)) e.obj none = .ok m ∧
      ∀ ra b, b ∈ listed m ra ↔ ∃ f ∈ tierEntries st.igt ++ itemEntries st.igt, f.id = some b ∧ ra ∈ allowed f ∧
        i ∈ ids (attr0 f.obj ra)) := by
  have hk : (refreshIndices allowed st).igt.kids ≠ [] := level_kids he
  have ho := ownId_ok hk hi (hok.valid e (level_mem he) i hi)
  have hx := refresh_indexed allowed st hok.items
  have own : ∀ (f : Entry) (b : Str), f ∈ tierEntries st.igt ++ itemEntries st.igt → f.id = some b →
      igtReferents allowed (refreshIndices allowed st) b none = .ok (raMap f.obj (allowed f)) := by
    intro f b hf hb
    obtain ⟨lv', hf'⟩ : ∃ lv', f ∈ levelEntries st.igt lv' := by
      rcases List.mem_append.1 hf with h | h
      · exact ⟨.tiers, h⟩
      · exact ⟨.items, h⟩
    rw [(C24_partial allowed st).1 hok lv' b (List.mem_filterMap.2 ⟨f, hf', hb⟩), referents,
      getAny_level (st := refreshIndices allowed st) hok hx hf' hb]
    rfl
  constructor
  · refine ⟨raMap e.obj (allowed e), ?_, get?_raMap e.obj _⟩
    simp only [objReferents, ho, bind, Except.bind]
    exact own e i (level_mem he) hi
  · refine ⟨(Dict.get? (refreshIndices allowed st).referrerC i).getD [],
      by simp only [objReferrers, ho, bind, Except.bind, igtReferrers], fun ra b => ?_⟩
    obtain ⟨mr, mb, h1, h2, h3⟩ := (C24_partial allowed st).2.2 i b ra
    have h1 := Except.ok.inj h1
    rw [h1, h3]
    constructor
    · intro hm
      have h2' := Except.ok.inj h2
      have hb : mb = ((Dict.get? (idsMap allowed (tierEntries st.igt ++ itemEntries st.igt)) b).getD []) := h2'.symm
      rw [get?_idsMap] at hb
      cases hf : (tierEntries st.igt ++ itemEntries st.igt).reverse.find? (fun e => decide (e.id = some b)) with
      | none => rw [hf] at hb; subst hb; cases hm
      | some f =>
        have hfm := List.mem_reverse.1 (List.mem_of_find?_eq_some hf)
        have hfb : f.id = some b := by simpa using List.find?_some hf
        rw [hf] at hb
        subst hb
        rw [Option.map_some, Option.getD_some, listed_raMap] at hm
        split at hm
        · next hr => exact ⟨f, hfm, hfb, hr, hm⟩
        · cases hm
    · rintro ⟨f, hf, hfb, hr, hm⟩
      rw [own f b hf hfb] at h2
      cases h2
      rw [listed_raMap, if_pos hr]
      exact hm

/-- C122: for an object without igt (or with one that has no tiers) or without ID, XigtError. -/
theorem C122_errors (allowed : Entry → List Str) (igt : Option IgtState) (x : Obj) (refattrs : Option (List Str))
    (h : (∀ st, igt = some st → st.igt.kids = []) ∨ x.data.id = none) :
    objReferents allowed igt x refattrs = .error .xigtError ∧ objReferrers allowed igt x refattrs = .error .xigtError := by
  have : ownId igt x = .error .xigtError := by
    unfold ownId
    cases igt with
    | none => rfl
    | some st =>
      rcases h with h | h
      · simp [h st rfl]
      · cases hk : st.igt.kids <;> simp [h]
  simp only [objReferents, objReferrers, this, bind, Except.bind, and_self]

end

section
attribute [local instance] asciiUni

/-- an item with the ID of its tier -/
def exSame : Obj := mkIgt [mkTier "b" [] [mkItem "b1" []], mkTier "a" [("alignment", "b")] [mkItem "a" [("alignment", "b1")]]]

/-- C122 fails: an item with the ID of a tier is given the referents of the tier (with a list of attributes; without,
the tier is given those of the item). -/
theorem C122_refuted : ∃ (t x : Obj), t ∈ exSame.kids ∧ x ∈ t.kids ∧ attr0 x ALIGNMENT = lit! "b1" ∧ attr0 t ALIGNMENT = lit! "b" ∧
    objReferents stdAllowed (some (newIgt stdAllowed exSame)) x (some [ALIGNMENT]) = .ok [(ALIGNMENT, [lit! "b"])] ∧
    (objReferents stdAllowed (some (newIgt stdAllowed exSame)) t none).map (fun m => listed m ALIGNMENT) = .ok [lit! "b1"] :=
  ⟨mkTier "a" [("alignment", "b")] [mkItem "a" [("alignment", "b1")]], mkItem "a" [("alignment", "b1")],
    List.mem_cons_of_mem _ (List.mem_cons_self ..), List.mem_cons_self .., by decide +kernel, by decide +kernel,
    by decide +kernel, by decide +kernel⟩

/-- the hypotheses of C122_partial and C122_cached are met -/
example : IgtOK exRefIgt ∧ Indexed (newIgt stdAllowed exRefIgt) ∧
    ∃ e ∈ levelEntries exRefIgt .tiers, e.id = some (lit! "m") ∧ ids (attr0 e.obj SEGMENTATION) = [lit! "w"] :=
  ⟨⟨by decide +kernel, by decide +kernel⟩, refresh_indexed _ _ (by decide +kernel),
    ⟨none, mkTier "m" [("segmentation", "w")] [mkItem "m1" [("segmentation", "w1")], mkItem "m2" [("segmentation", "w1+w2")]]⟩,
    List.mem_cons_of_mem _ (List.mem_cons_self ..), rfl, by decide +kernel⟩

end
end Xigt
