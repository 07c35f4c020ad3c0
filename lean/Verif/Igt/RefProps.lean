import Verif.Igt.RefLemmas
/-
Properties of references: C23, C24, C25, C64.
-/

set_option linter.unusedSectionVars false

namespace Xigt
section
variable [Uni]

/-! ### C23 -/

/-- C23: for objects `a`, `b` of one level, `b` is listed under `ra` in the referrers of `a` exactly
if `a` is listed under `ra` in the referents of `b`; the referrers are in document order, and none is
listed twice.  For explicit reference attributes and for the default ones. -/
theorem C23_inverse (allowed : Entry → List Str) (st : IgtState) (hok : IgtOK st.igt) (hx : Indexed st)
    (refattrs : Option (List Str)) (hn : ∀ e, (refattrs.getD (allowed e)).Nodup)
    (lv : Level) (a b : Str) (ha : a ∈ levelIds st.igt lv) (hb : b ∈ levelIds st.igt lv) :
    ∃ mr mb, referrers allowed st a refattrs = .ok mr ∧ referents allowed st b refattrs = .ok mb ∧
      ∀ ra, (b ∈ listed mr ra ↔ a ∈ listed mb ra) ∧ (listed mr ra).Nodup ∧
        (listed mr ra).Sublist (levelIds st.igt lv) := by
  obtain ⟨mr, hr, hl⟩ := referrers_level (allowed := allowed) hok hx ha refattrs hn
  obtain ⟨e, he, hi⟩ := List.mem_filterMap.1 hb
  have hnd : (levelIds st.igt lv).Nodup := by
    cases lv with
    | tiers => exact hok.tiers
    | items => exact hok.items
  have hg : getAny st b = some e := getAny_level hok hx he hi
  refine ⟨mr, raMap e.obj (refattrs.getD (allowed e)), hr, by rw [referents, hg], fun ra => ?_⟩
  have hsub : (listed mr ra).Sublist (levelIds st.igt lv) := by
    rw [hl ra, levelIds]
    generalize levelEntries st.igt lv = es
    induction es with
    | nil => simp
    | cons e es ih =>
      rw [List.filterMap_cons, List.filterMap_cons]
      by_cases h : ra ∈ refattrs.getD (allowed e) ∧ a ∈ ids (attr0 e.obj ra)
      · rw [if_pos h]
        cases e.id with
        | none => exact ih
        | some i => exact ih.cons_cons i
      · rw [if_neg h]
        cases e.id with
        | none => exact ih
        | some i => exact ih.cons i
  refine ⟨?_, hnd.sublist hsub, hsub⟩
  rw [hl ra, listed_raMap, List.mem_filterMap]
  constructor
  · rintro ⟨f, hf, hfi⟩
    split at hfi
    · rename_i hh
      have : f = e := by
        have h1 := find?_uniq hnd hf hfi
        have h2 := find?_uniq hnd he hi
        rw [h1] at h2; exact Option.some.inj h2
      subst this
      rw [if_pos hh.1]; exact hh.2
    · cases hfi
  · intro h
    split at h
    · rename_i hh
      exact ⟨e, he, by rw [if_pos ⟨hh, h⟩]; exact hi⟩
    · cases h

/-! ### C24 -/

/-- C24, where it holds.  After `refresh_indices()` (in any state):
for an existing ID, if no ID is used twice, the cached referents are the freshly computed ones and
every item is found by `get_item`; for all IDs, the cached referrers of `a` list `b` exactly if the
cached referents of `b` list `a`.
Missing from the full claim: igts in which an item has the ID of a tier or of an item in another tier,
and IDs of no object (see the refutations). -/
theorem C24_partial (allowed : Entry → List Str) (st : IgtState) :
    (IgtOK st.igt → ∀ lv, ∀ i ∈ levelIds st.igt lv,
      igtReferents allowed (refreshIndices allowed st) i none =
        referents allowed (refreshIndices allowed st) i none) ∧
    (((itemEntries st.igt).filterMap Entry.id).Nodup → ∀ e ∈ itemEntries st.igt, ∀ i, e.id = some i →
      igtGetItem (refreshIndices allowed st) (some i) = some e) ∧
    (∀ a b ra, ∃ mr mb, igtReferrers allowed (refreshIndices allowed st) a none = .ok mr ∧
      igtReferents allowed (refreshIndices allowed st) b none = .ok mb ∧
      (b ∈ listed mr ra ↔ a ∈ listed mb ra)) := by
  refine ⟨fun hok lv i hi => ?_, fun h => refresh_indexed allowed st h, fun a b ra => ?_⟩
  · have hx := refresh_indexed allowed st hok.items
    obtain ⟨e, he, hid⟩ := List.mem_filterMap.1 hi
    have hg := getAny_level (st := refreshIndices allowed st) hok hx (lv := lv) he hid
    rw [referents, hg]
    have hm : e ∈ tierEntries st.igt ++ itemEntries st.igt := by
      cases lv with
      | tiers => exact List.mem_append_left _ he
      | items => exact List.mem_append_right _ he
    have hu : ((tierEntries st.igt ++ itemEntries st.igt).reverse.filterMap Entry.id).Nodup := by
      rw [List.filterMap_reverse]; exact List.pairwise_reverse.2 (hok.unique.imp fun h => h.symm)
    have := find?_uniq hu (List.mem_reverse.2 hm) hid
    show Except.ok ((Dict.get? (idsMap allowed (tierEntries st.igt ++ itemEntries st.igt)) i).getD []) = _
    rw [get?_idsMap, this]
    rfl
  · exact ⟨_, _, rfl, rfl, mem_look_invMap (wf_idsMap allowed _) idsMap_values a b ra⟩

/-! ### C25 -/

/-- what can happen to an igt: its contents change (in whatever way), or its indexes are refreshed -/
inductive HistOp
  | edit (igt : Obj)
  | refresh

def histStep (allowed : Entry → List Str) (st : IgtState) : HistOp → IgtState
  | .edit igt => { st with igt := igt }
  | .refresh => refreshIndices allowed st

/-- the states of a history -/
inductive History (allowed : Entry → List Str) : List IgtState → IgtState → Prop
  | new (igt) : History allowed [] (newIgt allowed igt)
  | step {hist st} (op) : History allowed hist st → History allowed (st :: hist) (histStep allowed st op)

/-- C25, where it holds: after any history and a refresh, every current item is found (if item IDs are
unique), and what is found for an ID that no current item has was once an item of the igt.
Missing: that items no longer present are not found (`C25_refuted`). -/
theorem C25_partial (allowed : Entry → List Str) (hist : List IgtState) (st : IgtState)
    (h : History allowed hist st) :
    (((itemEntries st.igt).filterMap Entry.id).Nodup → ∀ e ∈ itemEntries st.igt, ∀ i, e.id = some i →
      igtGetItem (refreshIndices allowed st) (some i) = some e) ∧
    ∀ i e, igtGetItem (refreshIndices allowed st) i = some e →
      e.id = i ∧ ∃ s ∈ st :: hist, e ∈ itemEntries s.igt := by
  refine ⟨fun hu => refresh_indexed allowed st hu, ?_⟩
  have one : ∀ (st : IgtState) i e, igtGetItem (refreshIndices allowed st) i = some e →
      (e.id = i ∧ e ∈ itemEntries st.igt) ∨ igtGetItem st i = some e := by
    intro st i e h
    have h' := h
    rw [get?_refreshItems] at h'
    cases hf : (itemEntries st.igt).reverse.find? (fun e => decide (e.id = i)) with
    | none => rw [hf] at h'; exact Or.inr h'
    | some f =>
      rw [hf] at h'; cases h'
      exact Or.inl ⟨by simpa using List.find?_some hf, List.mem_reverse.1 (List.mem_of_find?_eq_some hf)⟩
  have inv : ∀ hist st, History allowed hist st → ∀ i e, igtGetItem st i = some e →
      e.id = i ∧ ∃ s ∈ st :: hist, e ∈ itemEntries s.igt := by
    intro hist st h
    induction h with
    | new igt =>
      intro i e h
      rcases one _ i e h with ⟨h1, h2⟩ | h
      · exact ⟨h1, _, List.mem_cons_self .., h2⟩
      · cases h
    | @step hist st op _ ih =>
      intro i e h
      cases op with
      | edit igt =>
        obtain ⟨h1, s, hs, he⟩ := ih i e h
        exact ⟨h1, s, List.mem_cons_of_mem _ hs, he⟩
      | refresh =>
        rcases one _ i e h with ⟨h1, h2⟩ | h
        · exact ⟨h1, _, List.mem_cons_self .., h2⟩
        · obtain ⟨h1, s, hs, he⟩ := ih i e h
          exact ⟨h1, s, List.mem_cons_of_mem _ hs, he⟩
  intro i e he
  rcases one _ i e he with ⟨h1, h2⟩ | he
  · exact ⟨h1, _, List.mem_cons_self .., h2⟩
  · exact inv hist st h i e he

/-! ### C64 -/

/-- C64, where it holds: `referents` raises XigtLookupError exactly for IDs that belong to nothing in
the igt or its item index, and no other error; `referrers` does so for all strings that are IDs. -/
theorem C64_partial (allowed : Entry → List Str) (st : IgtState) (refattrs : Option (List Str)) (i : Str)
    (hi : idAccepted i = true) :
    ((∃ m, referents allowed st i refattrs = .ok m) ↔
      ((∃ t ∈ st.igt.kids, t.data.id = some i) ∨ ∃ e, igtGetItem st (some i) = some e)) ∧
    ((∃ m, referrers allowed st i refattrs = .ok m) ↔
      ((∃ t ∈ st.igt.kids, t.data.id = some i) ∨ ∃ e, igtGetItem st (some i) = some e)) ∧
    (∀ e, referents allowed st i refattrs = .error e → e = .xigtLookupError) ∧
    (∀ e, referrers allowed st i refattrs = .error e → e = .xigtLookupError) := by
  cases hf : st.igt.kids.find? (fun x => decide (x.data.id = some i)) with
  | some t =>
    have h1 : contGet st.igt.kids i = some t := by rw [contGet, hf]
    have h2 : contItem st.igt.kids i = .ok t := by rw [contItem, hf]
    have ht : ∃ t ∈ st.igt.kids, t.data.id = some i :=
      ⟨t, List.mem_of_find?_eq_some hf, by simpa using List.find?_some hf⟩
    have e1 : referents allowed st i refattrs = .ok (raMap t (refattrs.getD (allowed ⟨none, t⟩))) := by
      simp only [referents, getAny, h1]
    have e2 : ∃ m, referrers allowed st i refattrs = .ok m := by
      simp only [referrers, h2]; exact ⟨_, rfl⟩
    obtain ⟨m, e2⟩ := e2
    rw [e1, e2]
    exact ⟨⟨fun _ => Or.inl ht, fun _ => ⟨_, rfl⟩⟩, ⟨fun _ => Or.inl ht, fun _ => ⟨_, rfl⟩⟩,
      fun e h => (by cases h), fun e h => (by cases h)⟩
  | none =>
    have h1 : contGet st.igt.kids i = none := by rw [contGet, hf, pyInt_letter hi]
    have h2 : contItem st.igt.kids i = .error .keyError := by rw [contItem, hf, pyInt_letter hi]
    have hnt : ¬ ∃ t ∈ st.igt.kids, t.data.id = some i := by
      rintro ⟨t, ht, hti⟩
      have := List.find?_eq_none.1 hf t ht
      simp [hti] at this
    cases hg : igtGetItem st (some i) with
    | none =>
      have e1 : referents allowed st i refattrs = .error .xigtLookupError := by
        simp only [referents, getAny, h1, hg]
      have e2 : referrers allowed st i refattrs = .error .xigtLookupError := by
        simp only [referrers, h2, hg]
      rw [e1, e2]
      refine ⟨⟨fun ⟨_, h⟩ => (by cases h), fun h => ?_⟩, ⟨fun ⟨_, h⟩ => (by cases h), fun h => ?_⟩,
        fun e h => (by cases h; rfl), fun e h => (by cases h; rfl)⟩
      · rcases h with h | ⟨e, h⟩
        · exact absurd h hnt
        · cases h
      · rcases h with h | ⟨e, h⟩
        · exact absurd h hnt
        · cases h
    | some e =>
      have e1 : ∃ m, referents allowed st i refattrs = .ok m := by
        simp only [referents, getAny, h1, hg]; exact ⟨_, rfl⟩
      have e2 : ∃ m, referrers allowed st i refattrs = .ok m := by
        simp only [referrers, h2, hg]; exact ⟨_, rfl⟩
      obtain ⟨m1, e1⟩ := e1
      obtain ⟨m2, e2⟩ := e2
      rw [e1, e2]
      exact ⟨⟨fun _ => Or.inr ⟨e, rfl⟩, fun _ => ⟨_, rfl⟩⟩, ⟨fun _ => Or.inr ⟨e, rfl⟩, fun _ => ⟨_, rfl⟩⟩,
        fun e h => (by cases h), fun e h => (by cases h)⟩
end

/-! ### Refutations and examples -/

section
attribute [local instance] asciiUni

def mkItem (i : String) (attrs : List (String × String)) : Obj :=
  .mk { cls := .item, id := some i.toList, attrs := attrs.map fun p => (p.1.toList, p.2.toList) } [] []
def mkTier (i : String) (attrs : List (String × String)) (kids : List Obj) : Obj :=
  .mk { cls := .tier, id := some i.toList, attrs := attrs.map fun p => (p.1.toList, p.2.toList) } [] kids
def mkIgt (kids : List Obj) : Obj := .mk { cls := .igt, id := some ['i'] } [] kids

/-- the standard tables (model.py:250-252, 319-323) -/
def stdAllowed (_ : Entry) : List Str := [ALIGNMENT, CONTENT, SEGMENTATION]

def exRefIgt : Obj := mkIgt [
  mkTier "w" [] [mkItem "w1" [], mkItem "w2" []],
  mkTier "m" [("segmentation", "w")] [mkItem "m1" [("segmentation", "w1")],
    mkItem "m2" [("segmentation", "w1+w2")]],
  mkTier "g" [("alignment", "m")] [mkItem "g1" [("alignment", "m1,m2")]]]

/-- the hypotheses of `C23_inverse` are met -/
example : IgtOK exRefIgt := ⟨by decide +kernel, by decide +kernel⟩
example : Indexed (newIgt stdAllowed exRefIgt) := refresh_indexed _ _ (by decide +kernel)
example : "w1".toList ∈ levelIds exRefIgt .items ∧ "m".toList ∈ levelIds exRefIgt .tiers := by decide +kernel
example : referrers stdAllowed (newIgt stdAllowed exRefIgt) "w1".toList (some [SEGMENTATION]) =
    .ok [(SEGMENTATION, ["m1".toList, "m2".toList])] := by decide +kernel

/-- C24 fails if an item has the ID of a tier: the cache is that of the item, the fresh computation
that of the tier. -/
theorem C24_refuted_shared_id : ∃ igt i,
    igtReferents stdAllowed (newIgt stdAllowed igt) i none ≠
      referents stdAllowed (newIgt stdAllowed igt) i none :=
  ⟨mkIgt [mkTier "a" [("alignment", "b")] [mkItem "a" [("alignment", "c")]]], "a".toList, by decide +kernel⟩

/-- C24 fails for an ID of no object: the cache has no entry, the fresh computation raises. -/
theorem C24_refuted_unknown_id : ∃ igt i, IgtOK igt ∧
    igtReferents stdAllowed (newIgt stdAllowed igt) i none ≠
      referents stdAllowed (newIgt stdAllowed igt) i none :=
  ⟨mkIgt [], "a".toList, ⟨by decide +kernel, by decide +kernel⟩, by decide +kernel⟩

/-- C24, `get_item` part, fails if two tiers have an item with the same ID: only the last is found. -/
theorem C24_refuted_get_item : ∃ igt, ∃ e ∈ itemEntries igt, ∃ i, e.id = some i ∧
    igtGetItem (newIgt stdAllowed igt) (some i) ≠ some e := by
  refine ⟨mkIgt [mkTier "t" [] [mkItem "a" []], mkTier "u" [] [mkItem "a" []]], 
    ⟨some (mkTier "t" [] [mkItem "a" []]), mkItem "a" []⟩, ?_, "a".toList, rfl, ?_⟩
  · rw [mem_itemEntries]
    exact ⟨_, List.mem_cons_self .., rfl, List.mem_cons_self ..⟩
  · intro h
    have : (igtGetItem (newIgt stdAllowed (mkIgt [mkTier "t" [] [mkItem "a" []], mkTier "u" [] [mkItem "a" []]]))
        (some "a".toList)).map (fun e => e.tier.map fun t => t.data.id) = some (some (some "t".toList)) := by
      rw [h]; rfl
    revert this
    decide +kernel

/-- C25 fails: an item that was removed before `refresh_indices()` is still found afterwards. -/
theorem C25_refuted : ∃ hist st, History stdAllowed hist st ∧ itemEntries st.igt = [] ∧
    ∃ i e, igtGetItem (refreshIndices stdAllowed st) (some i) = some e := by
  refine ⟨_, histStep stdAllowed (newIgt stdAllowed (mkIgt [mkTier "t" [] [mkItem "a" []]]))
    (.edit (mkIgt [mkTier "t" [] []])), .step _ (.new _), rfl, "a".toList, 
    ⟨some (mkTier "t" [] [mkItem "a" []]), mkItem "a" []⟩, rfl⟩

/-- the hypotheses of `C25_partial` are met -/
example : History stdAllowed [newIgt stdAllowed exRefIgt] (histStep stdAllowed (newIgt stdAllowed exRefIgt)
    .refresh) := .step _ (.new _)

/-- C64 fails for a numeric string: `referrers` raises IndexError, and for a position that exists it
treats the string as the ID of the tier there. -/
theorem C64_refuted : ∃ igt i, referrers stdAllowed (newIgt stdAllowed igt) i none = .error .indexError :=
  ⟨mkIgt [], "99".toList, by decide +kernel⟩

example : idAccepted "a1".toList = true := by decide +kernel
end

end Xigt
