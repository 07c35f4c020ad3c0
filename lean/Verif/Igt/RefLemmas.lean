import Verif.Igt.RefSpec
import Verif.Igt.ValueLemmas

set_option linter.unusedSimpArgs false
set_option linter.unusedSectionVars false

namespace Xigt
variable [Uni]

/-! ### lookups -/

theorem find?_uniq {α β : Type} [DecidableEq β] {f : α → Option β} {l : List α} (h : (l.filterMap f).Nodup)
    {x : α} (hx : x ∈ l) {b} (hb : f x = some b) : l.find? (fun y => decide (f y = some b)) = some x := by
  induction l with
  | nil => cases hx
  | cons a l ih =>
    rw [List.find?_cons]
    rcases List.mem_cons.1 hx with rfl | hx
    · simp [hb]
    · have hl : (l.filterMap f).Nodup := by
        rw [List.filterMap_cons] at h
        split at h
        · exact h
        · exact (List.nodup_cons.1 h).2
      have hne : f a ≠ some b := by
        intro ha
        rw [List.filterMap_cons, ha] at h
        exact (List.nodup_cons.1 h).1 (List.mem_filterMap.2 ⟨x, hx, hb⟩)
      simp [hne, ih hl hx]

theorem find?_tier {igt : Obj} {i} {e : Entry}
    (h : (tierEntries igt).find? (fun y => decide (y.id = some i)) = some e) :
    igt.kids.find? (fun x => decide (x.data.id = some i)) = some e.obj ∧ e.tier = none := by
  rw [tierEntries, List.find?_map] at h
  cases hf : igt.kids.find? ((fun y : Entry => decide (y.id = some i)) ∘ fun t => { tier := none, obj := t }) with
  | none => rw [hf] at h; cases h
  | some x =>
    rw [hf] at h
    cases h
    exact ⟨hf, rfl⟩

theorem IgtOK.tiers {igt : Obj} (h : IgtOK igt) : ((tierEntries igt).filterMap Entry.id).Nodup := by
  have := h.unique
  rw [List.filterMap_append] at this
  exact (List.nodup_append.1 this).1

theorem IgtOK.items {igt : Obj} (h : IgtOK igt) : ((itemEntries igt).filterMap Entry.id).Nodup := by
  have := h.unique
  rw [List.filterMap_append] at this
  exact (List.nodup_append.1 this).2.1

theorem IgtOK.disjoint {igt : Obj} (h : IgtOK igt) {e f : Entry} (he : e ∈ tierEntries igt)
    (hf : f ∈ itemEntries igt) {i} (h1 : e.id = some i) (h2 : f.id = some i) : False := by
  have := h.unique
  rw [List.filterMap_append] at this
  exact (List.nodup_append.1 this).2.2 i (List.mem_filterMap.2 ⟨e, he, h1⟩) i
    (List.mem_filterMap.2 ⟨f, hf, h2⟩) rfl

theorem mem_tierEntries {igt : Obj} {e : Entry} : e ∈ tierEntries igt ↔ e.tier = none ∧ e.obj ∈ igt.kids := by
  cases e with
  | mk t o =>
    simp only [tierEntries, List.mem_map, Entry.mk.injEq]
    constructor
    · rintro ⟨a, h, rfl, rfl⟩; exact ⟨rfl, h⟩
    · rintro ⟨rfl, h⟩; exact ⟨o, h, rfl, rfl⟩

theorem mem_itemEntries {igt : Obj} {e : Entry} :
    e ∈ itemEntries igt ↔ ∃ t ∈ igt.kids, e.tier = some t ∧ e.obj ∈ t.kids := by
  cases e with
  | mk t o =>
    simp only [itemEntries, itemNodes, nodeEntry, List.mem_map, List.mem_flatMap, Entry.mk.injEq]
    constructor
    · rintro ⟨n, ⟨a, h, b, hb, rfl⟩, rfl, rfl⟩; exact ⟨a, h, rfl, hb⟩
    · rintro ⟨a, h, rfl, hb⟩; exact ⟨(a, o), ⟨a, h, o, hb, rfl⟩, rfl, rfl⟩

/-- a tier is found by its ID -/
theorem find_tier {igt : Obj} (h : IgtOK igt) {t : Obj} (ht : t ∈ igt.kids) {i} (hi : t.data.id = some i) :
    igt.kids.find? (fun x => decide (x.data.id = some i)) = some t := by
  have := find?_uniq h.tiers (x := { tier := none, obj := t }) (mem_tierEntries.2 ⟨rfl, ht⟩) hi
  exact (find?_tier this).1

theorem contItem_tier {igt : Obj} (h : IgtOK igt) {t : Obj} (ht : t ∈ igt.kids) {i}
    (hi : t.data.id = some i) : contItem igt.kids i = .ok t := by
  rw [contItem, find_tier h ht hi]

theorem contGet_tier {igt : Obj} (h : IgtOK igt) {t : Obj} (ht : t ∈ igt.kids) {i}
    (hi : t.data.id = some i) : contGet igt.kids i = some t := by
  rw [contGet, find_tier h ht hi]

theorem no_tier {igt : Obj} {i} (h : ∀ t ∈ igt.kids, t.data.id ≠ some i) :
    igt.kids.find? (fun x => decide (x.data.id = some i)) = none := by
  rw [List.find?_eq_none]
  intro t ht
  simp [h t ht]

theorem contItem_none {igt : Obj} {i} (hi : idAccepted i = true)
    (h : ∀ t ∈ igt.kids, t.data.id ≠ some i) : contItem igt.kids i = .error .keyError := by
  rw [contItem, no_tier h, pyInt_letter hi]

theorem contGet_none {igt : Obj} {i} (hi : idAccepted i = true)
    (h : ∀ t ∈ igt.kids, t.data.id ≠ some i) : contGet igt.kids i = none := by
  rw [contGet, no_tier h, pyInt_letter hi]

theorem item_not_tier {igt : Obj} (h : IgtOK igt) {e : Entry} (he : e ∈ itemEntries igt) {i}
    (hi : e.id = some i) : ∀ t ∈ igt.kids, t.data.id ≠ some i := by
  intro t ht hti
  exact h.disjoint (e := { tier := none, obj := t }) (mem_tierEntries.2 ⟨rfl, ht⟩) he hti hi

/-- what `get_any` finds -/
theorem getAny_tier {st : IgtState} (h : IgtOK st.igt) {e : Entry} (he : e ∈ tierEntries st.igt) {i}
    (hi : e.id = some i) : getAny st i = some e := by
  obtain ⟨h1, h2⟩ := mem_tierEntries.1 he
  rw [getAny, contGet_tier h h2 hi]
  cases e with
  | mk t o => cases h1; rfl

theorem getAny_item {st : IgtState} (h : IgtOK st.igt) (hx : Indexed st) {e : Entry}
    (he : e ∈ itemEntries st.igt) {i} (hi : e.id = some i) : getAny st i = some e := by
  rw [getAny, contGet_none (h.valid e (List.mem_append_right _ he) i hi) (item_not_tier h he hi)]
  exact hx e he i hi

theorem getAny_level {st : IgtState} (h : IgtOK st.igt) (hx : Indexed st) {lv} {e : Entry}
    (he : e ∈ levelEntries st.igt lv) {i} (hi : e.id = some i) : getAny st i = some e := by
  cases lv with
  | tiers => exact getAny_tier h he hi
  | items => exact getAny_item h hx he hi

/-! ### referents -/

theorem get?_raMap_aux (x : Obj) (ras : List Str) (ra : Str) (m : Dict Str (List Str)) :
    Dict.get? (ras.foldl (fun m ra => Dict.set m ra (ids (attr0 x ra))) m) ra =
      if ra ∈ ras then some (ids (attr0 x ra)) else Dict.get? m ra := by
  induction ras generalizing m with
  | nil => simp
  | cons r ras ih =>
    rw [List.foldl_cons, ih, Dict.get?_set]
    by_cases h1 : ra ∈ ras
    · simp [h1]
    · by_cases h2 : r = ra
      · subst h2; simp [h1]
      · have h3 : ¬ ra = r := fun h => h2 h.symm
        simp [h1, h2, h3]

theorem get?_raMap (x : Obj) (ras : List Str) (ra : Str) : Dict.get? (raMap x ras) ra =
    if ra ∈ ras then some (ids (attr0 x ra)) else none := by
  rw [raMap, get?_raMap_aux]; rfl

theorem listed_raMap (x : Obj) (ras : List Str) (ra : Str) : listed (raMap x ras) ra =
    if ra ∈ ras then ids (attr0 x ra) else [] := by
  rw [listed, get?_raMap]; split <;> rfl

theorem wf_foldl_set {α κ ν : Type} [DecidableEq κ] (k : α → κ) (v : α → ν) (l : List α) (d : Dict κ ν) (h : d.WF) :
    (l.foldl (fun d a => Dict.set d (k a) (v a)) d).WF := by
  induction l generalizing d with
  | nil => exact h
  | cons a l ih => exact ih _ (h.set _ _)

theorem wf_raMap (x : Obj) (ras : List Str) : (raMap x ras).WF :=
  wf_foldl_set (fun ra => ra) (fun ra => ids (attr0 x ra)) ras [] Dict.wf_nil

/-! ### referrers -/

theorem listed_set (m : Dict Str (List Str)) (k j : Str) (v : List Str) :
    listed (Dict.set m k v) j = if k = j then v else listed m j := by
  rw [listed, Dict.get?_set]; split <;> rfl

theorem listed_attrs (i : Str) (o : Obj) (oid : Str) (ra : Str) : ∀ (ras : List Str) (hn : ras.Nodup)
    (res : Dict Str (List Str)), listed (ras.foldl (referrersAttr i o oid) res) ra =
      listed res ra ++ if ra ∈ ras ∧ i ∈ ids (attr0 o ra) then [oid] else [] := by
  intro ras hn
  induction ras with
  | nil => intro res; simp
  | cons r ras ih =>
    intro res
    have hn' := List.nodup_cons.1 hn
    rw [List.foldl_cons, ih hn'.2]
    simp only [referrersAttr, listed_set]
    by_cases h : r = ra
    · subst h
      by_cases h2 : i ∈ ids (attr0 o r)
      · simp [hn'.1, h2, listed]
      · simp [hn'.1, h2, listed]
    · have h' : ¬ ra = r := fun e => h e.symm
      simp [h, h']

theorem listed_objs (allowed : Entry → List Str) (i : Str) (refattrs : Option (List Str)) (ra : Str)
    (hn : ∀ e, (refattrs.getD (allowed e)).Nodup) : ∀ (es : List Entry) (res : Dict Str (List Str)),
    listed (es.foldl (referrersObj allowed i refattrs) res) ra = listed res ra ++ es.filterMap fun e =>
      if ra ∈ refattrs.getD (allowed e) ∧ i ∈ ids (attr0 e.obj ra) then e.id else none := by
  intro es
  induction es with
  | nil => intro res; simp
  | cons e es ih =>
    intro res
    rw [List.foldl_cons, ih, List.filterMap_cons]
    cases he : e.id with
    | none => simp [referrersObj, he]
    | some oid =>
      simp only [referrersObj, he]
      rw [listed_attrs _ _ _ _ _ (hn e)]
      by_cases h : ra ∈ refattrs.getD (allowed e) ∧ i ∈ ids (attr0 e.obj ra)
      · simp [h]
      · simp [h]

theorem listed_init (refattrs : Option (List Str)) (ra : Str) : listed (referrersInit refattrs) ra = [] := by
  cases refattrs with
  | none => rfl
  | some ras =>
    have : ∀ (ras : List Str) (m : Dict Str (List Str)), listed m ra = [] →
        listed (ras.foldl (fun m ra => Dict.set m ra []) m) ra = [] := by
      intro ras
      induction ras with
      | nil => intro m h; exact h
      | cons r ras ih =>
        intro m h
        refine ih _ ?_
        rw [listed_set]; split
        · rfl
        · exact h
    exact this ras [] rfl

/-- the referrers of an object are the objects of its level that mention it, in document order -/
theorem referrers_level {allowed : Entry → List Str} {st : IgtState} (h : IgtOK st.igt) (hx : Indexed st)
    {lv} {a} (ha : a ∈ levelIds st.igt lv) (refattrs : Option (List Str))
    (hn : ∀ e, (refattrs.getD (allowed e)).Nodup) :
    ∃ m, referrers allowed st a refattrs = .ok m ∧ ∀ ra, listed m ra =
      (levelEntries st.igt lv).filterMap fun e =>
        if ra ∈ refattrs.getD (allowed e) ∧ a ∈ ids (attr0 e.obj ra) then e.id else none := by
  obtain ⟨e, he, hi⟩ := List.mem_filterMap.1 ha
  cases lv with
  | tiers =>
    rw [referrers, contItem_tier h (mem_tierEntries.1 he).2 hi]
    refine ⟨_, rfl, fun ra => ?_⟩
    rw [listed_objs _ _ _ _ hn, listed_init]; rfl
  | items =>
    rw [referrers, contItem_none (h.valid e (List.mem_append_right _ he) a hi) (item_not_tier h he hi),
      hx e he a hi]
    refine ⟨_, rfl, fun ra => ?_⟩
    rw [listed_objs _ _ _ _ hn, listed_init]; rfl

/-! ### indexes -/

theorem get?_foldl_set {α κ ν : Type} [DecidableEq κ] (k : α → κ) (v : α → ν) (j : κ) : ∀ (l : List α)
    (d : Dict κ ν), Dict.get? (l.foldl (fun d a => Dict.set d (k a) (v a)) d) j =
      match l.reverse.find? (fun a => decide (k a = j)) with
      | some a => some (v a)
      | none => Dict.get? d j := by
  intro l
  induction l with
  | nil => intro d; rfl
  | cons a l ih =>
    intro d
    rw [List.foldl_cons, ih, List.reverse_cons, List.find?_append, Dict.get?_set]
    cases l.reverse.find? (fun a => decide (k a = j)) with
    | some b => simp
    | none =>
      by_cases h : k a = j
      · simp [h]
      · simp [h]

theorem get?_refreshItems (allowed : Entry → List Str) (st : IgtState) (j : Option Str) :
    igtGetItem (refreshIndices allowed st) j =
      match (itemEntries st.igt).reverse.find? (fun e => decide (e.id = j)) with
      | some e => some e
      | none => igtGetItem st j := by
  have h := get?_foldl_set (fun n : Obj × Obj => n.2.data.id) (fun n => n) j (itemNodes st.igt) st.itemdict
  rw [igtGetItem, refreshIndices, refreshItems, h, itemEntries, ← List.map_reverse, List.find?_map]
  have : ((fun e : Entry => decide (e.id = j)) ∘ nodeEntry) = fun n => decide (n.2.data.id = j) := rfl
  rw [this]
  cases (itemNodes st.igt).reverse.find? (fun n => decide (n.2.data.id = j)) <;> rfl

theorem refresh_indexed (allowed : Entry → List Str) (st : IgtState)
    (h : ((itemEntries st.igt).filterMap Entry.id).Nodup) : Indexed (refreshIndices allowed st) := by
  intro e he i hi
  rw [get?_refreshItems]
  have h' : ((itemEntries st.igt).reverse.filterMap Entry.id).Nodup := by
    rw [List.filterMap_reverse]; exact List.pairwise_reverse.2 (h.imp fun h => h.symm)
  have := find?_uniq h' (List.mem_reverse.2 he) hi
  rw [this]

/-- objects that have an ID -/
def withId (xs : List Entry) : List (Str × Entry) := xs.filterMap fun e => e.id.map fun i => (i, e)

theorem idsMap_eq (allowed : Entry → List Str) (xs : List Entry) : idsMap allowed xs =
    (withId xs).foldl (fun m p => Dict.set m p.1 (raMap p.2.obj (allowed p.2))) [] := by
  rw [idsMap]
  generalize ([] : Dict Str (Dict Str (List Str))) = m
  induction xs generalizing m with
  | nil => rfl
  | cons e xs ih =>
    have hw : withId (e :: xs) = (match e.id with
        | some j => (j, e) :: withId xs
        | none => withId xs) := by
      rw [withId, List.filterMap_cons]; cases e.id <;> rfl
    rw [List.foldl_cons, ih, hw]
    cases e.id <;> rfl

theorem wf_idsMap (allowed : Entry → List Str) (xs : List Entry) : (idsMap allowed xs).WF := by
  rw [idsMap_eq]
  exact wf_foldl_set (fun p : Str × Entry => p.1) (fun p => raMap p.2.obj (allowed p.2)) _ [] Dict.wf_nil

/-- the last object with the ID decides -/
theorem get?_idsMap (allowed : Entry → List Str) (xs : List Entry) (i : Str) :
    Dict.get? (idsMap allowed xs) i =
      (xs.reverse.find? (fun e => decide (e.id = some i))).map fun e => raMap e.obj (allowed e) := by
  rw [idsMap_eq, get?_foldl_set (fun p : Str × Entry => p.1) (fun p => raMap p.2.obj (allowed p.2))]
  have : (withId xs).reverse.find? (fun p => decide (p.1 = i)) =
      (xs.reverse.find? (fun e => decide (e.id = some i))).map fun e => (i, e) := by
    induction xs with
    | nil => rfl
    | cons e xs ih =>
      have hw : withId (e :: xs) = (match e.id with
        | some j => (j, e) :: withId xs
        | none => withId xs) := by
        rw [withId, List.filterMap_cons]; cases e.id <;> rfl
      rw [List.reverse_cons, List.find?_append, Option.map_or, ← ih, hw]
      cases he : e.id with
      | none => simp [he]
      | some j =>
        simp only [List.reverse_cons, List.find?_append]
        congr 1
        by_cases hj : j = i
        · subst hj; simp [he]
        · simp [he, hj]
  rw [this]
  cases xs.reverse.find? (fun e => decide (e.id = some i)) <;> rfl

/-! ### inverted index -/

def look (inv : Dict Str (Dict Str (List Str))) (i ra : Str) : List Str :=
  listed ((Dict.get? inv i).getD []) ra

theorem look_invAdd (inv : Dict Str (Dict Str (List Str))) (i ra o j rb : Str) :
    look (invAdd inv i ra o) j rb = look inv j rb ++ if i = j ∧ ra = rb then [o] else [] := by
  simp only [look, invAdd, Dict.get?_set]
  by_cases h : i = j
  · subst h
    simp only [if_true, Option.getD_some, listed_set]
    by_cases h2 : ra = rb
    · subst h2; simp [listed]
    · simp [h2]
  · simp [h]

theorem look_fold (l : List (Str × Str × Str)) (j rb : Str) : ∀ inv : Dict Str (Dict Str (List Str)),
    look (l.foldl (fun inv t => invAdd inv t.1 t.2.1 t.2.2) inv) j rb = look inv j rb ++
      l.filterMap fun t => if t.1 = j ∧ t.2.1 = rb then some t.2.2 else none := by
  induction l with
  | nil => intro inv; simp
  | cons t l ih =>
    intro inv
    rw [List.foldl_cons, ih, look_invAdd, List.filterMap_cons]
    by_cases h : t.1 = j ∧ t.2.1 = rb
    · simp [h]
    · simp [h]

theorem mem_look_invMap {m : Dict Str (Dict Str (List Str))} (hm : m.WF) (hr : ∀ p ∈ m, Dict.WF p.2)
    (a b ra : Str) : b ∈ look (invMap m) a ra ↔ a ∈ look m b ra := by
  rw [invMap, look_fold]
  have h0 : look [] a ra = [] := rfl
  rw [h0, List.nil_append, List.mem_filterMap]
  simp only [invTriples, List.mem_flatMap, List.mem_map]
  constructor
  · rintro ⟨t, ⟨o, ho, r, hr', i, hi, rfl⟩, ht⟩
    simp only at ht
    split at ht
    · rename_i hh
      obtain ⟨rfl, rfl⟩ := hh
      cases ht
      rw [look, Dict.get?_of_mem hm (k := o.1) (v := o.2) ho, Option.getD_some, listed,
        Dict.get?_of_mem (hr o ho) (k := r.1) (v := r.2) hr']
      exact hi
    · cases ht
  · intro h
    rw [look] at h
    cases hb : Dict.get? m b with
    | none => rw [hb] at h; cases h
    | some rm =>
      rw [hb, Option.getD_some, listed] at h
      cases hl : Dict.get? rm ra with
      | none => rw [hl] at h; cases h
      | some l =>
        rw [hl, Option.getD_some] at h
        exact ⟨(a, ra, b), ⟨(b, rm), Dict.get?_mem hb, (ra, l), Dict.get?_mem hl, a, h, rfl⟩, by simp⟩

theorem idsMap_values {allowed : Entry → List Str} {xs : List Entry} :
    ∀ p ∈ idsMap allowed xs, Dict.WF p.2 := by
  intro p hp
  have h := Dict.get?_of_mem (wf_idsMap allowed xs) (k := p.1) (v := p.2) hp
  rw [get?_idsMap] at h
  obtain ⟨e, _, he⟩ := Option.map_eq_some_iff.1 h
  rw [← he]
  exact wf_raMap _ _

end Xigt
