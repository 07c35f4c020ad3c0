import Verif.Corpus.Props
/-
C175: assigning to `igts` of a corpus in the loading modes, /repo/xigt/model.py:109-115 with 77-81 and 95-107.

What is assigned is a list.  (In full mode, and for other containers, see also C80, where objects have identities.)
-/

namespace Xigt

/-! ### Model -/

/-- mixins.py:115-117 `extend`, with what is held when it raises -/
def extendKeep (held : List Obj) : List Obj → List Obj × Py Unit
  | [] => (held, .ok ())
  | x :: xs =>
    match corpusAppend held x with
    | .error e => (held, .error e)
    | .ok held => extendKeep held xs

/-- model.py:112-115: the list is cleared and then extended; neither the mode nor the source is touched.  Reading `igts` (model.py:109-111) is a
complete iteration (C36). -/
def setIgts (c : Corpus) (l : List Obj) : Corpus × Py Unit := ({ c with held := (extendKeep [] l).1 }, (extendKeep [] l).2)

/-! ### Properties -/

theorem corpusAppend_unique {held : List Obj} (hh : UniqueIds held) {x : Obj} : (corpusAppend held x = .ok (held ++ [x]) ∧ UniqueIds (held ++ [x])) ∨
    ((∃ e, corpusAppend held x = .error e) ∧ ∀ post, ¬ UniqueIds (held ++ x :: post)) := by
  by_cases h : x.data.id ≠ none ∧ x.data.id ∈ held.map (fun y => y.data.id)
  · right
    refine ⟨⟨_, by rw [corpusAppend, if_pos h]⟩, fun post hu => ?_⟩
    have := corpusAppend_ok hu
    rw [corpusAppend, if_pos h] at this
    cases this
  · left
    refine ⟨by rw [corpusAppend, if_neg h], ?_⟩
    unfold UniqueIds at hh ⊢
    rw [List.filterMap_append, List.nodup_append]
    refine ⟨hh, ?_, ?_⟩
    · cases hx : x.data.id <;> simp [hx]
    · intro a ha b hb hab
      subst hab
      obtain ⟨y, hy, hya⟩ := List.mem_filterMap.1 ha
      obtain ⟨z, hz, hza⟩ := List.mem_filterMap.1 hb
      rw [List.mem_singleton.1 hz] at hza
      exact h ⟨by rw [hza]; simp, List.mem_map.2 ⟨y, hy, by rw [hya, hza]⟩⟩

theorem extendKeep_cases : ∀ (l held : List Obj), UniqueIds held →
    (UniqueIds (held ++ l) ∧ extendKeep held l = (held ++ l, .ok ())) ∨
    (¬ UniqueIds (held ++ l) ∧ ∃ a b e, l = a ++ b ∧ b ≠ [] ∧ extendKeep held l = (held ++ a, .error e)) := by
  intro l
  induction l with
  | nil => intro held h; left; simpa [extendKeep] using h
  | cons x l ih =>
    intro held h
    rcases corpusAppend_unique h (x := x) with ⟨h1, h2⟩ | ⟨⟨e, h1⟩, h2⟩
    · rcases ih (held ++ [x]) h2 with ⟨h3, h4⟩ | ⟨h3, a, b, e, h4, h5, h6⟩
      · left
        rw [List.append_assoc, List.singleton_append] at h3
        refine ⟨h3, ?_⟩
        rw [extendKeep, h1]
        simpa using h4
      · right
        rw [List.append_assoc, List.singleton_append] at h3
        refine ⟨h3, x :: a, b, e, by rw [h4]; rfl, h5, ?_⟩
        rw [extendKeep, h1]
        simpa using h6
    · right
      refine ⟨h2 l, [], x :: l, e, rfl, by simp, ?_⟩
      rw [extendKeep, h1]
      simp

theorem uniqueIds_nil : UniqueIds [] := by simp [UniqueIds]

/-- **C175**: assigning succeeds exactly if no ID is used twice; then this is what is held, and otherwise some first part of it; nothing else changes. -/
theorem C175_write (c : Corpus) (l : List Obj) : ((setIgts c l).2 = .ok () ↔ UniqueIds l) ∧ (UniqueIds l → (setIgts c l).1.held = l) ∧
    (¬ UniqueIds l → ∃ b, b ≠ [] ∧ l = (setIgts c l).1.held ++ b) ∧ (setIgts c l).1.mode = c.mode ∧ (setIgts c l).1.items = c.items ∧
    (setIgts c l).1.kind = c.kind ∧ (setIgts c l).1.pos = c.pos := by
  refine ⟨?_, ?_, ?_, rfl, rfl, rfl, rfl⟩
  all_goals
    rcases extendKeep_cases l [] uniqueIds_nil with ⟨h1, h2⟩ | ⟨h1, a, b, e, h3, h4, h2⟩
    all_goals simp only [List.nil_append] at h1 h2
  · simp [setIgts, h2, h1]
  · simp [setIgts, h2, h1]
  · intro _; simp [setIgts, h2]
  · intro h; exact absurd h h1
  · intro h; exact absurd h1 h
  · intro _; exact ⟨b, h4, by simp only [setIgts, h2]; exact h3⟩

/-- **C175**: in full mode, `igts` is then what was assigned, however often it is read. -/
theorem C175_full (c : Corpus) (hm : c.mode = .full) (l : List Obj) (hl : UniqueIds l) : Complete (setIgts c l).1 .fresh l (setIgts c l).1 := by
  have := complete_full (c := (setIgts c l).1) hm
  rwa [(C175_write c l).2.1 hl] at this

theorem complete_mode {c c' : Corpus} {it : It} {xs : List Obj} (h : Complete c it xs c') :
    (it = .fresh ∨ (∃ i, it = .list i ∧ c.mode = .full) ∨ ∃ j, it = .source j) → c'.mode = .full := by
  have hlist : ∀ (c : Corpus) i, c.mode = .full → (nextList c i).2.1.mode = .full ∧
      ((nextList c i).1 ≠ .stop → ∃ i', (nextList c i).2.2 = .list i') := by
    intro c i hm
    unfold nextList
    cases c.held[i]? with
    | none => exact ⟨hm, fun h => absurd rfl h⟩
    | some x => exact ⟨hm, fun _ => ⟨_, rfl⟩⟩
  have hsrc : ∀ (c : Corpus) j, ((nextSource c j).1 = .stop → (nextSource c j).2.1.mode = .full) ∧
      (∀ x, (nextSource c j).1 = .yield x → ∃ j', (nextSource c j).2.2 = .source j') := by
    intro c j
    unfold nextSource
    split
    · exact ⟨fun h => (by cases h), fun x h => (by cases h)⟩
    · split
      · exact ⟨fun _ => rfl, fun x h => (by cases h)⟩
      · split
        · split
          · exact ⟨fun h => (by cases h), fun x h => (by cases h)⟩
          · exact ⟨fun h => (by cases h), fun x _ => ⟨_, rfl⟩⟩
        · exact ⟨fun h => (by cases h), fun x _ => ⟨_, rfl⟩⟩
  induction h with
  | @stop c it c' it' h =>
    have key : ∀ i, (c.mode = .full → nextList c i = (.stop, c', it') → c'.mode = .full) := by
      intro i hm h; have := (hlist c i hm).1; rw [h] at this; exact this
    have key2 : ∀ j, nextSource c j = (.stop, c', it') → c'.mode = .full := by
      intro j h; have := (hsrc c j).1; rw [h] at this; exact this rfl
    rintro (rfl | ⟨i, rfl, hm⟩ | ⟨j, rfl⟩)
    · by_cases hm : c.mode = .full
      · rw [nextIt, if_pos hm] at h; exact key 0 hm h
      · rw [nextIt, if_neg hm] at h; exact key2 0 h
    · exact key i hm h
    · exact key2 j h
  | @yield c it x c' it' xs c'' h _ ih =>
    have key : ∀ i, c.mode = .full → nextList c i = (.yield x, c', it') → c''.mode = .full := by
      intro i hm h
      have := hlist c i hm
      rw [h] at this
      obtain ⟨i', hi⟩ := this.2 (by simp)
      exact ih (.inr (.inl ⟨i', hi, this.1⟩))
    have key2 : ∀ j, nextSource c j = (.yield x, c', it') → c''.mode = .full := by
      intro j h
      have := (hsrc c j).2 x
      rw [h] at this
      obtain ⟨j', hj⟩ := this rfl
      exact ih (.inr (.inr ⟨j', hj⟩))
    rintro (rfl | ⟨i, rfl, hm⟩ | ⟨j, rfl⟩)
    · by_cases hm : c.mode = .full
      · rw [nextIt, if_pos hm] at h; exact key 0 hm h
      · rw [nextIt, if_neg hm] at h; exact key2 0 h
    · exact key i hm h
    · exact key2 j h

/-- **C175** (partial): in every mode, once the corpus has been read completely `igts` is what was assigned. -/
theorem C175_partial (c c' : Corpus) (xs : List Obj) (h : Complete c .fresh xs c') (l : List Obj) (hl : UniqueIds l) :
    (setIgts c' l).2 = .ok () ∧ Complete (setIgts c' l).1 .fresh l (setIgts c' l).1 :=
  ⟨(C175_write c' l).1.2 hl, C175_full c' (complete_mode h (.inl rfl)) l hl⟩

/-- iterating over the source when something is held that is not of the source -/
theorem complete_held (l items : List Obj) (hu : UniqueIds (l ++ items)) (mode : Mode) (kind : SrcKind)
    (hk : kind ≠ .absent) : ∀ (n i : Nat), items.length - i = n →
    Complete ⟨mode, l ++ (if mode = .incremental then items.take i else []), kind, items, i⟩ (.source i) (items.drop i)
      ⟨.full, l ++ (if mode = .incremental then items else []), kind, items, max i items.length⟩ := by
  intro n
  induction n with
  | zero =>
    intro i h
    have hi : items.length ≤ i := by omega
    rw [List.drop_eq_nil_of_le hi, List.take_of_length_le hi, Nat.max_eq_left hi]
    refine .stop (it' := .ended) ?_
    simp only [nextIt, nextSource, srcPos]
    rw [if_neg hk]
    simp [List.getElem?_eq_none hi]
  | succ n ih =>
    intro i h
    have hi : i < items.length := by omega
    rw [List.drop_eq_getElem_cons hi]
    have hmax : max i items.length = max (i + 1) items.length := by omega
    rw [hmax]
    refine .yield (it' := .source (i + 1)) ?_ (ih (i + 1) (by omega))
    simp only [nextIt, nextSource, srcPos]
    rw [if_neg hk]
    simp only [ite_self, List.getElem?_eq_getElem hi]
    by_cases hinc : mode = .incremental
    · rw [if_pos hinc, if_pos hinc]
      have : UniqueIds ((l ++ items.take i) ++ items[i] :: items.drop (i + 1)) := by
        rw [← List.drop_eq_getElem_cons hi, List.append_assoc, List.take_append_drop]; exact hu
      rw [corpusAppend_ok this]
      simp only [hinc, if_true, List.append_assoc, List.take_append_getElem hi]
    · simp [hinc]

/-- **C175** is false as stated, of every corpus in another mode that was not read: `igts` is not what was assigned but what the source has; read
again, it is what was assigned and then, in incremental mode, what the source has. -/
theorem C175_refuted (mode : Mode) (hm : mode ≠ .full) (kind : SrcKind) (hk : kind ≠ .absent) (items l : List Obj) (hu : UniqueIds (l ++ items)) :
    ∃ c c', mkCorpus mode kind items = .ok c ∧ (setIgts c l).2 = .ok () ∧ Complete (setIgts c l).1 .fresh items c' ∧
      Complete c' .fresh (l ++ if mode = .incremental then items else []) c' := by
  have hl := uniqueIds_append hu
  have hset : (setIgts ⟨mode, [], kind, items, 0⟩ l).1 = ⟨mode, l, kind, items, 0⟩ := by
    have := (C175_write ⟨mode, [], kind, items, 0⟩ l).2.1 hl
    simp only [setIgts] at this ⊢
    rw [this]
  refine ⟨⟨mode, [], kind, items, 0⟩, ⟨.full, l ++ (if mode = .incremental then items else []), kind, items, max 0 items.length⟩,
    by rw [mkCorpus, if_neg hm], (C175_write _ l).1.2 hl, ?_, complete_full rfl⟩
  have := complete_held l items hu mode kind hk _ 0 rfl
  simp only [List.take_zero, ite_self, List.drop_zero, List.append_nil] at this
  rw [hset]
  exact this.congr (by rw [nextIt, if_neg hm]; rfl)

/-- the hypotheses are met -/
example : UniqueIds ([exIgt (lit! "c")] ++ [exIgt (lit! "a"), exIgt (lit! "b")]) ∧ [exIgt (lit! "c")] ≠ [exIgt (lit! "a"), exIgt (lit! "b")] :=
  ⟨by unfold UniqueIds; decide +kernel, by simp⟩

/-- in transient mode too, what was read can be kept -/
example : ∃ c c', mkCorpus .transient .once [exIgt (lit! "a"), exIgt (lit! "b")] = .ok c ∧ Complete c .fresh [exIgt (lit! "a"), exIgt (lit! "b")] c' ∧
    Complete (setIgts c' [exIgt (lit! "a"), exIgt (lit! "b")]).1 .fresh [exIgt (lit! "a"), exIgt (lit! "b")] (setIgts c' [exIgt (lit! "a"), exIgt (lit! "b")]).1 := by
  have hu : UniqueIds [exIgt (lit! "a"), exIgt (lit! "b")] := by unfold UniqueIds; decide +kernel
  obtain ⟨c, c', h1, h2, -, -⟩ := C37_partial_complete .transient (by decide) .once (by decide) _ hu
  exact ⟨c, c', h1, h2, (C175_partial c c' _ h2 _ hu).2⟩

end Xigt
