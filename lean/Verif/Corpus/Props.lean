import Verif.Corpus.Model
/- Properties of the loading modes: C36, C37. -/

namespace Xigt

/-! ### Specification -/

/-- a complete iteration: `next` until it stops, with what it yields -/
inductive Complete : Corpus → It → List Obj → Corpus → Prop
  | stop {c it c' it'} : nextIt c it = (.stop, c', it') → Complete c it [] c'
  | yield {c it x c' it' xs c''} : nextIt c it = (.yield x, c', it') → Complete c' it' xs c'' →
      Complete c it (x :: xs) c''

/-- no ID is used twice -/
def UniqueIds (xs : List Obj) : Prop := (xs.filterMap fun x => x.data.id).Nodup

/-- the objects yielded, in order -/
def yields : List Ev → List Obj
  | [] => []
  | .yield x :: es => x :: yields es
  | _ :: es => yields es

/-- an iterator of the corpus is just a python generator: what it yields is determined -/
theorem Complete.functional {c it xs c'} (h : Complete c it xs c') :
    ∀ {ys d}, Complete c it ys d → xs = ys ∧ c' = d := by
  induction h with
  | stop h =>
    intro ys d h2
    cases h2 with
    | stop h3 => rw [h] at h3; cases h3; exact ⟨rfl, rfl⟩
    | yield h3 _ => rw [h] at h3; cases h3
  | yield h _ ih =>
    intro ys d h2
    cases h2 with
    | stop h3 => rw [h] at h3; cases h3
    | yield h3 h4 =>
      rw [h] at h3; cases h3
      obtain ⟨rfl, rfl⟩ := ih h4
      exact ⟨rfl, rfl⟩

/-! ### Helpers -/

theorem Complete.congr {c it it2 xs c'} (h : Complete c it2 xs c') (he : nextIt c it = nextIt c it2) :
    Complete c it xs c' := by
  cases h with
  | stop h => exact .stop (he.trans h)
  | yield h h2 => exact .yield (he.trans h) h2

theorem uniqueIds_append {a b : List Obj} (h : UniqueIds (a ++ b)) : UniqueIds a := by
  rw [UniqueIds, List.filterMap_append, List.nodup_append] at h
  exact h.1

theorem corpusAppend_ok {held : List Obj} {x : Obj} {post : List Obj} (h : UniqueIds (held ++ x :: post)) :
    corpusAppend held x = .ok (held ++ [x]) := by
  rw [corpusAppend, if_neg]
  rintro ⟨hx, hm⟩
  obtain ⟨i, hi⟩ := Option.ne_none_iff_exists'.1 hx
  obtain ⟨y, hy, he⟩ := List.mem_map.1 hm
  rw [UniqueIds, List.filterMap_append, List.nodup_append] at h
  exact h.2.2 i (List.mem_filterMap.2 ⟨y, hy, by rw [he, hi]⟩) i
    (List.mem_filterMap.2 ⟨x, by simp, hi⟩) rfl

theorem corpusExtend_ok : ∀ (xs held : List Obj), UniqueIds (held ++ xs) → corpusExtend held xs = .ok (held ++ xs) := by
  intro xs
  induction xs with
  | nil => intro held _; simp [corpusExtend]
  | cons x xs ih =>
    intro held h
    rw [corpusExtend, corpusAppend_ok h]
    simp only
    rw [ih (held ++ [x]) (by simpa using h)]
    simp

/-- iterating over the held list -/
theorem complete_list (c : Corpus) : ∀ (n i : Nat), c.held.length - i = n → Complete c (.list i) (c.held.drop i) c := by
  intro n
  induction n with
  | zero =>
    intro i h
    have hi : c.held.length ≤ i := by omega
    rw [List.drop_eq_nil_of_le hi]
    refine .stop (it' := .ended) ?_
    rw [nextIt, nextList, List.getElem?_eq_none hi]
  | succ n ih =>
    intro i h
    have hi : i < c.held.length := by omega
    rw [List.drop_eq_getElem_cons hi]
    refine .yield (it' := .list (i + 1)) ?_ (ih (i + 1) (by omega))
    rw [nextIt, nextList, List.getElem?_eq_getElem hi]

theorem complete_full {c : Corpus} (h : c.mode = .full) : Complete c .fresh c.held c := by
  have hc := complete_list c _ 0 rfl
  rw [List.drop_zero] at hc
  exact hc.congr (by rw [nextIt, if_pos h]; rfl)

/-- iterating over the source -/
theorem complete_source (items : List Obj) (hu : UniqueIds items) (mode : Mode) (hm : mode ≠ .full) (kind : SrcKind)
    (hk : kind ≠ .absent) : ∀ (n i : Nat), items.length - i = n →
    Complete ⟨mode, if mode = .incremental then items.take i else [], kind, items, i⟩ (.source i) (items.drop i)
      ⟨.full, if mode = .incremental then items else [], kind, items, max i items.length⟩ := by
  intro n
  induction n with
  | zero =>
    intro i h
    have hi : items.length ≤ i := by omega
    rw [List.drop_eq_nil_of_le hi, List.take_of_length_le hi, Nat.max_eq_left hi]
    refine .stop (it' := .ended) ?_
    simp only [nextIt, nextSource, srcPos]
    rw [if_neg hk]
    simp [List.getElem?_eq_none hi]
  | succ n ih =>
    intro i h
    have hi : i < items.length := by omega
    rw [List.drop_eq_getElem_cons hi]
    have hmax : max i items.length = max (i + 1) items.length := by omega
    rw [hmax]
    refine .yield (it' := .source (i + 1)) ?_ (ih (i + 1) (by omega))
    simp only [nextIt, nextSource, srcPos]
    rw [if_neg hk]
    simp only [ite_self, List.getElem?_eq_getElem hi]
    by_cases hinc : mode = .incremental
    · rw [if_pos hinc, if_pos hinc]
      have : UniqueIds (items.take i ++ items[i] :: items.drop (i + 1)) := by
        rw [← List.drop_eq_getElem_cons hi, List.take_append_drop]; exact hu
      rw [corpusAppend_ok this]
      simp only [hinc, if_true, List.take_append_getElem hi]
    · simp [hinc]

/-! ### C36 -/

/-- C36, for sources in which no ID is used twice: the first complete iteration yields the IGTs of the
source in order in every mode, however the source is given.
Missing: sources with a repeated ID, which only transient mode accepts (`C36_refuted`), and no source
at all, which only full mode accepts (`C36_refuted_absent`). -/
theorem C36_partial (mode : Mode) (kind : SrcKind) (hk : kind ≠ .absent) (items : List Obj) (hu : UniqueIds items) :
    ∃ c, mkCorpus mode kind items = .ok c ∧ ∃ c', Complete c .fresh items c' := by
  by_cases hm : mode = .full
  · subst hm
    refine ⟨⟨.full, items, .absent, [], 0⟩, ?_, _, complete_full rfl⟩
    rw [mkCorpus, if_pos rfl, if_neg hk, corpusExtend_ok items [] (by simpa using hu)]
    rfl
  · refine ⟨⟨mode, [], kind, items, 0⟩, by rw [mkCorpus, if_neg hm], ?_⟩
    have := complete_source items hu mode hm kind hk _ 0 rfl
    simp only [List.take_zero, ite_self, List.drop_zero] at this
    have he : nextIt ⟨mode, [], kind, items, 0⟩ .fresh = nextIt ⟨mode, [], kind, items, 0⟩ (.source 0) := by
      rw [nextIt, if_neg hm]; rfl
    exact ⟨_, this.congr he⟩

def exIgt (i : Str) : Obj := .mk { cls := .igt, id := some i } [] []

/-- C36 is false if an ID is repeated: full mode fails at construction, incremental mode during the
iteration, transient mode yields both. -/
theorem C36_refuted : ∃ items,
    mkCorpus .full .once items = .error .xigtError ∧
    (∃ c c', mkCorpus .transient .once items = .ok c ∧ Complete c .fresh items c') ∧
    (∃ c, mkCorpus .incremental .once items = .ok c ∧ ∀ c', ¬ Complete c .fresh items c') := by
  refine ⟨[exIgt (lit! "a"), exIgt (lit! "a")], rfl, ⟨_, ⟨.full, [], .once, [exIgt (lit! "a"), exIgt (lit! "a")], 2⟩, rfl, ?_⟩, _, rfl, ?_⟩
  · exact .yield (it' := .source 1) rfl (.yield (it' := .source 2) rfl (.stop (it' := .ended) rfl))
  · intro c' h
    cases h with
    | yield h h2 =>
      cases h
      cases h2 with
      | yield h _ => cases h

/-- C36 is false without a source: full mode has no IGTs, incremental mode raises TypeError. -/
theorem C36_refuted_absent :
    (∃ c, mkCorpus .full .absent [] = .ok c ∧ Complete c .fresh [] c) ∧
    (∃ c, mkCorpus .incremental .absent [] = .ok c ∧ (nextIt c .fresh).1 = .raise .typeError) :=
  ⟨⟨_, rfl, .stop (it' := .ended) rfl⟩, _, rfl, rfl⟩

example : UniqueIds [exIgt (lit! "a"), exIgt (lit! "b")] := by unfold UniqueIds; decide +kernel

/-! ### C37 -/

/-- what holds at all times for a corpus over an iterator -/
structure CorpInv (mode : Mode) (items : List Obj) (evs : List Ev) (s : CorpSt) : Prop where
  items_eq : s.corpus.items = items
  kind_eq : s.corpus.kind = .once
  pos_le : s.corpus.pos ≤ items.length
  held_eq : s.corpus.held = if mode = .incremental then items.take s.corpus.pos else []
  mode_or : s.corpus.mode = mode ∨ (s.corpus.mode = .full ∧ s.corpus.pos = items.length)
  list_its : ∀ it ∈ s.its, (∃ i, it = .list i) → s.corpus.mode = .full
  seen : ∃ later, yields evs = items.take s.corpus.pos ++ later ∧ (later ≠ [] → s.corpus.mode = .full) ∧
    ∀ x ∈ later, x ∈ s.corpus.held

theorem yields_append (a b : List Ev) : yields (a ++ b) = yields a ++ yields b := by
  induction a with
  | nil => rfl
  | cons e a ih => cases e <;> simp [yields, ih]

theorem mem_set_its {its : List It} {k : Nat} {a it : It} (h : it ∈ its.set k a) : it ∈ its ∨ it = a :=
  List.mem_or_eq_of_mem_set h

theorem corpStep_inv {mode : Mode} (hm : mode ≠ .full) {items : List Obj} (hu : mode = .incremental → UniqueIds items)
    {evs : List Ev} {s : CorpSt} (h : CorpInv mode items evs s) (op : CorpOp) :
    CorpInv mode items (evs ++ (corpStep s op).1.toList) (corpStep s op).2 := by
  cases op with
  | iter =>
    refine ⟨h.items_eq, h.kind_eq, h.pos_le, h.held_eq, h.mode_or, ?_, by simpa [corpStep] using h.seen⟩
    intro it hit hl
    simp only [corpStep, List.mem_append, List.mem_singleton] at hit
    rcases hit with hit | rfl
    · exact h.list_its it hit hl
    · obtain ⟨i, hi⟩ := hl; cases hi
  | next k =>
    rw [corpStep]
    cases hk : s.its[k]? with
    | none => simpa using h
    | some it =>
      simp only [Option.toList_some]
      have hit : it ∈ s.its := List.mem_of_getElem? hk
      -- the loop over the list
      have list_case : ∀ i, s.corpus.mode = .full →
          CorpInv mode items (evs ++ [(nextList s.corpus i).1])
            ⟨(nextList s.corpus i).2.1, s.its.set k (nextList s.corpus i).2.2⟩ := by
        intro i hfull
        rw [nextList]
        cases hx : s.corpus.held[i]? with
        | none =>
          refine ⟨h.items_eq, h.kind_eq, h.pos_le, h.held_eq, h.mode_or, fun _ _ _ => hfull, ?_⟩
          simpa [yields_append, yields] using h.seen
        | some x =>
          refine ⟨h.items_eq, h.kind_eq, h.pos_le, h.held_eq, h.mode_or, fun _ _ _ => hfull, ?_⟩
          obtain ⟨later, h1, h2, h3⟩ := h.seen
          refine ⟨later ++ [x], by simp [yields_append, yields, h1], fun _ => hfull, fun y hy => ?_⟩
          rcases List.mem_append.1 hy with hy | hy
          · exact h3 y hy
          · rw [List.mem_singleton.1 hy]; exact List.mem_of_getElem? hx
      -- the loop over the source
      have source_case : ∀ j, CorpInv mode items (evs ++ [(nextSource s.corpus j).1])
            ⟨(nextSource s.corpus j).2.1, s.its.set k (nextSource s.corpus j).2.2⟩ := by
        intro j
        have hsp : srcPos s.corpus j = s.corpus.pos := by rw [srcPos, if_pos h.kind_eq]
        rw [nextSource, if_neg (by rw [h.kind_eq]; decide), hsp, h.items_eq]
        cases hx : items[s.corpus.pos]? with
        | none =>
          have hpos : s.corpus.pos = items.length := by
            have := List.getElem?_eq_none_iff.1 hx
            have := h.pos_le
            omega
          refine ⟨rfl, h.kind_eq, h.pos_le, h.held_eq, Or.inr ⟨rfl, hpos⟩, fun _ _ _ => rfl, ?_⟩
          obtain ⟨later, h1, _, h3⟩ := h.seen
          exact ⟨later, by simpa [yields_append, yields] using h1, fun _ => rfl, h3⟩
        | some x =>
          obtain ⟨hlt, hxe⟩ := List.getElem?_eq_some_iff.1 hx
          have hmode : s.corpus.mode = mode := by
            rcases h.mode_or with hmo | ⟨_, hp⟩
            · exact hmo
            · omega
          have hnotfull : s.corpus.mode ≠ .full := by rw [hmode]; exact hm
          obtain ⟨later, h1, h2, h3⟩ := h.seen
          have hlater : later = [] := by
            cases later with
            | nil => rfl
            | cons a l => exact absurd (h2 (by simp)) hnotfull
          subst hlater
          have htake : items.take (s.corpus.pos + 1) = items.take s.corpus.pos ++ [x] := by
            rw [← hxe]; exact (List.take_append_getElem hlt).symm
          have hits : ∀ it' ∈ s.its.set k (.source (j + 1)), (∃ i, it' = .list i) → s.corpus.mode = .full := by
            intro it' hit' hl
            rcases mem_set_its hit' with hit' | rfl
            · exact h.list_its it' hit' hl
            · obtain ⟨i, hi⟩ := hl; cases hi
          by_cases hinc : mode = .incremental
          · have hheld : s.corpus.held = items.take s.corpus.pos := by rw [h.held_eq, if_pos hinc]
            have happ : corpusAppend s.corpus.held x = .ok (s.corpus.held ++ [x]) := by
              refine corpusAppend_ok (post := items.drop (s.corpus.pos + 1)) ?_
              rw [hheld, ← hxe, ← List.drop_eq_getElem_cons hlt, List.take_append_drop]
              exact hu hinc
            simp only
            rw [if_pos (hmode.trans hinc), happ]
            refine ⟨rfl, h.kind_eq, hlt, ?_, Or.inl hmode, hits, [], ?_, by simp, by simp⟩
            · rw [if_pos hinc]; simp [hheld, htake]
            · simp [yields_append, yields, h1, htake]
          · simp only
            rw [if_neg (by rw [hmode]; exact hinc)]
            refine ⟨rfl, h.kind_eq, hlt, ?_, Or.inl hmode, hits, [], ?_, by simp, by simp⟩
            · rw [if_neg hinc]; simpa [hinc] using h.held_eq
            · simp [yields_append, yields, h1, htake]
      cases it with
      | fresh =>
        rw [nextIt]
        split
        · rename_i hf; exact list_case 0 hf
        · exact source_case 0
      | list i => exact list_case i (h.list_its _ hit ⟨i, rfl⟩)
      | source j => exact source_case j
      | ended =>
        refine ⟨h.items_eq, h.kind_eq, h.pos_le, h.held_eq, h.mode_or, ?_, ?_⟩
        · intro it' hit' hl
          rcases mem_set_its hit' with hit' | rfl
          · exact h.list_its it' hit' hl
          · obtain ⟨i, hi⟩ := hl; simp [nextIt] at hi
        · simpa [yields_append, yields, nextIt] using h.seen

theorem corpRun_inv {mode : Mode} (hm : mode ≠ .full) {items : List Obj} (hu : mode = .incremental → UniqueIds items)
    (ops : List CorpOp) : ∀ {evs s}, CorpInv mode items evs s →
    CorpInv mode items (evs ++ (corpRun s ops).1) (corpRun s ops).2 := by
  induction ops with
  | nil => intro evs s h; simpa [corpRun] using h
  | cons op ops ih =>
    intro evs s h
    have := ih (corpStep_inv hm hu h op)
    rw [List.append_assoc] at this
    exact this

theorem corpInv_init (mode : Mode) (items : List Obj) : CorpInv mode items [] ⟨⟨mode, [], .once, items, 0⟩, []⟩ :=
  ⟨rfl, rfl, Nat.zero_le _, by simp, Or.inl rfl, by simp, [], by simp [yields], by simp, by simp⟩

/-- C37, incremental mode over an iterator without repeated IDs, for every history of iterations
(complete, abandoned or interleaved).  Until the source is exhausted the IGTs held are exactly those
yielded so far, which are the first ones of the source, each once.  After that all are held and every
complete iteration yields all of them.
Missing: sources that are lists, as JSON decoding passes them (`C37_refuted`). -/
theorem C37_partial_incremental (items : List Obj) (hu : UniqueIds items) (ops : List CorpOp) :
    ∃ c, mkCorpus .incremental .once items = .ok c ∧
    ∀ evs s, corpRun ⟨c, []⟩ ops = (evs, s) →
      (s.corpus.mode = .incremental ∧ s.corpus.held = yields evs ∧ yields evs <+: items) ∨
      (s.corpus.mode = .full ∧ s.corpus.held = items ∧ (∃ later, yields evs = items ++ later ∧ ∀ x ∈ later, x ∈ items) ∧
        Complete s.corpus .fresh items s.corpus) := by
  refine ⟨_, rfl, fun evs s hrun => ?_⟩
  have h := corpRun_inv (mode := .incremental) (by decide) (fun _ => hu) ops (corpInv_init .incremental items)
  rw [hrun] at h
  simp only [List.nil_append] at h
  obtain ⟨later, h1, h2, h3⟩ := h.seen
  have hheld : s.corpus.held = items.take s.corpus.pos := by simpa using h.held_eq
  rcases h.mode_or with hm | ⟨hm, hp⟩
  · have hl : later = [] := by
      cases later with
      | nil => rfl
      | cons a l => have := h2 (by simp); rw [hm] at this; cases this
    subst hl
    rw [List.append_nil] at h1
    exact Or.inl ⟨hm, by rw [hheld, h1], by rw [h1]; exact List.take_prefix ..⟩
  · rw [hp, List.take_length] at hheld h1
    refine Or.inr ⟨hm, hheld, ⟨later, h1, fun x hx => hheld ▸ h3 x hx⟩, ?_⟩
    have := complete_full hm
    rw [hheld] at this
    exact this

/-- C37, transient mode over an iterator, for every history of iterations: nothing is held, what is
yielded all in all is an initial part of the source, and after exhaustion nothing more is yielded.
Missing: sources that are lists (`C37_refuted`). -/
theorem C37_partial_transient (items : List Obj) (ops : List CorpOp) :
    ∃ c, mkCorpus .transient .once items = .ok c ∧
    ∀ evs s, corpRun ⟨c, []⟩ ops = (evs, s) →
      s.corpus.held = [] ∧ yields evs <+: items ∧
      (s.corpus.mode = .full → yields evs = items ∧ ∀ it, (nextIt s.corpus it).1 = .stop) := by
  refine ⟨_, rfl, fun evs s hrun => ?_⟩
  have h := corpRun_inv (mode := .transient) (by decide) (fun h => by cases h) ops (corpInv_init .transient items)
  rw [hrun] at h
  simp only [List.nil_append] at h
  obtain ⟨later, h1, h2, h3⟩ := h.seen
  have hheld : s.corpus.held = [] := by simpa using h.held_eq
  have hl : later = [] := by
    cases later with
    | nil => rfl
    | cons a l => have := h3 a (by simp); rw [hheld] at this; cases this
  subst hl
  rw [List.append_nil] at h1
  refine ⟨hheld, by rw [h1]; exact List.take_prefix .., fun hf => ?_⟩
  have hp : s.corpus.pos = items.length := by
    rcases h.mode_or with hm | ⟨_, hp⟩
    · rw [hf] at hm; cases hm
    · exact hp
  refine ⟨by rw [h1, hp, List.take_length], fun it => ?_⟩
  have hl : ∀ i, (nextList s.corpus i).1 = .stop := by intro i; simp [nextList, hheld]
  have hs : ∀ j, (nextSource s.corpus j).1 = .stop := by
    intro j
    rw [nextSource, if_neg (by rw [h.kind_eq]; decide), srcPos, if_pos h.kind_eq, h.items_eq, hp]
    simp
  cases it with
  | fresh => rw [nextIt, if_pos hf]; exact hl 0
  | list i => exact hl i
  | source j => exact hs j
  | ended => rfl

/-- C37 for every kind of source if the first iteration is complete: afterwards all IGTs are held
(incremental) or none (transient), and further iterations yield those held. -/
theorem C37_partial_complete (mode : Mode) (hm : mode ≠ .full) (kind : SrcKind) (hk : kind ≠ .absent)
    (items : List Obj) (hu : UniqueIds items) :
    ∃ c c', mkCorpus mode kind items = .ok c ∧ Complete c .fresh items c' ∧
      c'.held = (if mode = .incremental then items else []) ∧ Complete c' .fresh c'.held c' := by
  refine ⟨⟨mode, [], kind, items, 0⟩, ⟨.full, if mode = .incremental then items else [], kind, items, max 0 items.length⟩,
    by rw [mkCorpus, if_neg hm], ?_, ?_, ?_⟩
  · have := complete_source items hu mode hm kind hk _ 0 rfl
    simp only [List.take_zero, ite_self, List.drop_zero] at this
    exact this.congr (by rw [nextIt, if_neg hm]; rfl)
  · rfl
  · exact complete_full rfl

/-- C37 is false for a corpus over a list (as decoded from JSON): an iteration after an abandoned one
begins anew, which raises in incremental mode as the first IGT is held already; in transient mode it
yields the first IGT twice. -/
theorem C37_refuted : ∃ items, UniqueIds items ∧
    (∃ c, mkCorpus .incremental .again items = .ok c ∧
      (corpRun ⟨c, []⟩ [.iter, .next 0, .iter, .next 1]).1 = [.yield (exIgt (lit! "a")), .raise .xigtError]) ∧
    (∃ c, mkCorpus .transient .again items = .ok c ∧
      (corpRun ⟨c, []⟩ [.iter, .next 0, .iter, .next 1]).1 = [.yield (exIgt (lit! "a")), .yield (exIgt (lit! "a"))]) :=
  ⟨[exIgt (lit! "a"), exIgt (lit! "b")], by unfold UniqueIds; decide +kernel, ⟨_, rfl, rfl⟩, ⟨_, rfl, rfl⟩⟩

/-- two interleaved iterations share the source -/
example : ∃ c, mkCorpus .incremental .once [exIgt (lit! "a"), exIgt (lit! "b")] = .ok c ∧
    (corpRun ⟨c, []⟩ [.iter, .iter, .next 1, .next 0, .next 0, .next 1, .iter, .next 2]).1 =
      [.yield (exIgt (lit! "a")), .yield (exIgt (lit! "b")), .stop, .stop, .yield (exIgt (lit! "a"))] :=
  ⟨_, rfl, rfl⟩

end Xigt
