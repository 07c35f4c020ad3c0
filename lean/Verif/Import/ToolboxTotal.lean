import Verif.Import.ToolboxFile
import Verif.Json.Lemmas
import Verif.Xml.Indent
/-
C167: which Toolbox records are imported: exactly those that fit, whatever the other records are; and what
becomes of a file of records.
-/
set_option linter.unusedSectionVars false

namespace Xigt.Tbx

/-! ### Spec -/

/-- `s` begins with a letter of ASCII -/
def Lettered (s : Str) : Prop := ∃ c cs, s = c :: cs ∧ isLetter c = true

/-- the phrase tier made before the tier `tid`, with its one item -/
def phraseMade (o : Opts) (tid : Str) : List (Str × Nat) :=
  match o.phrase with
  | some (w, p) => if w = tid then [(p, 1)] else []
  | none => []

/-- the tiers that the fields are about: their IDs and numbers of items -/
def made (o : Opts) : List (Py Field) → List (Str × Nat)
  | [] => []
  | .error _ :: fs => made o fs
  | .ok (mkr, aln) :: fs =>
    match Dict.get? o.tierMap mkr with
    | none => made o fs
    | some tid => phraseMade o tid ++ (tid, (tokens aln).length) :: made o fs

/-- the cells of a field that is aligned with a tier of `n` items: one at least for each item, and tokens only
where there is an item; and something to find them in, if they are words or morphemes -/
structure CellsFit (ttype : Option Str) (aln : List Aln) (n : Nat) : Prop where
  enough : n ≤ aln.length
  item : ∀ k tgt toks, aln[k]? = some (tgt, some toks) → toks ≠ [] → k < n
  target : ∀ toks, (none, some toks) ∈ aln → toks ≠ [] → ttype ≠ some WORDS ∧ ttype ≠ some MORPHEMES

/-- a field from which the tier `tid` can be made after the tiers `before`: the tier has a description, and the
field is empty, or has tokens in all its cells, aligned with the tier it has to be aligned with, if there is one -/
def FieldFits (o : Opts) (before : List (Str × Nat)) (tid : Str) (aln : List Aln) : Prop :=
  ∃ ttype, Dict.get? o.tierTypes tid = some ttype ∧
    (aln = [(none, none)] ∨ ((∀ a ∈ aln, a.2 ≠ none) ∧
      ∀ ra aid n, Dict.get? o.alignments tid = some (some ra, aid) → (aid, n) ∈ before → CellsFit ttype aln n))

/-- a record that can be imported -/
structure RecordFits (o : Opts) (fs : List (Py Field)) : Prop where
  ok : ∀ f ∈ fs, ∃ g, f = .ok g
  letters : ∀ p ∈ made o fs, Lettered p.1
  once : ((made o fs).map Prod.fst).Nodup
  fits : ∀ pre mkr aln post tid, fs = pre ++ .ok (mkr, aln) :: post → Dict.get? o.tierMap mkr = some tid →
    FieldFits o (made o pre ++ phraseMade o tid) tid aln

/-! ### Making tiers -/

theorem bind_ex {α β : Type} {a : Py α} {f : α → Py β} : (∃ y, (a >>= f) = .ok y) ↔ ∃ x, a = .ok x ∧ ∃ y, f x = .ok y := by
  cases a with
  | error e => simp [bind, Except.bind]
  | ok x => simp [bind, Except.bind]

section
variable [Uni] [Lex]

theorem lettered_iff {s : Str} : idAccepted s = true ↔ Lettered s := idAccepted_iff s

theorem mkItem_ok {tid : Str} (h : Lettered tid) (i : Nat) (t : Str) (a : Dict Str Str) : ∃ x, mkItem tid i t a = .ok x := by
  refine ⟨_, construct_ok (d := { cls := .item, id := some (tid ++ natStr i), attrs := a, text := some t }) ?_ ?_ ?_ ?_⟩
  · intro j hj
    cases hj
    obtain ⟨c, cs, rfl, hc⟩ := h
    exact lettered_iff.2 ⟨c, cs ++ natStr i, rfl, hc⟩
  · intro n hn; cases hn
  · simp
  · simp

theorem refOf_ok {ty : Option Str} {item : Option Obj} {tgt : Option Str} {s : Nat} {toks : List Str} {t : Str} :
    (∃ r, refOf ty item tgt s toks t = .ok r) ↔ item ≠ none ∧ (tgt = none → ty ≠ some WORDS ∧ ty ≠ some MORPHEMES) := by
  have hs : (∃ sp, spanOf ty tgt s toks t = .ok sp) ↔ (tgt = none → ty ≠ some WORDS ∧ ty ≠ some MORPHEMES) := by
    unfold spanOf
    by_cases h : ty = some WORDS ∨ ty = some MORPHEMES
    · rw [if_pos h]
      cases tgt with
      | none =>
        simp only [alignWord, Except.map]
        constructor
        · rintro ⟨_, h⟩; cases h
        · intro h'
          have := h' trivial
          rcases h with h | h
          · exact absurd h this.1
          · exact absurd h this.2
      | some g =>
        refine ⟨fun _ h' => (by cases h'), fun _ => ?_⟩
        simp only [alignWord]
        split
        · exact ⟨_, rfl⟩
        · split
          · exact ⟨_, rfl⟩
          · exact ⟨_, rfl⟩
    · rw [if_neg h]
      exact ⟨fun _ _ => ⟨fun e => h (.inl e), fun e => h (.inr e)⟩, fun _ => ⟨_, rfl⟩⟩
  rw [← hs]
  unfold refOf
  cases spanOf ty tgt s toks t with
  | error e => simp
  | ok sp => cases item with
    | none => simp
    | some it => simp

theorem refItems_ok {ty : Option Str} {tid ra : Str} {item : Option Obj} {tgt : Option Str} {toks : List Str} (hid : Lettered tid) :
    ∀ (ts : List Str) (s i : Nat), (∃ xs, refItems ty tid ra item tgt toks ts s i = .ok xs) ↔
      (ts ≠ [] → item ≠ none ∧ (tgt = none → ty ≠ some WORDS ∧ ty ≠ some MORPHEMES)) := by
  intro ts
  induction ts with
  | nil => intro s i; simp [refItems]
  | cons t ts ih =>
    intro s i
    rw [refItems, bind_ex]
    constructor
    · rintro ⟨r, hr, _⟩ _
      exact refOf_ok.1 ⟨r, hr⟩
    · intro h
      obtain ⟨r, hr⟩ := refOf_ok.2 (h (by simp))
      refine ⟨r, hr, bind_ex.2 ?_⟩
      obtain ⟨x, hx⟩ := mkItem_ok hid i t [(ra, r)]
      refine ⟨x, hx, bind_ex.2 ?_⟩
      obtain ⟨xs, hxs⟩ := (ih (s + 1) (i + 1)).2 (fun _ => h (by simp))
      exact ⟨xs, hxs, _, rfl⟩

theorem alnItems_ok {ty : Option Str} {tid ra : Str} (hid : Lettered tid) : ∀ (ps : List (Option Obj × Option Aln)) (i : Nat),
    (∃ xs, alnItems ty tid ra ps i = .ok xs) ↔ ∀ p ∈ ps, ∃ tgt toks, p.2 = some (tgt, some toks) ∧
      (toks ≠ [] → p.1 ≠ none ∧ (tgt = none → ty ≠ some WORDS ∧ ty ≠ some MORPHEMES)) := by
  intro ps
  induction ps with
  | nil => intro i; simp [alnItems]
  | cons p ps ih =>
    intro i
    obtain ⟨item, a⟩ := p
    cases a with
    | none => simp [alnItems]
    | some a =>
      obtain ⟨tgt, toks⟩ := a
      cases toks with
      | none => simp [alnItems]
      | some toks =>
        rw [alnItems, bind_ex]
        constructor
        · rintro ⟨xs, hxs, h⟩ p hp
          rcases List.mem_cons.1 hp with rfl | hp
          · exact ⟨tgt, toks, rfl, (refItems_ok hid _ _ _).1 ⟨xs, hxs⟩⟩
          · obtain ⟨ys, hys, _⟩ := bind_ex.1 h
            exact (ih _).1 ⟨ys, hys⟩ p hp
        · intro h
          obtain ⟨tgt', toks', e, h'⟩ := h (item, some (tgt, some toks)) (by simp)
          cases e
          obtain ⟨xs, hxs⟩ := (refItems_ok (ra := ra) (toks := toks) hid toks 0 i).2 h'
          refine ⟨xs, hxs, bind_ex.2 ?_⟩
          obtain ⟨ys, hys⟩ := (ih (i + toks.length)).2 (fun p hp => h p (by simp [hp]))
          exact ⟨ys, hys, _, rfl⟩

theorem plainToks_ok {tid : Str} (hid : Lettered tid) : ∀ (ts : List Str) (i : Nat), ∃ xs, plainToks tid ts i = .ok xs := by
  intro ts
  induction ts with
  | nil => intro i; exact ⟨_, rfl⟩
  | cons t ts ih =>
    intro i
    rw [plainToks]
    obtain ⟨x, hx⟩ := mkItem_ok hid i t []
    obtain ⟨xs, hxs⟩ := ih (i + 1)
    exact bind_ex.2 ⟨x, hx, bind_ex.2 ⟨xs, hxs, _, rfl⟩⟩

theorem plainItems_ok {tid : Str} (hid : Lettered tid) : ∀ (as : List Aln) (i : Nat),
    (∃ xs, plainItems tid as i = .ok xs) ↔ ∀ a ∈ as, a.2 ≠ none := by
  intro as
  induction as with
  | nil => intro i; simp [plainItems]
  | cons a as ih =>
    intro i
    obtain ⟨tgt, toks⟩ := a
    cases toks with
    | none => simp [plainItems]
    | some toks =>
      rw [plainItems, bind_ex]
      constructor
      · rintro ⟨xs, _, h⟩ p hp
        rcases List.mem_cons.1 hp with rfl | hp
        · simp
        · obtain ⟨ys, hys, _⟩ := bind_ex.1 h
          exact (ih _).1 ⟨ys, hys⟩ p hp
      · intro h
        obtain ⟨xs, hxs⟩ := plainToks_ok hid toks i
        refine ⟨xs, hxs, bind_ex.2 ?_⟩
        obtain ⟨ys, hys⟩ := (ih (i + toks.length)).2 (fun p hp => h p (by simp [hp]))
        exact ⟨ys, hys, _, rfl⟩

theorem zipLongest_at {α β : Type} : ∀ (xs : List α) (ys : List β) (p : Option α × Option β),
    p ∈ zipLongest xs ys ↔ ∃ k, (k < xs.length ∨ k < ys.length) ∧ p = (xs[k]?, ys[k]?) := by
  intro xs
  induction xs with
  | nil =>
    intro ys p
    simp only [zipLongest, List.mem_map, List.length_nil, Nat.not_lt_zero, false_or, List.getElem?_nil]
    constructor
    · rintro ⟨y, hy, rfl⟩
      obtain ⟨k, hk, e⟩ := List.getElem_of_mem hy
      exact ⟨k, hk, by rw [List.getElem?_eq_getElem hk, e]⟩
    · rintro ⟨k, hk, rfl⟩
      exact ⟨ys[k], List.getElem_mem hk, by rw [List.getElem?_eq_getElem hk]⟩
  | cons x xs ih =>
    intro ys p
    cases ys with
    | nil =>
      simp only [zipLongest, List.mem_map, List.length_nil, Nat.not_lt_zero, or_false, List.getElem?_nil]
      constructor
      · rintro ⟨y, hy, rfl⟩
        obtain ⟨k, hk, e⟩ := List.getElem_of_mem hy
        exact ⟨k, hk, by rw [List.getElem?_eq_getElem hk, e]⟩
      · rintro ⟨k, hk, rfl⟩
        exact ⟨(x :: xs)[k], List.getElem_mem hk, by rw [List.getElem?_eq_getElem hk]⟩
    | cons y ys =>
      rw [zipLongest, List.mem_cons, ih]
      constructor
      · rintro (rfl | ⟨k, hk, rfl⟩)
        · exact ⟨0, by simp, rfl⟩
        · exact ⟨k + 1, by simpa using hk, by simp⟩
      · rintro ⟨k, hk, rfl⟩
        cases k with
        | zero => left; rfl
        | succ k => right; exact ⟨k, by simpa using hk, by simp⟩

theorem mkTier_ok {ty : Option Str} {tid : Str} {a : Dict Str Str} {xs : List Obj} (hid : Lettered tid)
    (hd : (xs.filterMap fun x => x.data.id).Nodup) : ∃ t, mkTier ty tid a xs = .ok t := by
  refine ⟨_, construct_ok (d := { cls := .tier, id := some tid, type := ty, attrs := a }) ?_ ?_ ?_ hd⟩
  · intro j hj; cases hj; exact lettered_iff.2 hid
  · intro n hn; cases hn
  · simp

theorem Items.distinct {tid : Str} {i : Nat} {toks : List Str} {xs : List Obj} (h : Items tid i toks xs) :
    (xs.filterMap fun x => x.data.id).Nodup := by
  have e : (xs.filterMap fun x => x.data.id) = (xs.map fun x => x.data.id).filterMap id := by
    rw [List.filterMap_map]; rfl
  rw [e, h.2, List.filterMap_map]
  have e2 : (List.range' i toks.length).filterMap (id ∘ fun k => some (tid ++ natStr k)) =
      (List.range' i toks.length).map fun k => tid ++ natStr k := by
    rw [← List.filterMap_eq_map]; rfl
  rw [e2, List.nodup_iff_pairwise_ne, List.pairwise_map]
  refine List.Pairwise.imp ?_ (List.nodup_iff_pairwise_ne.1 List.nodup_range')
  intro a b hab e
  exact hab (natStr_inj (List.append_cancel_left e))

/-- what a tier is made of, if it is made -/
theorem makeTier_ok {ty : Option Str} {tid : Str} {ra : Option Str} {aln : List Aln} {algn : Option Obj} :
    (∃ t, makeTier ty tid ra aln algn = .ok t) ↔ Lettered tid ∧ (aln = [(none, none)] ∨ ((∀ a ∈ aln, a.2 ≠ none) ∧
      ∀ r u, ra = some r → algn = some u → CellsFit ty aln u.kids.length)) := by
  constructor
  · rintro ⟨t, h⟩
    have hid : Lettered tid := by
      unfold makeTier at h
      split at h
      · exact lettered_iff.1 (mkTier_inv h).2
      · split at h
        · obtain ⟨xs, _, h⟩ := bind_ex.1 ⟨t, h⟩
          obtain ⟨_, h⟩ := h
          exact lettered_iff.1 (mkTier_inv h).2
        · obtain ⟨xs, _, h⟩ := bind_ex.1 ⟨t, h⟩
          obtain ⟨_, h⟩ := h
          exact lettered_iff.1 (mkTier_inv h).2
    refine ⟨hid, ?_⟩
    unfold makeTier at h
    split at h
    · next e => exact .inl e
    · right
      split at h
      · next r u =>
        obtain ⟨xs, hxs, _⟩ := bind_ex.1 ⟨t, h⟩
        have key := (alnItems_ok hid _ _).1 ⟨xs, hxs⟩
        have cell : ∀ k, (k < u.kids.length ∨ k < aln.length) → ∃ tgt toks, aln[k]? = some (tgt, some toks) ∧
            (toks ≠ [] → u.kids[k]? ≠ none ∧ (tgt = none → ty ≠ some WORDS ∧ ty ≠ some MORPHEMES)) :=
          fun k hk => key _ ((zipLongest_at _ _ _).2 ⟨k, hk, rfl⟩)
        constructor
        · intro a ha
          obtain ⟨k, hk, e⟩ := List.getElem_of_mem ha
          obtain ⟨tgt, toks, e', _⟩ := cell k (.inr hk)
          rw [List.getElem?_eq_getElem hk, e] at e'
          cases e'
          simp
        · intro r' u' e1 e2
          cases e1; cases e2
          refine ⟨?_, ?_, ?_⟩
          · cases hn : u.kids.length with
            | zero => omega
            | succ n =>
              obtain ⟨tgt, toks, e', _⟩ := cell n (.inl (by omega))
              have := (List.getElem?_eq_some_iff.1 e').1
              omega
          · intro k tgt toks e hne
            have hk := (List.getElem?_eq_some_iff.1 e).1
            obtain ⟨tgt', toks', e', h'⟩ := cell k (.inr hk)
            rw [e] at e'
            cases e'
            have := (h' hne).1
            rw [ne_eq, List.getElem?_eq_none_iff] at this
            omega
          · intro toks hm hne
            obtain ⟨k, hk, e⟩ := List.getElem_of_mem hm
            obtain ⟨tgt', toks', e', h'⟩ := cell k (.inr hk)
            rw [List.getElem?_eq_getElem hk, e] at e'
            cases e'
            exact (h' hne).2 rfl
      · next hno =>
        obtain ⟨xs, hxs, _⟩ := bind_ex.1 ⟨t, h⟩
        exact ⟨(plainItems_ok hid _ _).1 ⟨xs, hxs⟩, fun r u e1 e2 => (hno r u e1 e2).elim⟩
  · rintro ⟨hid, h⟩
    unfold makeTier
    by_cases e : aln = [(none, none)]
    · rw [if_pos e]; exact mkTier_ok hid (by simp)
    · rw [if_neg e]
      obtain ⟨h1, h2⟩ := h.resolve_left e
      have plain : ∃ t, (do let xs ← plainItems tid aln 1; mkTier ty tid [] xs) = .ok t := by
        obtain ⟨xs, hxs⟩ := (plainItems_ok hid aln 1).2 h1
        exact bind_ex.2 ⟨xs, hxs, mkTier_ok hid (plainItems_inv _ _ _ hxs).distinct⟩
      cases ra with
      | none => exact plain
      | some r =>
        cases algn with
        | none => exact plain
        | some u =>
          have ha := h2 r u rfl rfl
          have : ∃ xs, alnItems ty tid r (zipLongest u.kids aln) 1 = .ok xs := by
            refine (alnItems_ok hid _ _).2 ?_
            intro p hp
            obtain ⟨k, hk, rfl⟩ := (zipLongest_at _ _ _).1 hp
            have hk' : k < aln.length := by have := ha.enough; omega
            have hn := h1 _ (List.getElem_mem hk')
            have hsome := List.getElem?_eq_getElem hk'
            cases hc : aln[k] with
            | mk tgt toks =>
              rw [hc] at hn hsome
              cases toks with
              | none => simp at hn
              | some toks =>
                refine ⟨tgt, toks, hsome, fun hne => ⟨?_, ?_⟩⟩
                · have := ha.item k tgt toks hsome hne
                  rw [ne_eq, List.getElem?_eq_none_iff]
                  omega
                · rintro rfl
                  exact ha.target toks (List.mem_of_getElem? hsome) hne
          obtain ⟨xs, hxs⟩ := this
          exact bind_ex.2 ⟨xs, hxs, mkTier_ok hid (alnItems_inv _ _ _ hxs).1.distinct⟩

/-! ### Making the tiers of a record -/

/-- `RecordFits` from some field on, after the tiers `B` -/
def FitsFrom (o : Opts) : List (Str × Nat) → List (Py Field) → Prop
  | _, [] => True
  | _, .error _ :: _ => False
  | B, .ok (mkr, aln) :: fs =>
    match Dict.get? o.tierMap mkr with
    | none => FitsFrom o B fs
    | some tid => (∀ p ∈ phraseMade o tid, Lettered p.1 ∧ p.1 ∉ B.map Prod.fst) ∧ Lettered tid ∧
      tid ∉ (B ++ phraseMade o tid).map Prod.fst ∧ FieldFits o (B ++ phraseMade o tid) tid aln ∧
      FitsFrom o (B ++ phraseMade o tid ++ [(tid, (tokens aln).length)]) fs

/-- the tiers made so far are `B` -/
structure Inv (B : List (Str × Nat)) (prev : Dict Str Obj) (done : List Obj) : Prop where
  ids : (done.map fun t => t.data.id) = B.map fun p => some p.1
  known : ∀ a n, (a, n) ∈ B ↔ ∃ t, Dict.get? prev a = some t ∧ t.kids.length = n

theorem Inv.fresh {B : List (Str × Nat)} {prev : Dict Str Obj} {done : List Obj} (h : Inv B prev done) {t : Obj} {tid : Str}
    (ht : t.data.id = some tid) : (∀ y ∈ done, y.data.id ≠ t.data.id) ↔ tid ∉ B.map Prod.fst := by
  have e : some tid ∈ (done.map fun t => t.data.id) ↔ tid ∈ B.map Prod.fst := by
    rw [h.ids]
    simp [List.mem_map]
  rw [← e, ht, List.mem_map]
  constructor
  · rintro h ⟨y, hy, e⟩; exact h y hy e
  · intro h y hy e; exact h ⟨y, hy, e⟩

theorem yieldTier_ok {done : List Obj} {t : Obj} : (∃ d, yieldTier done t = .ok d) ↔ ∀ y ∈ done, y.data.id ≠ t.data.id := by
  unfold yieldTier
  constructor
  · rintro ⟨d, h⟩
    split at h
    · cases h
    · next hh =>
      intro y hy e
      exact hh (List.any_eq_true.2 ⟨y, hy, by simpa using e⟩)
  · intro h
    rw [if_neg]
    · exact ⟨_, rfl⟩
    · intro hh
      obtain ⟨y, hy, e⟩ := List.any_eq_true.1 hh
      exact h y hy (by simpa using e)

theorem Inv.snoc {B : List (Str × Nat)} {prev : Dict Str Obj} {done : List Obj} (h : Inv B prev done) {t : Obj} {tid : Str}
    (ht : t.data.id = some tid) (hf : tid ∉ B.map Prod.fst) : Inv (B ++ [(tid, t.kids.length)]) (Dict.set prev tid t) (done ++ [t]) := by
  refine ⟨by simp [h.ids, ht], fun a n => ?_⟩
  rw [Dict.get?_set, List.mem_append, List.mem_singleton]
  by_cases e : tid = a
  · subst e
    simp only [if_true, Option.some.injEq, exists_eq_left', Prod.mk.injEq, true_and]
    constructor
    · rintro (hm | rfl)
      · exact (hf (List.mem_map.2 ⟨_, hm, rfl⟩)).elim
      · rfl
    · intro e; exact .inr e.symm
  · rw [if_neg e, ← h.known]
    constructor
    · rintro (hm | hm)
      · exact hm
      · injection hm with h1; exact (e h1.symm).elim
    · exact .inl

theorem makePhraseTier_ok {pid : Str} {aln : List Aln} : (∃ p, makePhraseTier pid aln = .ok p) ↔ Lettered pid := by
  unfold makePhraseTier
  rw [bind_ex]
  constructor
  · rintro ⟨x, _, t, ht⟩
    exact lettered_iff.1 (mkTier_inv ht).2
  · intro h
    obtain ⟨x, hx⟩ := mkItem_ok h 1 (join [' '] (aln.flatMap fun a => a.2.getD [])) []
    refine ⟨x, hx, mkTier_ok h ?_⟩
    rw [mkItem_inv hx]
    simp

theorem phraseStep_ok {o : Opts} {tid : Str} {aln : List Aln} {B : List (Str × Nat)} {prev : Dict Str Obj} {done : List Obj}
    (h : Inv B prev done) : (∃ pd, phraseStep o tid aln prev done = .ok pd) ↔ ∀ p ∈ phraseMade o tid, Lettered p.1 ∧ p.1 ∉ B.map Prod.fst := by
  unfold phraseStep phraseMade
  cases o.phrase with
  | none => simp
  | some wp =>
    obtain ⟨w, p⟩ := wp
    simp only
    by_cases e : w = tid
    · rw [if_pos e, if_pos e, bind_ex]
      simp only [List.mem_singleton, forall_eq]
      constructor
      · rintro ⟨t, ht, hr⟩
        obtain ⟨d, hd, _⟩ := bind_ex.1 hr
        exact ⟨makePhraseTier_ok.1 ⟨t, ht⟩, (h.fresh (makePhraseTier_holds ht).id).1 (yieldTier_ok.1 ⟨d, hd⟩)⟩
      · rintro ⟨h1, h2⟩
        obtain ⟨t, ht⟩ := (makePhraseTier_ok (aln := aln)).2 h1
        obtain ⟨d, hd⟩ := yieldTier_ok.2 ((h.fresh (makePhraseTier_holds ht).id).2 h2)
        exact ⟨t, ht, bind_ex.2 ⟨d, hd, _, rfl⟩⟩
    · rw [if_neg e, if_neg e]
      simp

theorem Holds.count {tid : Str} {toks : List Str} {t : Obj} (h : Holds tid toks t) : t.kids.length = toks.length := by
  have := congrArg List.length h.texts
  simpa using this

theorem phraseStep_made {o : Opts} {tid : Str} {aln : List Aln} {B : List (Str × Nat)} {prev prev' : Dict Str Obj} {done done' : List Obj}
    (h : Inv B prev done) (hs : phraseStep o tid aln prev done = .ok (prev', done')) : Inv (B ++ phraseMade o tid) prev' done' := by
  rcases phraseStep_inv hs with ⟨hno, rfl, rfl⟩ | ⟨pid, p, hp, hm, rfl, rfl, hf⟩
  · have : phraseMade o tid = [] := by
      unfold phraseMade
      cases hp : o.phrase with
      | none => rfl
      | some wp =>
        obtain ⟨w, p⟩ := wp
        simp only
        rw [if_neg]
        rintro rfl
        exact hno p hp
    rw [this, List.append_nil]
    exact h
  · have : phraseMade o tid = [(pid, 1)] := by simp [phraseMade, hp]
    have hh := makePhraseTier_holds hm
    rw [this, show 1 = p.kids.length from hh.count.symm]
    exact h.snoc hh.id ((h.fresh hh.id).1 hf)

theorem asImportError_ex {α : Type} {r : Py α} : (∃ a, asImportError r = .ok a) ↔ ∃ a, r = .ok a := by
  constructor
  · rintro ⟨a, h⟩; exact ⟨a, asImportError_ok h⟩
  · rintro ⟨a, rfl⟩; exact ⟨a, rfl⟩

theorem fieldTier_ok {o : Opts} {B : List (Str × Nat)} {prev : Dict Str Obj} {done : List Obj} (h : Inv B prev done) {tid : Str} {ty : Option Str}
    (hty : Dict.get? o.tierTypes tid = some ty) {aln : List Aln} :
    (∃ t, makeTier ty tid (alignmentOf o tid).1 aln ((alignmentOf o tid).2.bind (Dict.get? prev)) = .ok t) ↔
      Lettered tid ∧ FieldFits o B tid aln := by
  rw [makeTier_ok]
  refine and_congr_right fun _ => ?_
  unfold FieldFits
  have hal : (∀ r u, (alignmentOf o tid).1 = some r → (alignmentOf o tid).2.bind (Dict.get? prev) = some u → CellsFit ty aln u.kids.length) ↔
      ∀ ra aid n, Dict.get? o.alignments tid = some (some ra, aid) → (aid, n) ∈ B → CellsFit ty aln n := by
    unfold alignmentOf
    cases hg : Dict.get? o.alignments tid with
    | none => simp
    | some p =>
      obtain ⟨ra, aid⟩ := p
      constructor
      · intro hh r a n e hm
        cases e
        obtain ⟨t, ht, rfl⟩ := (h.known _ _).1 hm
        exact hh r t rfl ht
      · intro hh r u e1 e2
        simp only at e1
        subst e1
        exact hh r aid _ rfl ((h.known _ _).2 ⟨u, e2, rfl⟩)
  constructor
  · intro hh
    exact ⟨ty, hty, hh.imp id fun hh => ⟨hh.1, hal.1 hh.2⟩⟩
  · rintro ⟨ty', hty', hh⟩
    rw [hty] at hty'
    cases hty'
    exact hh.imp id fun hh => ⟨hh.1, hal.2 hh.2⟩

theorem makeAllTiers_ok (o : Opts) : ∀ (fs : List (Py Field)) (B : List (Str × Nat)) (prev : Dict Str Obj) (done : List Obj), Inv B prev done →
    ((∃ ts, makeAllTiers o fs prev done = .ok ts) ↔ FitsFrom o B fs) := by
  intro fs
  induction fs with
  | nil => intro B prev done _; simp [makeAllTiers, FitsFrom]
  | cons f fs ih =>
    intro B prev done h
    cases f with
    | error e => simp [makeAllTiers, FitsFrom]
    | ok f =>
      obtain ⟨mkr, aln⟩ := f
      cases hm : Dict.get? o.tierMap mkr with
      | none => simp only [makeAllTiers, FitsFrom, hm]; exact ih B prev done h
      | some tid =>
        simp only [makeAllTiers, FitsFrom, hm]
        rw [bind_ex]
        constructor
        · rintro ⟨⟨prev', done'⟩, hps, hr⟩
          have h' := phraseStep_made h hps
          obtain ⟨ty, hty, hr⟩ := bind_ex.1 hr
          have hty' : Dict.get? o.tierTypes tid = some ty := by
            unfold Dict.getItem at hty
            cases hg : Dict.get? o.tierTypes tid with
            | none => rw [hg] at hty; cases hty
            | some x => rw [hg] at hty; cases hty; rfl
          obtain ⟨t, ht, hr⟩ := bind_ex.1 hr
          have ht := asImportError_ok ht
          obtain ⟨d, hd, hr⟩ := bind_ex.1 hr
          have hh := (makeTier_holds ht).1
          have hf := (h'.fresh hh.id).1 (yieldTier_ok.1 ⟨d, hd⟩)
          obtain ⟨h1, h2⟩ := (fieldTier_ok h' hty').1 ⟨t, ht⟩
          refine ⟨(phraseStep_ok h).1 ⟨_, hps⟩, h1, hf, h2, ?_⟩
          have e := (yieldTier_inv hd).1
          subst e
          rw [← hh.count]
          exact (ih _ _ _ (h'.snoc hh.id hf)).1 hr
        · rintro ⟨h1, h2, h3, h4, h5⟩
          obtain ⟨⟨prev', done'⟩, hps⟩ := (phraseStep_ok (aln := aln) h).2 h1
          have h' := phraseStep_made h hps
          refine ⟨_, hps, ?_⟩
          have ⟨ty, hty, _⟩ := h4
          refine bind_ex.2 ⟨ty, by simp [Dict.getItem, hty], ?_⟩
          obtain ⟨t, ht⟩ := (fieldTier_ok h' hty).2 ⟨h2, h4⟩
          refine bind_ex.2 ⟨t, by rw [ht]; rfl, ?_⟩
          have hh := (makeTier_holds ht).1
          obtain ⟨d, hd⟩ := yieldTier_ok.2 ((h'.fresh hh.id).2 h3)
          refine bind_ex.2 ⟨d, hd, ?_⟩
          have e := (yieldTier_inv hd).1
          subst e
          refine (ih _ _ _ (h'.snoc hh.id h3)).2 ?_
          rw [hh.count]
          exact h5

theorem phraseMade_keys (o : Opts) (tid : Str) : ((phraseMade o tid).map Prod.fst).Nodup := by
  unfold phraseMade
  split
  · split
    · simp
    · simp
  · simp

theorem made_append (o : Opts) (a b : List (Py Field)) : made o (a ++ b) = made o a ++ made o b := by
  induction a with
  | nil => rfl
  | cons f a ih =>
    cases f with
    | error e => exact ih
    | ok f =>
      obtain ⟨mkr, aln⟩ := f
      simp only [List.cons_append, made]
      cases Dict.get? o.tierMap mkr with
      | none => exact ih
      | some tid => simp [ih]

theorem fitsFrom_iff (o : Opts) : ∀ (fs : List (Py Field)) (B : List (Str × Nat)), (B.map Prod.fst).Nodup → (FitsFrom o B fs ↔
    (∀ f ∈ fs, ∃ g, f = .ok g) ∧ (∀ p ∈ made o fs, Lettered p.1) ∧ ((B ++ made o fs).map Prod.fst).Nodup ∧
    ∀ pre mkr aln post tid, fs = pre ++ .ok (mkr, aln) :: post → Dict.get? o.tierMap mkr = some tid →
      FieldFits o (B ++ made o pre ++ phraseMade o tid) tid aln) := by
  intro fs
  induction fs with
  | nil =>
    intro B hB
    simp only [FitsFrom, made, List.append_nil, true_iff]
    refine ⟨by simp, by simp, hB, ?_⟩
    intro pre mkr aln post tid e
    cases pre <;> cases e
  | cons f fs ih =>
    intro B hB
    cases f with
    | error e =>
      simp only [FitsFrom, false_iff]
      rintro ⟨h, _⟩
      obtain ⟨g, hg⟩ := h (.error e) (by simp)
      cases hg
    | ok f =>
      obtain ⟨mkr, aln⟩ := f
      cases hm : Dict.get? o.tierMap mkr with
      | none =>
        have hmade : ∀ l, made o (.ok (mkr, aln) :: l) = made o l := by intro l; simp [made, hm]
        simp only [FitsFrom, hm, hmade]
        rw [ih B hB]
        constructor
        · rintro ⟨h1, h2, h3, h4⟩
          refine ⟨?_, h2, h3, ?_⟩
          · intro f hf
            rcases List.mem_cons.1 hf with rfl | hf
            · exact ⟨_, rfl⟩
            · exact h1 f hf
          · intro pre mkr' aln' post tid e ht
            cases pre with
            | nil => cases e; rw [hm] at ht; cases ht
            | cons x pre =>
              injection e with e1 e2
              subst e1
              rw [hmade]
              exact h4 pre mkr' aln' post tid e2 ht
        · rintro ⟨h1, h2, h3, h4⟩
          refine ⟨fun f hf => h1 f (by simp [hf]), h2, h3, ?_⟩
          intro pre mkr' aln' post tid e ht
          have := h4 (.ok (mkr, aln) :: pre) mkr' aln' post tid (by rw [e]; rfl) ht
          rwa [hmade] at this
      | some tid =>
        have hmade : ∀ l, made o (.ok (mkr, aln) :: l) = phraseMade o tid ++ (tid, (tokens aln).length) :: made o l := by
          intro l; simp [made, hm]
        simp only [FitsFrom, hm, hmade]
        have assoc : ∀ l, B ++ (phraseMade o tid ++ (tid, (tokens aln).length) :: l) = B ++ phraseMade o tid ++ [(tid, (tokens aln).length)] ++ l := by
          intro l; simp
        rw [assoc]
        have hnd : ((∀ p ∈ phraseMade o tid, p.1 ∉ B.map Prod.fst) ∧ tid ∉ (B ++ phraseMade o tid).map Prod.fst) ↔
            ((B ++ phraseMade o tid ++ [(tid, (tokens aln).length)]).map Prod.fst).Nodup := by
          rw [List.map_append (l₂ := [_]), List.nodup_append, List.map_append, List.nodup_append]
          constructor
          · rintro ⟨h1, h2⟩
            refine ⟨⟨hB, phraseMade_keys o tid, ?_⟩, by simp, ?_⟩
            · intro a ha b hb e
              subst e
              obtain ⟨p, hp, rfl⟩ := List.mem_map.1 hb
              exact h1 p hp ha
            · intro a ha b hb e
              simp only [List.map_cons, List.map_nil, List.mem_singleton] at hb
              subst hb e
              exact h2 ha
          · rintro ⟨⟨_, _, h1⟩, _, h2⟩
            exact ⟨fun p hp hB => h1 _ hB _ (List.mem_map.2 ⟨p, hp, rfl⟩) rfl, fun hh => h2 _ hh tid (by simp) rfl⟩
        constructor
        · rintro ⟨h1, h2, h3, h4, h5⟩
          have hn := hnd.1 ⟨fun p hp => (h1 p hp).2, h3⟩
          obtain ⟨g1, g2, g3, g4⟩ := (ih _ hn).1 h5
          refine ⟨?_, ?_, g3, ?_⟩
          · intro f hf
            rcases List.mem_cons.1 hf with rfl | hf
            · exact ⟨_, rfl⟩
            · exact g1 f hf
          · intro p hp
            rcases List.mem_append.1 hp with hp | hp
            · exact (h1 p hp).1
            · rcases List.mem_cons.1 hp with rfl | hp
              · exact h2
              · exact g2 p hp
          · intro pre mkr' aln' post tid' e ht
            cases pre with
            | nil =>
              cases e
              rw [hm] at ht
              cases ht
              simpa [made] using h4
            | cons x pre =>
              injection e with e1 e2
              subst e1
              rw [hmade, assoc]
              exact g4 pre mkr' aln' post tid' e2 ht
        · rintro ⟨h1, h2, h3, h4⟩
          have hn : ((B ++ phraseMade o tid ++ [(tid, (tokens aln).length)]).map Prod.fst).Nodup := by
            rw [List.map_append, List.nodup_append] at h3
            exact h3.1
          obtain ⟨n1, n2⟩ := hnd.2 hn
          refine ⟨fun p hp => ⟨h2 p (by simp [hp]), n1 p hp⟩, h2 (tid, (tokens aln).length) (by simp), n2, ?_, (ih _ hn).2 ⟨?_, ?_, h3, ?_⟩⟩
          · simpa [made] using h4 [] mkr aln fs tid rfl hm
          · exact fun f hf => h1 f (by simp [hf])
          · exact fun p hp => h2 p (by simp [hp])
          · intro pre mkr' aln' post tid' e ht
            have := h4 (.ok (mkr, aln) :: pre) mkr' aln' post tid' (by rw [e]; rfl) ht
            rwa [hmade, assoc] at this

/-! ### C167 -/

/-- **C167**: the tiers of a record can be made exactly if the record fits. -/
theorem C167_tiers (o : Opts) (fs : List (Py Field)) : (∃ ts, makeAllTiers o fs [] [] = .ok ts) ↔ RecordFits o fs := by
  rw [makeAllTiers_ok o fs [] [] [] ⟨rfl, by intro a n; simp [Dict.get?]⟩, fitsFrom_iff o fs [] (by simp)]
  simp only [List.nil_append]
  exact ⟨fun h => ⟨h.1, h.2.1, h.2.2.1, h.2.2.2⟩, fun h => ⟨h.1, h.2, h.3, h.4⟩⟩

/-- **C167**: a record with a key is imported exactly if the identifier made of the key begins with a letter of
ASCII and the record fits. -/
theorem C167_record (o : Opts) (key : Str) (data ctx : List (Str × Option Str)) (fs : List (Py Field)) :
    (∃ x, makeIgt o key data ctx fs = .ok (some x)) ↔ (∃ i, IsIgtId key i ∧ Lettered i) ∧ RecordFits o fs := by
  rw [← C167_tiers]
  constructor
  · rintro ⟨x, h⟩
    obtain ⟨i, ts, hi, ha, hts, _⟩ := makeIgt_inv h
    refine ⟨⟨i, ?_, lettered_iff.1 ha⟩, ts, hts⟩
    cases key with
    | nil => cases hi
    | cons c cs =>
      simp only [igtId, Except.ok.injEq] at hi
      refine ⟨c, cs, rfl, ?_⟩
      cases hc : Lex.isAlpha c with
      | true => left; rw [hc] at hi; exact ⟨rfl, hi.symm⟩
      | false => right; rw [hc] at hi; exact ⟨rfl, hi.symm⟩
  · rintro ⟨⟨i, ⟨c, cs, rfl, hi⟩, hl⟩, ts, hts⟩
    have : igtId (c :: cs) = .ok i := by
      rcases hi with ⟨hc, rfl⟩ | ⟨hc, rfl⟩
      · simp [igtId, hc]
      · simp [igtId, hc]
    refine ⟨.mk { cls := .igt, id := some i, attrs := igtAttrs o (data ++ ctx) } [] ts, ?_⟩
    · simp [makeIgt, this, lettered_iff.2 hl, hts, bind, Except.bind]

/-- **C167**: records are imported one by one: files after each other give their igts after each other, and an
exception for either is one for both. -/
theorem C167_append (o : Opts) (k : Str) (rs ss : List Record) : toolboxIgts o k (rs ++ ss) = (do
    let xs ← toolboxIgts o k rs
    let ys ← toolboxIgts o k ss
    .ok (xs ++ ys)) := by
  induction rs with
  | nil =>
    simp only [List.nil_append, toolboxIgts, bind, Except.bind]
    cases toolboxIgts o k ss <;> rfl
  | cons r rs ih =>
    simp only [List.cons_append, toolboxIgts]
    split
    · rw [ih]
      simp only [bind, Except.bind]
      cases makeIgt o _ r.data r.context r.fields with
      | error e => rfl
      | ok x =>
        simp only
        cases toolboxIgts o k rs with
        | error e => rfl
        | ok xs =>
          simp only
          cases toolboxIgts o k ss with
          | error e => rfl
          | ok ys => simp
    · exact ih

/-- the records that have a key, with it -/
def keyed (k : Str) (rs : List Record) : List (Str × Record) :=
  rs.filterMap fun r => match Dict.get? r.context k with
    | some (some key) => some (key, r)
    | _ => none

/-- **C167**: if every record with a key fits and its key makes an identifier, importing finishes, with one igt for
each record with a key, in order. -/
theorem C167_all (o : Opts) (k : Str) (rs : List Record)
    (h : ∀ p ∈ keyed k rs, (∃ i, IsIgtId p.1 i ∧ Lettered i) ∧ RecordFits o p.2.fields) :
    ∃ xs, toolboxIgts o k rs = .ok xs ∧ All2 (fun p x => IsIgt o p.1 p.2 x) (keyed k rs) xs := by
  induction rs with
  | nil => exact ⟨[], rfl, .nil⟩
  | cons r rs ih =>
    cases hk : Dict.get? r.context k with
    | none =>
      have e : keyed k (r :: rs) = keyed k rs := by simp [keyed, hk]
      rw [e] at h ⊢
      simp only [toolboxIgts, hk]
      exact ih h
    | some key =>
      cases key with
      | none =>
        have e : keyed k (r :: rs) = keyed k rs := by simp [keyed, hk]
        rw [e] at h ⊢
        simp only [toolboxIgts, hk]
        exact ih h
      | some key =>
        have e : keyed k (r :: rs) = (key, r) :: keyed k rs := by simp [keyed, hk]
        rw [e] at h ⊢
        obtain ⟨xs, hxs, hall⟩ := ih fun p hp => h p (by simp [hp])
        obtain ⟨x, hx⟩ := (C167_record o key r.data r.context r.fields).2 (h (key, r) (by simp))
        refine ⟨x :: xs, by simp [toolboxIgts, hk, hx, hxs, bind, Except.bind], .cons ?_ hall⟩
        have hone : toolboxIgts o k [r] = .ok [x] := by simp [toolboxIgts, hk, hx, bind, Except.bind]
        have := C92_igts o k [r] [x] hone
        cases this with
        | header _ hh => cases hh
        | unusable _ _ hh => cases hh
        | igt hk' hi _ =>
          rw [hk] at hk'
          cases hk'
          exact hi

/-- **C167**: if there is a record with a key that does not fit, or has a key that makes no identifier, and is not one
Toolbox could not align or without anything its tokens could be aligned with, nothing at all is imported: there is an exception. -/
theorem C167_stops (o : Opts) (k : Str) (rs : List Record) (p : Str × Record) (hp : p ∈ keyed k rs)
    (h : ¬ ((∃ i, IsIgtId p.1 i ∧ Lettered i) ∧ RecordFits o p.2.fields)) (hu : ¬ Unusable o p.2.fields) :
    ∃ e, toolboxIgts o k rs = .error e := by
  obtain ⟨r, hr, hk⟩ := List.mem_filterMap.1 hp
  obtain ⟨pre, post, rfl⟩ := List.append_of_mem hr
  cases hk' : Dict.get? r.context k with
  | none => rw [hk'] at hk; cases hk
  | some key =>
    cases key with
    | none => rw [hk'] at hk; cases hk
    | some key =>
      rw [hk'] at hk
      cases hk
      rw [C167_append]
      cases toolboxIgts o k pre with
      | error e => exact ⟨e, rfl⟩
      | ok xs =>
        have hm : ∃ e, makeIgt o key r.data r.context r.fields = .error e := by
          cases hx : makeIgt o key r.data r.context r.fields with
          | error e => exact ⟨e, rfl⟩
          | ok x =>
            cases x with
            | none => exact (hu (C92_dropped o key _ _ _ hx)).elim
            | some x => exact (h ((C167_record o key _ _ _).1 ⟨x, hx⟩)).elim
        obtain ⟨e, he⟩ := hm
        exact ⟨e, by simp [toolboxIgts, hk', he, bind, Except.bind]⟩

end

/-! ### Examples -/
section
attribute [local instance] asciiUni asciiLex

/-- the example of `ToolboxIgt` fits -/
example : RecordFits defaults exFields := (C167_tiers _ _).1 ⟨_, rfl⟩

/-- a record with two free translations -/
def twoFree : Record where
  context := [(lit! "\\ref", some (lit! "1"))]
  data := []
  fields := [.ok (lit! "\\f", [(none, some [lit! "Hunde bellen"])]), .ok (lit! "\\f", [(none, some [lit! "Dogs bark"])])]

/-- a record with a word that has no morphemes at the end of its line -/
def shortLine : Record where
  context := [(lit! "\\ref", some (lit! "1"))]
  data := []
  fields := [.ok (lit! "\\t", [(some (lit! "dogs bark"), some [lit! "dogs", lit! "bark"])]),
    .ok (lit! "\\m", [(some (lit! "dogs"), some [lit! "dog", lit! "-s"])])]

/-- a good record -/
def goodRecord : Record where
  context := [(lit! "\\ref", some (lit! "2"))]
  data := []
  fields := exFields

example : ∃ xs, toolboxIgts defaults (lit! "\\ref") [goodRecord] = .ok xs ∧ xs.length = 1 := ⟨_, rfl, rfl⟩

/-- a record that Toolbox cannot align is left out and the other is imported -/
example : ∃ xs, toolboxIgts defaults (lit! "\\ref") [{ twoFree with fields := [.error .xigtImportError] }, goodRecord] = .ok xs ∧
    xs.length = 1 := ⟨_, rfl, rfl⟩

/-- C167 refuted: that a record that cannot be imported is left out is not so of every such record: with a marker twice
in one record nothing of the file is imported, though the other record alone is. -/
theorem C167_refuted_twice : (∃ x, toolboxIgts defaults (lit! "\\ref") [goodRecord] = .ok [x]) ∧
    toolboxIgts defaults (lit! "\\ref") [twoFree, goodRecord] = .error .xigtError ∧
    toolboxIgts defaults (lit! "\\ref") [goodRecord, twoFree] = .error .xigtError := ⟨⟨_, rfl⟩, rfl, rfl⟩

/-- C167 refuted: nor with a line of morphemes that has fewer cells than the line of words has words. -/
theorem C167_refuted_short : (∃ x, toolboxIgts defaults (lit! "\\ref") [goodRecord] = .ok [x]) ∧
    toolboxIgts defaults (lit! "\\ref") [shortLine, goodRecord] = .error .typeError ∧
    toolboxIgts defaults (lit! "\\ref") [goodRecord, shortLine] = .error .typeError := ⟨⟨_, rfl⟩, rfl, rfl⟩

end
end Xigt.Tbx
