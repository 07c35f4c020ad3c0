import Verif.Container.Lemmas
/-
Properties C01-C08: containers (XigtContainerMixin).
All theorems: for every heap of objects, every number of containers, every equality of the other
data (`beq`), every history.
-/

set_option linter.unusedSectionVars false

namespace Xigt
section
variable {β : Type} [Uni]

/-! ### C01, C02: index and contents -/

/-- C01 (with the two exceptions named in `Benign`): after any history on any containers, a lookup
by ID is a search of the contents. -/
theorem C01_partial (beq : β → β → Bool) (w : World β) (h0 : Fresh w) (hist : List (Nat × Op β))
    (hb : BenignHist beq w hist) (k : Nat) :
    Exact (runHist beq w hist) k ∧
    ∀ a i, a ∈ ((runHist beq w hist).cont k).list → ((runHist beq w hist).obj a).id = some i →
      getItem (runHist beq w hist) k (.str i) = .ok (.one a) := by
  have hs := sync_hist beq hist w hb (sync_fresh h0) k
  refine ⟨exact_of_sync hs, fun a i ha hi => ?_⟩
  simp only [getItem, (hs.map i a).2 ⟨ha, hi⟩]

/-- C02 (same exceptions): no two contained objects share an ID. -/
theorem C02_partial (beq : β → β → Bool) (w : World β) (h0 : Fresh w) (hist : List (Nat × Op β))
    (hb : BenignHist beq w hist) (k : Nat) : Distinct (runHist beq w hist) k :=
  (sync_hist beq hist w hb (sync_fresh h0) k).nodup

/-- C02: adding an object whose ID is taken raises XigtError (in states reached by such histories);
adding any other object of the right class succeeds. -/
theorem C02_duplicate_rejected (beq : β → β → Bool) (w : World β) (h0 : Fresh w)
    (hist : List (Nat × Op β)) (hb : BenignHist beq w hist) (k a : Nat) (i : Int)
    (hcls : ((runHist beq w hist).obj a).cls = ((runHist beq w hist).cont k).contained) :
    let w' := runHist beq w hist
    ((∃ b ∈ (w'.cont k).list, (w'.obj b).id = (w'.obj a).id ∧ (w'.obj a).id ≠ none) →
      (append w' k a).2 = .error .xigtError ∧ (insert w' k i a).2 = .error .xigtError) ∧
    ((∀ b ∈ (w'.cont k).list, (w'.obj b).id ≠ (w'.obj a).id ∨ (w'.obj a).id = none) →
      (append w' k a).2 = .ok () ∧ ((append w' k a).1.cont k).list = (w'.cont k).list ++ [a] ∧
      (insert w' k i a).2 = .ok () ∧
        ((insert w' k i a).1.cont k).list = pyInsert (w'.cont k).list i a) := by
  intro w'
  have hs : SyncW w' k := sync_hist beq hist w hb (sync_fresh h0) k
  constructor
  · rintro ⟨b, hb, he, hne⟩
    obtain ⟨j, hj⟩ := Option.ne_none_iff_exists'.1 hne
    have hg : Dict.get? (w'.cont k).dict j = some b := (hs.map j b).2 ⟨hb, by rw [he, hj]⟩
    have key : ∀ f, (addWith f w' k a).2 = .error .xigtError := by
      intro f
      rcases addWith_cases f w' k a with ⟨h, _⟩ | ⟨_, _, e⟩ | ⟨_, h, _⟩ | ⟨_, j', h1, h2, _⟩
      · exact absurd hcls h
      · rw [e]
      · rw [hj] at h; cases h
      · rw [hj] at h1; cases h1; rw [hg] at h2; cases h2
    exact ⟨key (· ++ [a]), key (pyInsert · i a)⟩
  · intro hall
    have key : ∀ f, (addWith f w' k a).2 = .ok () ∧
        ((addWith f w' k a).1.cont k).list = f (w'.cont k).list := by
      intro f
      rcases addWith_cases f w' k a with ⟨h, _⟩ | ⟨_, ⟨j, b, h1, h2⟩, _⟩ | ⟨_, h, e⟩ | ⟨_, j', h1, h2, e⟩
      · exact absurd hcls h
      · obtain ⟨hb, he⟩ := (hs.map j b).1 h2
        rcases hall b hb with h | h
        · rw [h1, he] at h; exact absurd rfl h
        · rw [h1] at h; cases h
      · rw [e]; simp
      · rw [e]; simp
    exact ⟨(key (· ++ [a])).1, (key (· ++ [a])).2, (key (pyInsert · i a)).1, (key (pyInsert · i a)).2⟩

/-! ### C03: failing calls -/

/-- C03 for append and insert: in any state, a raising call changes nothing visible. -/
theorem C03_append_insert (w : World β) (k a : Nat) (i : Int) :
    ((append w k a).2 ≠ .ok () → ∀ k', SameView w (append w k a).1 k') ∧
    ((insert w k i a).2 ≠ .ok () → ∀ k', SameView w (insert w k i a).1 k') := by
  have key : ∀ f, (addWith f w k a).2 ≠ .ok () → ∀ k', SameView w (addWith f w k a).1 k' := by
    intro f h k'
    rcases addWith_cases f w k a with ⟨_, e⟩ | ⟨_, _, e⟩ | ⟨_, _, e⟩ | ⟨_, _, _, _, e⟩
    · rw [e]; exact ⟨rfl, fun _ => rfl⟩
    · rw [e]
      refine ⟨rfl, fun key => ?_⟩
      cases key <;> simp [getItem]
    · rw [e] at h; exact absurd rfl h
    · rw [e] at h; exact absurd rfl h
  exact ⟨key (· ++ [a]), key (pyInsert · i a)⟩

/-- C03 for extend: a raising call added exactly the objects before the offending one. -/
theorem C03_extend (w : World β) (k : Nat) (as : List Nat) (e : PyErr)
    (he : (extend w k as).2 = .error e) :
    ∃ pre a post w₁, as = pre ++ a :: post ∧ extend w k pre = (w₁, .ok ()) ∧
      (append w₁ k a).2 = .error e ∧ (w₁.cont k).list = (w.cont k).list ++ pre ∧
      ∀ k', SameView w₁ (extend w k as).1 k' := by
  induction as generalizing w with
  | nil => simp [extend] at he
  | cons a as ih =>
    rw [extend] at he ⊢
    match hq : append w k a with
    | (w', .error e') =>
      rw [hq] at he
      simp only at he ⊢
      refine ⟨[], a, as, w, rfl, rfl, by rw [hq]; exact he, by simp, fun k' => ?_⟩
      have := (C03_append_insert w k a 0).1 (by rw [hq]; simp) k'
      rw [hq] at this; exact this
    | (w', .ok ()) =>
      rw [hq] at he
      simp only at he ⊢
      obtain ⟨pre, b, post, w₁, h1, h2, h3, h4, h5⟩ := ih w' he
      refine ⟨a :: pre, b, post, w₁, by rw [h1]; rfl, by rw [extend, hq]; exact h2, h3, ?_, h5⟩
      rw [h4]
      have : (w'.cont k).list = (w.cont k).list ++ [a] := by
        rcases addWith_cases (· ++ [a]) w k a with ⟨_, e⟩ | ⟨_, _, e⟩ | ⟨_, _, e⟩ | ⟨_, _, _, _, e⟩ <;>
          rw [← append_eq, hq] at e <;> cases e
        · simp
        · simp
      rw [this]; simp

/-- C03 for del: in every state reached by a benign history a raising `del` changes nothing. -/
theorem C03_del (beq : β → β → Bool) (w : World β) (h0 : Fresh w) (hist : List (Nat × Op β))
    (hb : BenignHist beq w hist) (k : Nat) (key : Key)
    (he : (delItem beq (runHist beq w hist) k key).2 ≠ .ok ()) :
    (delItem beq (runHist beq w hist) k key).1 = runHist beq w hist := by
  have hs := sync_hist beq hist w hb (sync_fresh h0) k
  unfold delItem at he ⊢
  match hg : getItem (runHist beq w hist) k key with
  | .error e => rfl
  | .ok (.many _) => rfl
  | .ok (.one a) =>
    rw [hg] at he
    exact absurd (remove_mem_ok hs (getItem_one_mem hs hg)) he

/-- C03 for remove and item assignment, what holds: nothing changes if `remove` raises KeyError, or
ValueError for an object without ID, or if item assignment raises anything but the duplicate-ID
error. -/
theorem C03_partial (beq : β → β → Bool) (w : World β) (k a : Nat) (key : Key) :
    ((remove beq w k a).2 ≠ .ok () → (w.obj a).id = none ∨ (remove beq w k a).2 = .error .keyError →
      (remove beq w k a).1 = w) ∧
    ((setItem w k key a).2 ≠ .ok () → (setItem w k key a).2 ≠ .error .xigtError →
      (setItem w k key a).1 = w) := by
  constructor
  · intro he hc
    unfold remove at he hc ⊢
    rcases dropMapping_cases w k a with ⟨hn, e⟩ | ⟨i, b, hi, hg, e⟩ | ⟨i, _, _, e⟩ <;>
      rw [e] at he hc ⊢ <;> simp only at he hc ⊢
    · rcases removeFirst_spec (p := fun x => w.eqv beq x a) (l := (w.cont k).list) with
        ⟨e, _⟩ | ⟨l₁, x, l₂, hl, hx, _, e⟩ <;> rw [e] at he ⊢
      exact absurd rfl he
    · simp only [eqv_setDict, setDict_list] at he hc
      rcases removeFirst_spec (p := fun x => w.eqv beq x a) (l := (w.cont k).list) with
        ⟨e, _⟩ | ⟨l₁, x, l₂, hl, hx, _, e⟩ <;> rw [e] at he hc
      · simp [hi] at hc
      · exact absurd rfl he
  · intro he hc
    rcases setItem_cases w k key a with ⟨e, h, _⟩ | ⟨i, n, cur, _, _, _, _, w₁, hd, h | h⟩
    · rw [h]
    · exact absurd h.1 hc
    · rw [h.1] at he; exact absurd rfl he

/-! ### C04: parents -/

/-- C04 (without item assignment): if each object is only ever put (or tried to be put) into one
container, every contained object has that container as its parent. -/
theorem C04_partial (beq : β → β → Bool) (home : Nat → Nat) (w : World β) (h0 : Fresh w)
    (hist : List (Nat × Op β))
    (hone : ∀ p ∈ hist, (∀ a ∈ p.2.puts, home a = p.1) ∧ p.2.isSetItem = false)
    (k a : Nat) (ha : a ∈ ((runHist beq w hist).cont k).list) :
    ((runHist beq w hist).obj a).parent = some ((runHist beq w hist).cont k).owner := by
  -- invariant
  have inv : ∀ (hist : List (Nat × Op β)) (w : World β),
      (∀ k a, a ∈ (w.cont k).list → home a = k ∧ (w.obj a).parent = some (w.cont k).owner) →
      (∀ p ∈ hist, (∀ a ∈ p.2.puts, home a = p.1) ∧ p.2.isSetItem = false) →
      ∀ k a, a ∈ ((runHist beq w hist).cont k).list →
        home a = k ∧ ((runHist beq w hist).obj a).parent = some ((runHist beq w hist).cont k).owner := by
    intro hist
    induction hist with
    | nil => intro w h _; exact h
    | cons p hist ih =>
      intro w h hone
      obtain ⟨k, op⟩ := p
      refine ih _ ?_ (fun q hq => hone q (by simp [hq]))
      have hp := hone (k, op) (by simp)
      simp only at hp
      clear ih hone hist
      have hr := rel_step beq w k op
      -- lists only shrink or get elements of `puts`; parents only change for `puts`
      have setpar : ∀ (w : World β) b, (∀ k a, a ∈ (w.cont k).list → home a = k ∧
          (w.obj a).parent = some (w.cont k).owner) → home b = k →
          ∀ k' a, a ∈ ((setParent w k b).cont k').list → home a = k' ∧
            ((setParent w k b).obj a).parent = some ((setParent w k b).cont k').owner := by
        intro w b h hb k' a ha
        obtain ⟨g1, g2⟩ := h k' a (by simpa using ha)
        refine ⟨g1, ?_⟩
        simp only [setParent, World.setObj]
        by_cases hab : a = b
        · subst hab
          have : k' = k := g1.symm.trans hb
          subst this; simp
        · rw [if_neg hab]; exact g2
      have add : ∀ (f : List Nat → List Nat) (w : World β) b, (∀ l, (f l).Perm (b :: l)) →
          (∀ k a, a ∈ (w.cont k).list → home a = k ∧ (w.obj a).parent = some (w.cont k).owner) →
          home b = k → ∀ k' a, a ∈ ((addWith f w k b).1.cont k').list → home a = k' ∧
            ((addWith f w k b).1.obj a).parent = some ((addWith f w k b).1.cont k').owner := by
        intro f w b hf h hb
        have hsp := setpar w b h hb
        have hpb : ((setParent w k b).obj b).parent = some (w.cont k).owner := by
          simp [setParent, World.setObj]
        have fin : ∀ w' : World β, w'.obj = (setParent w k b).obj → Rel (setParent w k b) w' k →
            (w'.cont k).list = f (w.cont k).list →
            ∀ k' a, a ∈ (w'.cont k').list → home a = k' ∧
              (w'.obj a).parent = some (w'.cont k').owner := by
          intro w' ho hr hl k' a ha
          rw [ho]
          by_cases hk : k' = k
          · subst hk
            rw [hl, (hf _).mem_iff] at ha
            rw [hr.owner]
            rcases List.mem_cons.1 ha with rfl | ha
            · exact ⟨hb, hpb⟩
            · exact hsp k' a (by simpa using ha)
          · rw [hr.others k' hk] at ha ⊢
            exact hsp k' a ha
        rcases addWith_cases f w k b with ⟨_, e⟩ | ⟨_, _, e⟩ | ⟨_, _, e⟩ | ⟨_, _, _, _, e⟩
        · rw [e]; exact h
        · rw [e]; exact hsp
        · rw [e]; exact fin _ rfl (rel_setList _ _ _) (by simp)
        · rw [e]; exact fin _ rfl ((rel_setDict _ _ _).trans (rel_setList _ _ _)) (by simp)
      have shrink : ∀ w' : World β, w'.obj = w.obj → Rel w w' k →
          (∀ a ∈ (w'.cont k).list, a ∈ (w.cont k).list) →
          ∀ k' a, a ∈ (w'.cont k').list → home a = k' ∧
            (w'.obj a).parent = some (w'.cont k').owner := by
        intro w' ho hr hl k' a ha
        rw [ho]
        by_cases hk : k' = k
        · subst hk
          rw [hr.owner]
          exact h k' a (hl a ha)
        · rw [hr.others k' hk] at ha ⊢
          exact h k' a ha
      have rem : ∀ b, ∀ k' a, a ∈ ((remove beq w k b).1.cont k').list → home a = k' ∧
            ((remove beq w k b).1.obj a).parent = some ((remove beq w k b).1.cont k').owner := by
        intro b
        refine shrink _ ?_ (rel_remove beq w k b) ?_
        · unfold remove
          rcases dropMapping_cases w k b with ⟨hn, e⟩ | ⟨i, c, hi, hg, e⟩ | ⟨i, _, _, e⟩ <;> rw [e] <;>
            simp only <;> first | rfl | (split <;> rfl)
        · unfold remove
          have sub : ∀ (p : Nat → Bool) l, removeFirst p (w.cont k).list = some l →
              ∀ a ∈ l, a ∈ (w.cont k).list := by
            intro p l hl a ha
            rcases removeFirst_spec (p := p) (l := (w.cont k).list) with
              ⟨e, _⟩ | ⟨l₁, x, l₂, hl', hx, _, e⟩ <;> rw [e] at hl <;> cases hl
            rw [hl']; simp only [List.mem_append, List.mem_cons] at ha ⊢; grind
          rcases dropMapping_cases w k b with ⟨hn, e⟩ | ⟨i, c, hi, hg, e⟩ | ⟨i, _, _, e⟩ <;> rw [e] <;>
            simp only
          · split
            · exact fun a ha => ha
            · rename_i l hl; intro a ha; exact sub _ l hl a (by simpa using ha)
          · split
            · intro a ha; simpa using ha
            · rename_i l hl; intro a ha
              exact sub _ l (by simpa using hl) a (by simpa using ha)
          · exact fun a ha => ha
      cases op with
      | append b => exact add _ w b (append_perm b) h (hp.1 b (by simp [Op.puts]))
      | insert i b => exact add _ w b (fun l => pyInsert_perm l i b) h (hp.1 b (by simp [Op.puts]))
      | extend as =>
        have hb : ∀ b ∈ as, home b = k := fun b hb => hp.1 b (by simpa [Op.puts] using hb)
        clear hp hr shrink rem
        simp only [step]
        induction as generalizing w with
        | nil => exact h
        | cons b as ih =>
          have h1 := add _ w b (append_perm b) h (hb b (by simp))
          rw [extend]
          rw [← append_eq] at h1
          match hq : append w k b with
          | (w', .error e) => rw [hq] at h1; exact h1
          | (w', .ok ()) =>
            rw [hq] at h1
            exact ih w' h1 (fun c hc => hb c (by simp [hc]))
      | remove b => exact rem b
      | delItem key =>
        simp only [step, delItem]
        match getItem w k key with
        | .error e => exact h
        | .ok (.many _) => exact h
        | .ok (.one a) => exact rem a
      | setItem key b => simp [Op.isSetItem] at hp
      | clear => exact shrink _ rfl hr (by simp [step, clear])
      | refreshIndex =>
        obtain ⟨g1, g2, g3, _⟩ := refreshIndex_spec w k
        exact shrink _ g2 g1 (by intro a ha; simpa [step, g3] using ha)
      | sort key =>
        refine shrink _ rfl hr ?_
        intro a ha
        simpa [step, sortList, (sortBy_perm _ _).mem_iff] using ha
      | setBody b x =>
        intro k' a ha
        obtain ⟨g1, g2⟩ := h k' a ha
        refine ⟨g1, ?_⟩
        simp only [step, World.setObj]
        split
        · rename_i e; subst e; exact g2
        · exact g2
  refine (inv hist w ?_ hone k a ha).2
  intro k a ha
  rw [(h0 k).1] at ha; cases ha

/-! ### C05: subscripts -/

/-- C05: ints follow list indexing; a string that is no contained ID is positional if it is a
numeral and a KeyError otherwise; an ID is never a position; `get` gives the default exactly when
the subscription raises KeyError or IndexError (and nothing else can be raised). -/
theorem C05_indexing (w : World β) (k : Nat) (dflt : Option Got) :
    (∀ (n a : Nat), (w.cont k).list[n]? = some a → getItem w k (.int n) = .ok (.one a) ∧
      getItem w k (.int (n - (w.cont k).list.length)) = .ok (.one a)) ∧
    (∀ i : Int, i < -((w.cont k).list.length : Int) ∨ ((w.cont k).list.length : Int) ≤ i →
      getItem w k (.int i) = .error .indexError) ∧
    (∀ s i, Dict.get? (w.cont k).dict s = none → pyInt s = .ok i →
      getItem w k (.str s) = getItem w k (.int i)) ∧
    (∀ s e, Dict.get? (w.cont k).dict s = none → pyInt s = .error e →
      getItem w k (.str s) = .error .keyError) ∧
    (∀ s, idAccepted s = true → Dict.get? (w.cont k).dict s = none →
      getItem w k (.str s) = .error .keyError) ∧
    (∀ key, (∀ g, getItem w k key = .ok g → getDef w k key dflt = .ok (some g)) ∧
      ((∃ e, getItem w k key = .error e) → getDef w k key dflt = .ok dflt)) := by
  refine ⟨?_, ?_, ?_, ?_, ?_, ?_⟩
  · intro n a h
    have hn := (List.getElem?_eq_some_iff.1 h).1
    constructor
    · simp only [getItem, pyGet, pyIdx]
      rw [if_pos (by omega), if_pos (by omega)]
      simp [h, Except.map]
    · simp only [getItem, pyGet, pyIdx]
      rw [if_neg (by omega), if_pos (by omega)]
      have : ((n : Int) - (w.cont k).list.length + (w.cont k).list.length).toNat = n := by omega
      simp [this, h, Except.map]
  · intro i h
    have : pyIdx (w.cont k).list.length i = none := by
      unfold pyIdx
      split
      · rw [if_neg (by omega)]
      · rw [if_neg (by omega)]
    simp only [getItem, pyGet, this]; rfl
  · intro s i hd hi
    simp only [getItem, hd, hi]
  · intro s e hd hi
    simp only [getItem, hd, hi]
  · intro s hs hd
    simp only [getItem, hd, pyInt_letter hs]
  · intro key
    refine ⟨fun g hg => by simp [getDef, hg], ?_⟩
    rintro ⟨e, he⟩
    have hpg : ∀ i e, (pyGet (w.cont k).list i).map Got.one = .error e → e = .indexError := by
      intro i e h
      unfold pyGet at h
      repeat' split at h
      all_goals simp [Except.map] at h
      all_goals exact h.symm
    have : e = .keyError ∨ e = .indexError := by
      cases key with
      | int i => exact Or.inr (hpg i e he)
      | slice a b => simp [getItem] at he
      | str s =>
        simp only [getItem] at he
        split at he
        · cases he
        · split at he
          · exact Or.inr (hpg _ e he)
          · cases he; exact Or.inl rfl
    simp [getDef, he, this]

/-! ### C06: refresh_index -/

/-- C06: on an arbitrary state (any list, any stale index) `refresh_index` raises XigtError exactly
when two contained objects share an ID, and otherwise makes lookups exact; the contents stay. -/
theorem C06_refresh (w : World β) (k : Nat) :
    ((refreshIndex w k).2 = .error .xigtError ↔ ¬ Distinct w k) ∧
    ((refreshIndex w k).2 = .ok () ↔ Distinct w k) ∧
    ((refreshIndex w k).1.cont k).list = (w.cont k).list ∧ (refreshIndex w k).1.obj = w.obj ∧
    (Distinct w k → Exact (refreshIndex w k).1 k ∧
      ∀ a i, a ∈ (w.cont k).list → (w.obj a).id = some i →
        getItem (refreshIndex w k).1 k (.str i) = .ok (.one a)) := by
  obtain ⟨_, g2, g3, g4⟩ := refreshIndex_spec w k
  rcases g4 with ⟨h1, h2, h3⟩ | ⟨h1, h3⟩
  · refine ⟨by simp [h1, h3], by simp [h1, h3], g3, g2, fun _ => ⟨exact_of_sync h2, ?_⟩⟩
    intro a i ha hi
    simp only [getItem, (h2.map i a).2 ⟨by rw [g3]; exact ha, by rw [g2]; exact hi⟩]
  · refine ⟨by simp [h1, h3], by simp [h1, h3], g3, g2, fun h => absurd h h3⟩

/-! ### C07: del -/

/-- C07 (partial: unless an earlier element is equal to the addressed one): `del c[k]` removes
exactly the addressed position.  In particular always when the element has an ID. -/
theorem C07_partial (beq : β → β → Bool) (w : World β) (h0 : Fresh w) (hist : List (Nat × Op β))
    (hb : BenignHist beq w hist) (k : Nat) (key : Key) (n a : Nat) :
    let w' := runHist beq w hist
    getItem w' k key = .ok (.one a) → (w'.cont k).list[n]? = some a →
    (∀ m b, m < n → (w'.cont k).list[m]? = some b → w'.eqv beq b a = false) ∨ (w'.obj a).id ≠ none →
    (delItem beq w' k key).2 = .ok () ∧
      ((delItem beq w' k key).1.cont k).list = (w'.cont k).list.eraseIdx n := by
  intro w' hg hn hcond
  have hs : SyncW w' k := sync_hist beq hist w hb (sync_fresh h0) k
  have ha := getItem_one_mem hs hg
  refine ⟨by simp only [delItem, hg]; exact remove_mem_ok hs ha, ?_⟩
  -- no earlier equal element
  have hno : ∀ m b, m < n → (w'.cont k).list[m]? = some b → w'.eqv beq b a = false := by
    rcases hcond with h | h
    · exact h
    · intro m b hm hbm
      cases he : w'.eqv beq b a with
      | false => rfl
      | true =>
        exfalso
        obtain ⟨i, hi⟩ := Option.ne_none_iff_exists'.1 h
        have hbi : (w'.obj b).id = some i := by rw [eqv_id he, hi]
        have hnd := hs.nodup
        obtain ⟨l₁, l₂, hl, _, hlen⟩ := set_split (y := a) hn
        rw [hl] at hnd hbm
        rw [List.getElem?_append_left (by omega)] at hbm
        have hbl := List.mem_of_getElem? hbm
        rw [List.filterMap_append, List.nodup_append] at hnd
        exact hnd.2.2 i (List.mem_filterMap.2 ⟨b, hbl, hbi⟩) i (by simp [List.filterMap_cons, hi]) rfl
  obtain ⟨l₁, l₂, hl, hset, hlen⟩ := set_split (y := a) hn
  clear hset
  have hpre : ∀ y ∈ l₁, w'.eqv beq y a = false := by
    intro y hy
    obtain ⟨m, hm⟩ := List.getElem?_of_mem hy
    have hlt : m < l₁.length := by
      have := List.getElem?_eq_some_iff.1 hm; exact this.1
    refine hno m y (by omega) ?_
    rw [hl, List.getElem?_append_left hlt]; exact hm
  have hrf : removeFirst (fun x => w'.eqv beq x a) (w'.cont k).list = some (l₁ ++ l₂) := by
    rw [hl]
    clear hl hn hno hlen
    induction l₁ with
    | nil => simp [removeFirst, World.eqv]
    | cons c cs ih =>
      rw [List.cons_append, removeFirst, hpre c (by simp)]
      simp [ih (fun y hy => hpre y (by simp [hy]))]
  have herase : (w'.cont k).list.eraseIdx n = l₁ ++ l₂ := by
    rw [hl, ← hlen, List.eraseIdx_append_of_length_le (Nat.le_refl _)]
    simp
  rw [herase]
  simp only [delItem, hg, remove]
  rcases dropMapping_cases w' k a with ⟨_, e⟩ | ⟨i, c, hi, hg', e⟩ | ⟨i, hi, hg', e⟩
  · rw [e]; simp only [hrf]; simp
  · rw [e]; simp only [eqv_setDict, setDict_list, hrf]; simp
  · rw [(hs.map i a).2 ⟨ha, hi⟩] at hg'; cases hg'

/-! ### C08: homogeneity -/

/-- C08: after any history at all, every container only contains objects of its class. -/
theorem C08_homogeneous (beq : β → β → Bool) (w : World β) (h0 : Fresh w)
    (hist : List (Nat × Op β)) (k : Nat) : Homogeneous (runHist beq w hist) k := by
  have inv : ∀ (hist : List (Nat × Op β)) (w : World β), (∀ k, Homogeneous w k) →
      ∀ k, Homogeneous (runHist beq w hist) k := by
    intro hist
    induction hist with
    | nil => intro w h; exact h
    | cons p hist ih =>
      intro w h
      obtain ⟨k, op⟩ := p
      refine ih _ ?_
      have hr := rel_step beq w k op
      -- enough: the new list has only old elements and elements of the right class
      have enough : ∀ w' : World β, Rel w w' k → (∀ a ∈ (w'.cont k).list, a ∈ (w.cont k).list ∨
          (w.obj a).cls = (w.cont k).contained) → ∀ k', Homogeneous w' k' := by
        intro w' hr hl k' a ha
        rw [hr.cls]
        by_cases hk : k' = k
        · subst hk
          rw [hr.contained]
          rcases hl a ha with h1 | h1
          · exact h k' a h1
          · exact h1
        · rw [hr.others k' hk] at ha ⊢; exact h k' a ha
      have add : ∀ (f : List Nat → List Nat) (w : World β) b, (∀ l, (f l).Perm (b :: l)) →
          ∀ a ∈ ((addWith f w k b).1.cont k).list, a ∈ (w.cont k).list ∨
            (w.obj a).cls = (w.cont k).contained := by
        intro f w b hf
        rcases addWith_cases f w k b with ⟨_, e⟩ | ⟨_, _, e⟩ | ⟨hc, _, e⟩ | ⟨hc, _, _, _, e⟩ <;>
          rw [e]
        · exact fun a ha => Or.inl ha
        · exact fun a ha => Or.inl ha
        all_goals
          intro a ha
          simp only [setList_list, (hf _).mem_iff] at ha
          rcases List.mem_cons.1 ha with rfl | ha
          · exact Or.inr hc
          · exact Or.inl ha
      have rem : ∀ b, ∀ a ∈ ((remove beq w k b).1.cont k).list, a ∈ (w.cont k).list := by
        intro b
        unfold remove
        have sub : ∀ (p : Nat → Bool) l, removeFirst p (w.cont k).list = some l →
            ∀ a ∈ l, a ∈ (w.cont k).list := by
          intro p l hl a ha
          rcases removeFirst_spec (p := p) (l := (w.cont k).list) with
            ⟨e, _⟩ | ⟨l₁, x, l₂, hl', hx, _, e⟩ <;> rw [e] at hl <;> cases hl
          rw [hl']; simp only [List.mem_append, List.mem_cons] at ha ⊢; grind
        rcases dropMapping_cases w k b with ⟨hn, e⟩ | ⟨i, c, hi, hg, e⟩ | ⟨i, _, _, e⟩ <;> rw [e] <;>
          simp only
        · split
          · exact fun a ha => ha
          · rename_i l hl; intro a ha; exact sub _ l hl a (by simpa using ha)
        · split
          · intro a ha; simpa using ha
          · rename_i l hl; intro a ha
            exact sub _ l (by simpa using hl) a (by simpa using ha)
        · exact fun a ha => ha
      refine enough _ hr ?_
      cases op with
      | append b => exact add _ w b (append_perm b)
      | insert i b => exact add _ w b (fun l => pyInsert_perm l i b)
      | extend as =>
        simp only [step]
        clear enough rem hr h
        induction as generalizing w with
        | nil => exact fun a ha => Or.inl ha
        | cons b as ih =>
          have h1 := add _ w b (append_perm b)
          have hrel := rel_addWith (· ++ [b]) w k b
          rw [extend]
          rw [← append_eq] at h1 hrel
          match hq : append w k b with
          | (w', .error e) => rw [hq] at h1; exact h1
          | (w', .ok ()) =>
            rw [hq] at h1 hrel
            intro a ha
            rcases ih w' a ha with h2 | h2
            · exact h1 a h2
            · rw [hrel.cls, hrel.contained] at h2; exact Or.inr h2
      | remove b => exact fun a ha => Or.inl (rem b a ha)
      | delItem key =>
        simp only [step, delItem]
        match getItem w k key with
        | .error e => exact fun a ha => Or.inl ha
        | .ok (.many _) => exact fun a ha => Or.inl ha
        | .ok (.one a) => exact fun b hb => Or.inl (rem a b hb)
      | setItem key b =>
        simp only [step]
        rcases setItem_cases w k key b with ⟨e, h', _⟩ | ⟨i, n, cur, hc, _, _, hn, w₁, hd, h' | ⟨h', _⟩⟩
        · rw [h']; exact fun a ha => Or.inl ha
        · rw [h'.2]
          intro a ha
          left
          rcases dropMapping_cases w k cur with ⟨hn, e⟩ | ⟨i, b, hi, hg, e⟩ | ⟨i, hi, hg, e⟩ <;>
            rw [e] at hd <;> cases hd
          · exact ha
          · simpa using ha
        · rw [h']
          intro a ha
          simp only [setList_list] at ha
          rcases List.mem_or_eq_of_mem_set ha with ha | rfl
          · exact Or.inl ha
          · exact Or.inr hc
      | clear => intro a ha; simp [step, clear] at ha
      | refreshIndex =>
        intro a ha
        simp only [step, (refreshIndex_spec w k).2.2.1] at ha
        exact Or.inl ha
      | sort key =>
        intro a ha
        simp only [step, sortList, setList_list, (sortBy_perm _ _).mem_iff] at ha
        exact Or.inl ha
      | setBody b x => exact fun a ha => Or.inl ha
  refine inv hist w ?_ k
  intro k a ha
  rw [(h0 k).1] at ha; cases ha

/-- C08: an object of another class is rejected with XigtStructureError and nothing changes. -/
theorem C08_rejected (w : World β) (k a : Nat) (i : Int) (key : Key) (as : List Nat)
    (h : (w.obj a).cls ≠ (w.cont k).contained) :
    append w k a = (w, .error .xigtStructureError) ∧
    insert w k i a = (w, .error .xigtStructureError) ∧
    extend w k (a :: as) = (w, .error .xigtStructureError) ∧
    setItem w k key a = (w, .error .xigtStructureError) := by
  have h1 : assertType w k a = .error .xigtStructureError := by simp [assertType, h]
  have h2 : append w k a = (w, .error .xigtStructureError) := by simp only [append, h1]
  exact ⟨h2, by simp only [insert, h1], by rw [extend, h2], by simp only [setItem, h1]⟩

end

/-! ### Refutations and concrete cases -/

section
attribute [local instance] asciiUni

/-- objects 0-2 are items with IDs `a`, `a` (different data), `b`; 3 and 4 are equal items without
ID; 5 is a tier; containers 0 and 1 are empty tiers (addresses 10 and 11) -/
def exWorld : World Nat where
  obj := fun a =>
    if a = 0 then ⟨.item, some ['a'], none, 0⟩
    else if a = 1 then ⟨.item, some ['a'], none, 1⟩
    else if a = 2 then ⟨.item, some ['b'], none, 2⟩
    else if a = 5 then ⟨.tier, some ['t'], none, 0⟩
    else ⟨.item, none, none, 7⟩
  cont := fun k => ⟨k + 10, .item, [], []⟩

theorem exWorld_fresh : Fresh exWorld := fun _ => ⟨rfl, rfl⟩

/-- C01 as stated fails: removing an item that is not in the container but whose ID is taken by
another raises ValueError and leaves the contained one unreachable by its ID. -/
theorem C01_refuted : ∃ (w : World Nat) (hist : List (Nat × Op Nat)), Fresh w ∧ ValidIds w ∧
    (∀ p ∈ hist, p.2.isSetItem = false) ∧
    ((runHist (· == ·) w hist).cont 0).list = [0] ∧ ((runHist (· == ·) w hist).obj 0).id = some ['a'] ∧
    getItem (runHist (· == ·) w hist) 0 (.str ['a']) = .error .keyError := by
  refine ⟨exWorld, [(0, .append 0), (0, .remove 1)], exWorld_fresh, ?_, by simp [Op.isSetItem],
    by decide +kernel, by decide +kernel, by decide +kernel⟩
  intro a i h
  simp only [exWorld] at h
  repeat' split at h
  all_goals (first | (cases h; decide +kernel) | cases h)

/-- C02 as stated fails in the same way: afterwards an item with the same ID can be added. -/
theorem C02_refuted : ∃ (w : World Nat) (hist : List (Nat × Op Nat)), Fresh w ∧
    (∀ p ∈ hist, p.2.isSetItem = false) ∧ ¬ Distinct (runHist (· == ·) w hist) 0 := by
  refine ⟨exWorld, [(0, .append 0), (0, .remove 1), (0, .append 1)], exWorld_fresh,
    by simp [Op.isSetItem], ?_⟩
  unfold Distinct
  decide +kernel

/-- C03 fails for item assignment: `c[0] = x` with the ID of `x` taken at another position raises
XigtError but the object at position 0 can no longer be found by its ID. -/
theorem C03_refuted_setitem : ∃ (w : World Nat) (hist : List (Nat × Op Nat)) (key : Key) (a : Nat),
    Fresh w ∧ BenignHist (· == ·) w hist ∧
    (setItem (runHist (· == ·) w hist) 0 key a).2 = .error .xigtError ∧
    ¬ SameView (runHist (· == ·) w hist) (setItem (runHist (· == ·) w hist) 0 key a).1 0 := by
  refine ⟨exWorld, [(0, .append 0), (0, .append 2)], .int 1, 1, exWorld_fresh, ⟨trivial, trivial, trivial⟩,
    by decide +kernel, ?_⟩
  intro h
  exact absurd (h.2 (.str ['b'])) (by decide +kernel)

/-- C03 fails for `remove` of an object that is not contained while its ID is. -/
theorem C03_refuted_remove : ∃ (w : World Nat) (hist : List (Nat × Op Nat)) (a : Nat),
    Fresh w ∧ BenignHist (· == ·) w hist ∧
    (remove (· == ·) (runHist (· == ·) w hist) 0 a).2 = .error .valueError ∧
    ¬ SameView (runHist (· == ·) w hist) (remove (· == ·) (runHist (· == ·) w hist) 0 a).1 0 := by
  refine ⟨exWorld, [(0, .append 0)], 1, exWorld_fresh, ⟨trivial, trivial⟩, by decide +kernel, ?_⟩
  intro h
  exact absurd (h.2 (.str ['a'])) (by decide +kernel)

/-- C04 fails for item assignment, which does not set the parent. -/
theorem C04_refuted_setitem : ∃ (w : World Nat) (hist : List (Nat × Op Nat)), Fresh w ∧
    (∀ p ∈ hist, p.1 = 0) ∧ 2 ∈ ((runHist (· == ·) w hist).cont 0).list ∧
    ((runHist (· == ·) w hist).obj 2).parent = none := by
  exact ⟨exWorld, [(0, .append 0), (0, .setItem (.int 0) 2)], exWorld_fresh, by simp,
    by decide +kernel, by decide +kernel⟩

/-- C04 also fails if a rejected attempt counts as not being put: a rejected append to container 1
re-parents an item that stays in container 0. -/
theorem C04_refuted_rejected_append : ∃ (w : World Nat) (hist : List (Nat × Op Nat)), Fresh w ∧
    (append (runHist (· == ·) w hist) 1 1).2 = .error .xigtError ∧
    1 ∈ (((append (runHist (· == ·) w hist) 1 1).1).cont 0).list ∧
    1 ∉ (((append (runHist (· == ·) w hist) 1 1).1).cont 1).list ∧
    (((append (runHist (· == ·) w hist) 1 1).1).obj 1).parent = some 11 := by
  exact ⟨exWorld, [(0, .append 1), (1, .append 0)], exWorld_fresh, by decide +kernel,
    by decide +kernel, by decide +kernel, by decide +kernel⟩

/-- C07 fails for equal items without ID: `del c[2]` removes position 0. -/
theorem C07_refuted : ∃ (w : World Nat) (hist : List (Nat × Op Nat)), Fresh w ∧
    BenignHist (· == ·) w hist ∧ ((runHist (· == ·) w hist).cont 0).list = [3, 2, 4] ∧
    ((delItem (· == ·) (runHist (· == ·) w hist) 0 (.int 2)).1.cont 0).list = [2, 4] := by
  exact ⟨exWorld, [(0, .append 3), (0, .append 2), (0, .append 4)], exWorld_fresh,
    ⟨trivial, trivial, trivial, trivial⟩, by decide +kernel, by decide +kernel⟩

/-- a benign history with failing calls, assignments, removals, and two containers -/
def exHist : List (Nat × Op Nat) :=
  [(0, .append 0), (0, .insert (-1) 3), (0, .append 1), (1, .append 1), (0, .setItem (.int 1) 2),
   (0, .extend [4, 5]), (0, .delItem (.str ['7'])), (0, .remove 3), (0, .sort fun a => -(a : Int)),
   (0, .refreshIndex), (0, .append 0)]

example : BenignHist (· == ·) exWorld exHist := by
  refine ⟨trivial, trivial, trivial, trivial, ?_, trivial, trivial, ?_, trivial, trivial, trivial,
    trivial⟩
  · simp only [Benign]; decide +kernel
  · left; decide +kernel
example : ((runHist (· == ·) exWorld exHist).cont 0).list = [4, 2, 0] := by decide +kernel
example : ((runHist (· == ·) exWorld exHist).cont 1).list = [1] := by decide +kernel
example : getItem (runHist (· == ·) exWorld exHist) 0 (.str ['b']) = .ok (.one 2) := by decide +kernel
example : getItem (runHist (· == ·) exWorld exHist) 0 (.str ['z']) = .error .keyError := by
  decide +kernel
example : getItem (runHist (· == ·) exWorld exHist) 0 (.str ['1']) = .ok (.one 2) := by
  decide +kernel
/-- hypotheses of `C04_partial` are met -/
example : ∀ p ∈ ([(0, .append 0), (0, .insert 0 3), (1, .extend [1, 2])] : List (Nat × Op Nat)),
    (∀ a ∈ p.2.puts, (fun a => if a = 1 ∨ a = 2 then 1 else 0) a = p.1) ∧ p.2.isSetItem = false := by
  simp [Op.puts, Op.isSetItem]

end

end Xigt
