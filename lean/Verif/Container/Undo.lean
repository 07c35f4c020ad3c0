import Verif.Container.Props
/-
C176: adding to a container and removing from it undo each other, /repo/xigt/mixins.py:103-123.  The model is that of Container/Model.lean.
-/

namespace Xigt
section
variable {β : Type} [Uni]

/-- in sync, the same contents give the same answers -/
theorem sameView_of_sync {w w' : World β} {k : Nat} (h : SyncW w k) (h' : SyncW w' k) (hi : ∀ a, (w'.obj a).id = (w.obj a).id)
    (hl : (w'.cont k).list = (w.cont k).list) : SameView w w' k := by
  refine ⟨hl, fun key => ?_⟩
  have hd : ∀ s, Dict.get? (w'.cont k).dict s = Dict.get? (w.cont k).dict s := by
    intro s
    have e : ∀ a, Dict.get? (w'.cont k).dict s = some a ↔ Dict.get? (w.cont k).dict s = some a := by
      intro a
      rw [h.map, h'.map, hl]
      simp only [hi]
    exact Option.ext e
  cases key with
  | int i => simp only [getItem, hl]
  | slice x y => simp only [getItem, hl]
  | str s => simp only [getItem, hl, hd]

theorem sameView_other {w w' : World β} {k : Nat} (h : w'.cont k = w.cont k) : SameView w w' k := by
  refine ⟨by rw [h], fun key => ?_⟩
  cases key <;> simp only [getItem, h]

/-- removing an object that no object before it equals takes out that object -/
theorem remove_list {beq : β → β → Bool} {w : World β} {k a : Nat} (h : SyncW w k) {l₁ l₂ : List Nat} (hl : (w.cont k).list = l₁ ++ a :: l₂)
    (he : ∀ y ∈ l₁, w.eqv beq y a = false) : (remove beq w k a).2 = .ok () ∧ ((remove beq w k a).1.cont k).list = l₁ ++ l₂ := by
  have ha : a ∈ (w.cont k).list := by rw [hl]; simp
  refine ⟨remove_mem_ok h ha, ?_⟩
  have hself : w.eqv beq a a = true := by simp [World.eqv]
  have hrem : removeFirst (fun x => w.eqv beq x a) (w.cont k).list = some (l₁ ++ l₂) := by
    rw [hl]
    clear hl ha
    induction l₁ with
    | nil => simp [removeFirst, hself]
    | cons y l₁ ih =>
      rw [List.cons_append, removeFirst, he y List.mem_cons_self]
      simp [ih (fun z hz => he z (List.mem_cons_of_mem _ hz))]
  unfold remove
  rcases dropMapping_cases w k a with ⟨hn, e⟩ | ⟨i, b, hi, hg, e⟩ | ⟨i, hi, hg, e⟩ <;> rw [e] <;> simp only
  · rw [hrem]; simp
  · simp only [eqv_setDict, setDict_list]
    rw [hrem]; simp
  · rw [(h.map i a).2 ⟨ha, hi⟩] at hg; cases hg

omit [Uni] in
/-- in sync, an object with an ID equals no object before it -/
theorem before_differs {beq : β → β → Bool} {w : World β} {k a : Nat} (h : SyncW w k) {l₁ l₂ : List Nat} (hl : (w.cont k).list = l₁ ++ a :: l₂)
    {i : Str} (hi : (w.obj a).id = some i) : ∀ y ∈ l₁, w.eqv beq y a = false := by
  intro y hy
  cases hq : w.eqv beq y a with
  | false => rfl
  | true =>
    have hyi : (w.obj y).id = some i := by rw [eqv_id hq, hi]
    have hn := h.nodup
    rw [hl, List.filterMap_append, List.nodup_append] at hn
    exact absurd rfl (hn.2.2 i (List.mem_filterMap.2 ⟨y, hy, hyi⟩) i (List.mem_filterMap.2 ⟨a, by simp, hi⟩))

omit [Uni] in
theorem pyInsert_nat {l₁ l₂ : List Nat} (a : Nat) : pyInsert (l₁ ++ l₂) (l₁.length : Int) a = l₁ ++ a :: l₂ := by
  have hc : clip (l₁ ++ l₂).length (l₁.length : Int) = l₁.length := by
    unfold clip
    rw [if_neg (by omega)]
    simp
  simp only [pyInsert, hc]
  simp

/-- C176, removing what was added: after any history (with the exceptions of `Benign`), if an object is appended, or inserted anywhere, and no object
in the container equals it (as when it has an ID), removing it succeeds, and then every container has the contents it had, and answers every
subscription as it did. -/
theorem C176_add (beq : β → β → Bool) (w₀ : World β) (h0 : Fresh w₀) (hist : List (Nat × Op β)) (hb : BenignHist beq w₀ hist) (k a : Nat) (op : Op β)
    (hop : op = .append a ∨ ∃ i, op = .insert i a)
    (ha : (∃ i, ((runHist beq w₀ hist).obj a).id = some i) ∨ ∀ y ∈ ((runHist beq w₀ hist).cont k).list, (runHist beq w₀ hist).eqv beq y a = false)
    (hok : (step beq (runHist beq w₀ hist) k op).2 = .ok ()) :
    (remove beq (step beq (runHist beq w₀ hist) k op).1 k a).2 = .ok () ∧
    ∀ k', SameView (runHist beq w₀ hist) (remove beq (step beq (runHist beq w₀ hist) k op).1 k a).1 k' := by
  have hs := sync_hist beq hist w₀ hb (sync_fresh h0)
  generalize runHist beq w₀ hist = w at hs ha hok ⊢
  obtain ⟨f, hf, hstep⟩ : ∃ f : List Nat → List Nat, (∀ l, ∃ l₁ l₂, l = l₁ ++ l₂ ∧ f l = l₁ ++ a :: l₂) ∧ step beq w k op = addWith f w k a := by
    rcases hop with rfl | ⟨i, rfl⟩
    · exact ⟨(· ++ [a]), fun l => ⟨l, [], by simp, rfl⟩, append_eq w k a⟩
    · exact ⟨(pyInsert · i a), fun l => ⟨l.take (clip l.length i), l.drop (clip l.length i), by simp, rfl⟩, insert_eq w k i a⟩
  rw [hstep] at hok ⊢
  have hfp : ∀ l, (f l).Perm (a :: l) := by
    intro l
    obtain ⟨l₁, l₂, h1, h2⟩ := hf l
    rw [h2, h1]
    exact List.perm_middle
  have hs1 : SyncW (addWith f w k a).1 k := sync_addWith hfp (hs k)
  have hr1 := rel_addWith f w k a
  have hlist : ((addWith f w k a).1.cont k).list = f (w.cont k).list := by
    rcases addWith_cases f w k a with ⟨_, e⟩ | ⟨_, _, e⟩ | ⟨_, _, e⟩ | ⟨_, i, _, _, e⟩ <;> rw [e] at hok ⊢ <;> simp at hok ⊢
  have heqv : ∀ y, (addWith f w k a).1.eqv beq y a = w.eqv beq y a := by
    have hbody : ∀ x, ((addWith f w k a).1.obj x).body = (w.obj x).body := by
      intro x
      have : ((setParent w k a).obj x).body = (w.obj x).body := by
        simp only [setParent, World.setObj]; split
        · rename_i hx; rw [hx]
        · rfl
      rcases addWith_cases f w k a with ⟨_, e⟩ | ⟨_, _, e⟩ | ⟨_, _, e⟩ | ⟨_, i, _, _, e⟩ <;> rw [e] <;> simp [this]
    intro y
    simp only [World.eqv, hr1.ids, hbody]
  obtain ⟨l₁, l₂, h1, h2⟩ := hf (w.cont k).list
  have hl : ((addWith f w k a).1.cont k).list = l₁ ++ a :: l₂ := by rw [hlist, h2]
  have hbef : ∀ y ∈ l₁, (addWith f w k a).1.eqv beq y a = false := by
    rcases ha with ⟨i, hi⟩ | ha
    · exact before_differs hs1 hl (by rw [hr1.ids]; exact hi)
    · intro y hy
      rw [heqv]
      exact ha y (by rw [h1]; simp [hy])
  obtain ⟨hok2, hl2⟩ := remove_list hs1 hl hbef
  refine ⟨hok2, fun k' => ?_⟩
  have hr2 := rel_remove beq (addWith f w k a).1 k a
  by_cases hk : k' = k
  · subst hk
    exact sameView_of_sync (hs _) (sync_remove hs1 (Or.inr (by rw [hok2]; simp))) (fun b => by rw [hr2.ids, hr1.ids]) (by rw [hl2, h1])
  · exact sameView_other (by rw [hr2.others k' hk, hr1.others k' hk])

/-- C176, putting back what was removed (but for an object that another before it equals, which then has no ID): after any history (with the
exceptions of `Benign`), removing the object at a position and inserting it there both succeed, and then every container has the contents it had, and
answers every subscription as it did. -/
theorem C176_partial (beq : β → β → Bool) (w₀ : World β) (h0 : Fresh w₀) (hist : List (Nat × Op β)) (hb : BenignHist beq w₀ hist) (k n a : Nat)
    (hn : ((runHist beq w₀ hist).cont k).list[n]? = some a)
    (ha : (∃ i, ((runHist beq w₀ hist).obj a).id = some i) ∨
      ∀ y ∈ ((runHist beq w₀ hist).cont k).list.take n, (runHist beq w₀ hist).eqv beq y a = false) :
    (remove beq (runHist beq w₀ hist) k a).2 = .ok () ∧ ((remove beq (runHist beq w₀ hist) k a).1.cont k).list =
      ((runHist beq w₀ hist).cont k).list.eraseIdx n ∧
    (insert (remove beq (runHist beq w₀ hist) k a).1 k n a).2 = .ok () ∧
    ∀ k', SameView (runHist beq w₀ hist) (insert (remove beq (runHist beq w₀ hist) k a).1 k n a).1 k' := by
  have hs := sync_hist beq hist w₀ hb (sync_fresh h0)
  have hh := C08_homogeneous beq w₀ h0 hist k
  generalize runHist beq w₀ hist = w at hs ha hn hh ⊢
  obtain ⟨hlt, hget⟩ := List.getElem?_eq_some_iff.1 hn
  have hl : (w.cont k).list = (w.cont k).list.take n ++ a :: (w.cont k).list.drop (n + 1) := by
    rw [← hget, List.getElem_cons_drop, List.take_append_drop]
  have hlen : ((w.cont k).list.take n).length = n := by simp; omega
  have hbef : ∀ y ∈ (w.cont k).list.take n, w.eqv beq y a = false := by
    rcases ha with ⟨i, hi⟩ | ha
    · exact before_differs (hs k) hl hi
    · exact ha
  obtain ⟨hok, hl1⟩ := remove_list (hs k) hl hbef
  have hr1 := rel_remove beq w k a
  have hs1 : SyncW (remove beq w k a).1 k := sync_remove (hs k) (Or.inr (by rw [hok]; simp))
  have hr2 := rel_addWith (pyInsert · n a) (remove beq w k a).1 k a
  have hs2 : SyncW (addWith (pyInsert · n a) (remove beq w k a).1 k a).1 k := sync_addWith (fun l => pyInsert_perm l _ _) hs1
  have hfree : ∀ i, (w.obj a).id = some i → Dict.get? ((remove beq w k a).1.cont k).dict i = none := by
    intro i hi
    cases hg : Dict.get? ((remove beq w k a).1.cont k).dict i with
    | none => rfl
    | some b =>
      obtain ⟨hb1, hb2⟩ := (hs1.map i b).1 hg
      rw [hl1] at hb1
      simp only [hr1.ids] at hb2
      have hnd := (hs k).nodup
      rw [hl] at hnd
      have := ((List.perm_middle (a := a) (l₁ := (w.cont k).list.take n) (l₂ := (w.cont k).list.drop (n + 1))).filterMap
        (fun a => (w.obj a).id)).nodup_iff.1 hnd
      rw [List.filterMap_cons, hi] at this
      exact absurd (List.mem_filterMap.2 ⟨b, hb1, hb2⟩) (List.nodup_cons.1 this).1
  have hcls : ((remove beq w k a).1.obj a).cls = ((remove beq w k a).1.cont k).contained := by
    rw [hr1.cls, hr1.contained]
    exact hh a (List.mem_of_getElem? hn)
  have hins : (addWith (pyInsert · n a) (remove beq w k a).1 k a).2 = .ok () ∧
      ((addWith (pyInsert · n a) (remove beq w k a).1 k a).1.cont k).list = pyInsert ((remove beq w k a).1.cont k).list n a := by
    rcases addWith_cases (pyInsert · n a) (remove beq w k a).1 k a with ⟨h, _⟩ | ⟨_, ⟨i, b, hi, hg⟩, _⟩ | ⟨_, _, e⟩ | ⟨_, i, _, _, e⟩
    · exact absurd hcls h
    · rw [hr1.ids] at hi
      rw [hfree i hi] at hg; cases hg
    · rw [e]; simp
    · rw [e]; simp
  refine ⟨hok, ?_, ?_⟩
  · rw [hl1, List.eraseIdx_eq_take_drop_succ]
  · rw [insert_eq]
    refine ⟨hins.1, fun k' => ?_⟩
    by_cases hk : k' = k
    · subst hk
      refine sameView_of_sync (hs _) hs2 (fun b => by rw [hr2.ids, hr1.ids]) ?_
      rw [hins.2, hl1]
      have := pyInsert_nat (l₁ := (w.cont k').list.take n) (l₂ := (w.cont k').list.drop (n + 1)) a
      rw [hlen] at this
      rw [this, ← hl]
    · exact sameView_other (by rw [hr2.others k' hk, hr1.others k' hk])
/-- C176, assigning back: after any history (with the exceptions of `Benign`), if another object was assigned to a position, assigning the one that
was there succeeds, and then every container has the contents it had, and answers every subscription as it did. -/
theorem C176_set (beq : β → β → Bool) (w₀ : World β) (h0 : Fresh w₀) (hist : List (Nat × Op β)) (hb : BenignHist beq w₀ hist) (k n a b : Nat)
    (hn : ((runHist beq w₀ hist).cont k).list[n]? = some a) (hok : (setItem (runHist beq w₀ hist) k (.int n) b).2 = .ok ()) :
    (setItem (setItem (runHist beq w₀ hist) k (.int n) b).1 k (.int n) a).2 = .ok () ∧
    ∀ k', SameView (runHist beq w₀ hist) (setItem (setItem (runHist beq w₀ hist) k (.int n) b).1 k (.int n) a).1 k' := by
  have hs := sync_hist beq hist w₀ hb (sync_fresh h0)
  have hh := C08_homogeneous beq w₀ h0 hist k
  generalize runHist beq w₀ hist = w at hs hn hh hok ⊢
  obtain ⟨hlt, _⟩ := List.getElem?_eq_some_iff.1 hn
  have hs1 : SyncW (setItem w k (.int n) b).1 k := sync_setItem (hs k) (by rw [hok]; simp)
  have hr1 := rel_setItem w k (.int n) b
  have hidx : ∀ m : Nat, n < m → pyIdx m (n : Int) = some n := by
    intro m hm
    unfold pyIdx
    rw [if_pos (by omega), if_pos (by omega)]
    simp
  have hl1 : ((setItem w k (.int n) b).1.cont k).list = (w.cont k).list.set n b := by
    rcases setItem_cases w k (.int n) b with ⟨e, h, _⟩ | ⟨i, m, cur, _, hi, hm, _, w₁, _, h | h⟩
    · rw [h] at hok; cases hok
    · rw [h.1] at hok; cases hok
    · cases hi
      rw [hidx _ hlt] at hm
      cases hm
      rw [h.1]; simp
  generalize hw1 : (setItem w k (.int n) b).1 = w1 at hs1 hr1 hl1 ⊢
  have hget : (w1.cont k).list[n]? = some b := by rw [hl1]; simp [hlt]
  have hlen : (w1.cont k).list.length = (w.cont k).list.length := by rw [hl1]; simp
  obtain ⟨r₁, r₂, hr, hset, _⟩ := set_split (y := a) hget
  have hback : (w1.cont k).list.set n a = (w.cont k).list := by
    rw [hl1, List.set_set]
    obtain ⟨l₁, l₂, h1, h2, _⟩ := set_split (y := a) hn
    rw [h2, ← h1]
  have hpre : r₁ ++ a :: r₂ = (w.cont k).list := by rw [← hset, hback]
  have hdrop : ∃ w2, dropMapping w1 k b = some w2 ∧ Sync (fun a => (w.obj a).id) (r₁ ++ r₂) (w2.cont k).dict ∧ Rel w1 w2 k ∧
      (w2.cont k).list = (w1.cont k).list := by
    have h : Sync (fun a => (w.obj a).id) (r₁ ++ b :: r₂) (w1.cont k).dict := by
      have := hs1
      unfold SyncW at this
      rw [hr, show (fun a => (w1.obj a).id) = fun a => (w.obj a).id from funext hr1.ids] at this
      exact this
    rcases dropMapping_cases w1 k b with ⟨hi, e⟩ | ⟨i, c, hi, hg, e⟩ | ⟨i, hi, hg, e⟩
    · exact ⟨w1, e, h.erase.1 (by rw [← hr1.ids]; exact hi), Rel.refl _ _, rfl⟩
    · exact ⟨_, e, by simpa using h.erase.2 i (by rw [← hr1.ids]; exact hi), rel_dropMapping e, by simp⟩
    · rw [(hs1.map i b).2 ⟨List.mem_of_getElem? hget, hi⟩] at hg; cases hg
  obtain ⟨w2, hd, hs2, hr2, hl2⟩ := hdrop
  have hcreate : (createMapping w2 k a).2 = .ok () ∧ ((createMapping w2 k a).1.cont k).list = (w2.cont k).list := by
    rcases createMapping_cases w2 k a with ⟨_, e⟩ | ⟨i, _, _, e⟩ | ⟨i, c, hi, hg, e⟩
    · rw [e]; simp
    · rw [e]; simp
    · obtain ⟨hc1, hc2⟩ := (hs2.map i c).1 hg
      have hnd := (hs k).nodup
      rw [← hpre] at hnd
      have := (List.perm_middle.filterMap (fun a => (w.obj a).id)).nodup_iff.1 hnd
      rw [hr2.ids, hr1.ids] at hi
      rw [List.filterMap_cons, hi] at this
      exact absurd (List.mem_filterMap.2 ⟨c, hc1, hc2⟩) (List.nodup_cons.1 this).1
  have hcls : (w1.obj a).cls = (w1.cont k).contained := by
    rw [hr1.cls, hr1.contained]
    exact hh a (List.mem_of_getElem? hn)
  have hdo : setItem w1 k (.int n) a = ((createMapping w2 k a).1.setList k (w.cont k).list, .ok ()) := by
    unfold setItem
    simp only [assertType, hcls, if_true, setIdx, hlen, hidx _ hlt, hget, hd]
    match hq : createMapping w2 k a with
    | (_, .error e) => rw [hq] at hcreate; cases hcreate.1
    | (w3, .ok ()) =>
      rw [hq] at hcreate
      simp only at hcreate ⊢
      rw [hcreate.2, hl2, hback]
  have hok2 : (setItem w1 k (.int n) a).2 = .ok () := by rw [hdo]
  refine ⟨hok2, fun k' => ?_⟩
  have hr3 := rel_setItem w1 k (.int n) a
  by_cases hk : k' = k
  · subst hk
    exact sameView_of_sync (hs _) (sync_setItem hs1 (by rw [hok2]; simp)) (fun c => by rw [hr3.ids, hr1.ids]) (by rw [hdo]; simp)
  · exact sameView_other (by rw [hr3.others k' hk, hr1.others k' hk])
omit [Uni] in
theorem extend_ok (k : Nat) : ∀ (l : List Nat) (w : World β), SyncW w k → (∀ a ∈ l, (w.obj a).cls = (w.cont k).contained) →
    (((w.cont k).list ++ l).filterMap fun a => (w.obj a).id).Nodup →
    (extend w k l).2 = .ok () ∧ SyncW (extend w k l).1 k ∧ Rel w (extend w k l).1 k ∧ ((extend w k l).1.cont k).list = (w.cont k).list ++ l := by
  intro l
  induction l with
  | nil => intro w h _ _; exact ⟨rfl, h, Rel.refl w k, by simp [extend]⟩
  | cons a l ih =>
    intro w h hc hn
    have hr := rel_addWith (· ++ [a]) w k a
    have hs : SyncW (addWith (· ++ [a]) w k a).1 k := sync_addWith (fun l => append_perm a l) h
    have hadd : (addWith (· ++ [a]) w k a).2 = .ok () ∧ ((addWith (· ++ [a]) w k a).1.cont k).list = (w.cont k).list ++ [a] := by
      rcases addWith_cases (· ++ [a]) w k a with ⟨h1, _⟩ | ⟨_, ⟨i, b, hi, hg⟩, _⟩ | ⟨_, _, e⟩ | ⟨_, i, _, _, e⟩
      · exact absurd (hc a List.mem_cons_self) h1
      · obtain ⟨hb1, hb2⟩ := (h.map i b).1 hg
        rw [List.filterMap_append, List.nodup_append] at hn
        exact absurd rfl (hn.2.2 i (List.mem_filterMap.2 ⟨b, hb1, hb2⟩) i (List.mem_filterMap.2 ⟨a, List.mem_cons_self, hi⟩))
      · rw [e]; simp
      · rw [e]; simp
    rw [extend, append_eq]
    match hq : addWith (· ++ [a]) w k a with
    | (w', .error e) => rw [hq] at hadd; cases hadd.1
    | (w', .ok ()) =>
      rw [hq] at hadd hr hs
      simp only at hadd hr hs ⊢
      obtain ⟨i1, i2, i3, i4⟩ := ih w' hs (fun b hb => by rw [hr.cls, hr.contained]; exact hc b (List.mem_cons_of_mem _ hb))
        (by rw [hadd.2]; simp only [hr.ids]; simpa using hn)
      exact ⟨i1, i2, hr.trans i3, by rw [i4, hadd.2]; simp⟩

/-- C176, extending by what was cleared: after any history (with the exceptions of `Benign`), a container that is cleared and then extended by the
objects it had has them, and it and every other container answers every subscription as it did. -/
theorem C176_clear (beq : β → β → Bool) (w₀ : World β) (h0 : Fresh w₀) (hist : List (Nat × Op β)) (hb : BenignHist beq w₀ hist) (k : Nat) :
    (clear (runHist beq w₀ hist) k).2 = .ok () ∧ ((clear (runHist beq w₀ hist) k).1.cont k).list = [] ∧
    (extend (clear (runHist beq w₀ hist) k).1 k ((runHist beq w₀ hist).cont k).list).2 = .ok () ∧
    ∀ k', SameView (runHist beq w₀ hist) (extend (clear (runHist beq w₀ hist) k).1 k ((runHist beq w₀ hist).cont k).list).1 k' := by
  have hs := sync_hist beq hist w₀ hb (sync_fresh h0)
  have hh := C08_homogeneous beq w₀ h0 hist k
  generalize runHist beq w₀ hist = w at hs hh ⊢
  have hr1 : Rel w (clear w k).1 k := rel_step beq w k .clear
  have hl1 : ((clear w k).1.cont k).list = [] := by simp [clear, World.setCont]
  have hs1 : SyncW (clear w k).1 k := sync_step (beq := beq) (op := .clear) (k := k) trivial hs k
  obtain ⟨h1, h2, h3, h4⟩ := extend_ok k (w.cont k).list (clear w k).1 hs1 (fun a ha => by rw [hr1.cls, hr1.contained]; exact hh a ha)
    (by rw [hl1]; simp only [hr1.ids]; exact (hs k).nodup)
  refine ⟨rfl, hl1, h1, fun k' => ?_⟩
  by_cases hk : k' = k
  · subst hk
    exact sameView_of_sync (hs _) h2 (fun b => by rw [h3.ids, hr1.ids]) (by rw [h4, hl1]; rfl)
  · exact sameView_other (by rw [h3.others k' hk, hr1.others k' hk])
end

/-! ### Refutation and concrete cases -/

section
attribute [local instance] asciiUni

/-- items 0 and 1 are alike and have no IDs, the others have; one container of items -/
def exUndo : World Nat where
  obj := fun a => if a = 0 then ⟨.item, none, none, 0⟩ else if a = 1 then ⟨.item, none, none, 0⟩ else if a = 2 then ⟨.item, some ['a'], none, 0⟩
    else ⟨.item, some ['b'], none, 0⟩
  cont := fun k => ⟨k, .item, [], []⟩

theorem exUndo_fresh : Fresh exUndo := fun _ => ⟨rfl, rfl⟩

/-- C176: as stated it is false.  An object without an ID that another before it equals is not what is removed: the other is, so that inserting the
object again has it twice. -/
theorem C176_refuted : ∃ (w : World Nat) (hist : List (Nat × Op Nat)), Fresh w ∧ BenignHist (· == ·) w hist ∧
    ((runHist (· == ·) w hist).cont 0).list = [0, 1] ∧ (remove (· == ·) (runHist (· == ·) w hist) 0 1).2 = .ok () ∧
    ((remove (· == ·) (runHist (· == ·) w hist) 0 1).1.cont 0).list = [1] ∧
    (insert (remove (· == ·) (runHist (· == ·) w hist) 0 1).1 0 1 1).2 = .ok () ∧
    ((insert (remove (· == ·) (runHist (· == ·) w hist) 0 1).1 0 1 1).1.cont 0).list = [1, 1] :=
  ⟨exUndo, [(0, .append 0), (0, .append 1)], exUndo_fresh, ⟨trivial, trivial, trivial⟩, by decide +kernel, by decide +kernel, by decide +kernel,
    by decide +kernel, by decide +kernel⟩

example : let w := runHist (· == ·) exUndo [(0, .append 0), (0, .append 2), (0, .append 3)]
    Fresh exUndo ∧ BenignHist (· == ·) exUndo [(0, .append 0), (0, .append 2), (0, .append 3)] ∧ (w.cont 0).list[1]? = some 2 ∧
    (w.obj 2).id = some ['a'] ∧ (w.cont 0).list = [0, 2, 3] ∧ ((remove (· == ·) w 0 2).1.cont 0).list = [0, 3] :=
  ⟨exUndo_fresh, ⟨trivial, trivial, trivial, trivial⟩, by decide +kernel, by decide +kernel, by decide +kernel, by decide +kernel⟩

example : let w := runHist (· == ·) exUndo [(0, .append 2), (0, .append 3)]
    (step (· == ·) w 0 (.insert (-1) 0)).2 = .ok () ∧ (∀ y ∈ (w.cont 0).list, w.eqv (· == ·) y 0 = false) ∧
    ((step (· == ·) w 0 (.insert (-1) 0)).1.cont 0).list = [2, 0, 3] := by
  decide +kernel

example : let w := runHist (· == ·) exUndo [(0, .append 2), (0, .append 0), (0, .append 1)]
    getItem w 0 (.str ['a']) = .ok (.one 2) ∧ getItem (clear w 0).1 0 (.str ['a']) = .error .keyError ∧
    ((extend (clear w 0).1 0 [2, 0, 1]).1.cont 0).list = [2, 0, 1] := by
  decide +kernel

example : let w := runHist (· == ·) exUndo [(0, .append 2), (0, .append 0)]
    (setItem w 0 (.int 0) 3).2 = .ok () ∧ ((setItem w 0 (.int 0) 3).1.cont 0).list = [3, 0] ∧
    getItem (setItem w 0 (.int 0) 3).1 0 (.str ['a']) = .error .keyError ∧ getItem w 0 (.str ['a']) = .ok (.one 2) := by
  decide +kernel
end

end Xigt
