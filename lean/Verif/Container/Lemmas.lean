import Verif.Container.Spec
import Verif.DictLemmas
import Verif.Ref.Laws
/- Helper lemmas for the container properties. -/

set_option linter.unusedSimpArgs false
set_option linter.unusedSectionVars false

namespace Xigt

/-! ### Index in sync with the list -/

structure Sync (idf : Nat → Option Str) (l : List Nat) (d : Dict Str Nat) : Prop where
  wf : Dict.WF d
  nodup : (l.filterMap idf).Nodup
  map : ∀ i a, Dict.get? d i = some a ↔ a ∈ l ∧ idf a = some i

theorem sync_nil (idf) : Sync idf [] [] :=
  ⟨Dict.wf_nil, by simp, by simp [Dict.get?]⟩

theorem Sync.perm {idf l l' d} (h : Sync idf l d) (p : l.Perm l') : Sync idf l' d :=
  ⟨h.wf, (p.filterMap idf).nodup_iff.1 h.nodup, fun i a => by rw [h.map, p.mem_iff]⟩

theorem Sync.cons_none {idf l d a} (h : Sync idf l d) (ha : idf a = none) :
    Sync idf (a :: l) d := by
  refine ⟨h.wf, by simpa [List.filterMap_cons, ha] using h.nodup, fun i b => ?_⟩
  rw [h.map]
  constructor
  · rintro ⟨h1, h2⟩; exact ⟨by simp [h1], h2⟩
  · rintro ⟨h1, h2⟩
    rcases List.mem_cons.1 h1 with rfl | h1
    · rw [ha] at h2; cases h2
    · exact ⟨h1, h2⟩

theorem Sync.cons_some {idf l d a i} (h : Sync idf l d) (ha : idf a = some i)
    (hi : Dict.get? d i = none) : Sync idf (a :: l) (Dict.set d i a) := by
  have hn : ∀ b ∈ l, idf b ≠ some i := by
    intro b hb he
    rw [(h.map i b).2 ⟨hb, he⟩] at hi; cases hi
  refine ⟨h.wf.set i a, ?_, fun j b => ?_⟩
  · rw [List.filterMap_cons, ha]
    refine List.nodup_cons.2 ⟨?_, h.nodup⟩
    rw [List.mem_filterMap]
    rintro ⟨b, hb, he⟩; exact hn b hb he
  · rw [Dict.get?_set]
    by_cases hij : i = j
    · subst hij
      rw [if_pos rfl]
      constructor
      · rintro e; cases e; exact ⟨by simp, ha⟩
      · rintro ⟨hb, he⟩
        rcases List.mem_cons.1 hb with rfl | hb
        · rfl
        · exact absurd he (hn b hb)
    · rw [if_neg hij, h.map]
      constructor
      · rintro ⟨h1, h2⟩; exact ⟨by simp [h1], h2⟩
      · rintro ⟨h1, h2⟩
        rcases List.mem_cons.1 h1 with rfl | h1
        · rw [ha] at h2; cases h2; exact absurd rfl hij
        · exact ⟨h1, h2⟩

theorem Sync.tail_none {idf l d a} (h : Sync idf (a :: l) d) (ha : idf a = none) :
    Sync idf l d := by
  refine ⟨h.wf, by simpa [List.filterMap_cons, ha] using h.nodup, fun i b => ?_⟩
  rw [h.map]
  constructor
  · rintro ⟨h1, h2⟩
    rcases List.mem_cons.1 h1 with rfl | h1
    · rw [ha] at h2; cases h2
    · exact ⟨h1, h2⟩
  · rintro ⟨h1, h2⟩; exact ⟨by simp [h1], h2⟩

theorem Sync.tail_some {idf l d a i} (h : Sync idf (a :: l) d) (ha : idf a = some i) :
    Sync idf l (Dict.del d i) := by
  have hnd := h.nodup
  rw [List.filterMap_cons, ha] at hnd
  have hnd := List.nodup_cons.1 hnd
  have hn : ∀ b ∈ l, idf b ≠ some i := by
    intro b hb he
    exact hnd.1 (List.mem_filterMap.2 ⟨b, hb, he⟩)
  refine ⟨h.wf.del i, hnd.2, fun j b => ?_⟩
  rw [Dict.get?_del h.wf]
  by_cases hij : i = j
  · subst hij
    rw [if_pos rfl]
    constructor
    · rintro e; cases e
    · rintro ⟨hb, he⟩; exact absurd he (hn b hb)
  · rw [if_neg hij, h.map]
    constructor
    · rintro ⟨h1, h2⟩
      rcases List.mem_cons.1 h1 with rfl | h1
      · rw [ha] at h2; cases h2; exact absurd rfl hij
      · exact ⟨h1, h2⟩
    · rintro ⟨h1, h2⟩; exact ⟨by simp [h1], h2⟩

/-- erase an element -/
theorem Sync.erase {idf l₁ l₂ d a} (h : Sync idf (l₁ ++ a :: l₂) d) :
    (idf a = none → Sync idf (l₁ ++ l₂) d) ∧
    (∀ i, idf a = some i → Sync idf (l₁ ++ l₂) (Dict.del d i)) :=
  ⟨fun ha => (h.perm List.perm_middle).tail_none ha, fun _ ha => (h.perm List.perm_middle).tail_some ha⟩

/-! ### lists -/

theorem removeFirst_spec {p : Nat → Bool} : ∀ {l : List Nat},
    (removeFirst p l = none ∧ ∀ x ∈ l, p x = false) ∨
    ∃ l₁ x l₂, l = l₁ ++ x :: l₂ ∧ p x = true ∧ (∀ y ∈ l₁, p y = false) ∧
      removeFirst p l = some (l₁ ++ l₂) := by
  intro l
  induction l with
  | nil => exact Or.inl ⟨rfl, by simp⟩
  | cons c cs ih =>
    rw [removeFirst]
    cases hc : p c with
    | true => exact Or.inr ⟨[], c, cs, rfl, hc, by simp, by simp⟩
    | false =>
      rcases ih with ⟨h1, h2⟩ | ⟨l₁, x, l₂, rfl, hx, hl, e⟩
      · refine Or.inl ⟨by simp [h1], ?_⟩
        intro x hx
        rcases List.mem_cons.1 hx with rfl | hx
        · exact hc
        · exact h2 x hx
      · refine Or.inr ⟨c :: l₁, x, l₂, rfl, hx, ?_, by simp [e]⟩
        intro y hy
        rcases List.mem_cons.1 hy with rfl | hy
        · exact hc
        · exact hl y hy

theorem pyInsert_perm {α} (l : List α) (i : Int) (x : α) : (pyInsert l i x).Perm (x :: l) := by
  unfold pyInsert
  refine List.perm_middle.trans ?_
  rw [List.take_append_drop]

theorem insertBy_perm {α} (le : α → α → Bool) (x : α) : ∀ l, (insertBy le x l).Perm (x :: l) := by
  intro l
  induction l with
  | nil => exact List.Perm.refl _
  | cons y ys ih =>
    rw [insertBy]
    split
    · exact List.Perm.refl _
    · exact (ih.cons y).trans (List.Perm.swap x y ys)

theorem sortBy_perm {α} (le : α → α → Bool) : ∀ l, (sortBy le l).Perm l := by
  intro l
  induction l with
  | nil => exact List.Perm.refl _
  | cons x xs ih => rw [sortBy]; exact (insertBy_perm le x _).trans (ih.cons x)

theorem set_split {α} {l : List α} {n : Nat} {x y : α} (h : l[n]? = some x) :
    ∃ l₁ l₂, l = l₁ ++ x :: l₂ ∧ l.set n y = l₁ ++ y :: l₂ ∧ l₁.length = n := by
  induction l generalizing n with
  | nil => simp at h
  | cons c cs ih =>
    cases n with
    | zero => simp at h; subst h; exact ⟨[], cs, rfl, by simp, rfl⟩
    | succ n =>
      simp at h
      obtain ⟨l₁, l₂, e1, e2, e3⟩ := ih h
      exact ⟨c :: l₁, l₂, by simp [e1], by simp [e2], by simp [e3]⟩

/-! ### strings that are ids are not numerals -/

variable {β : Type}

section
variable [Uni]

theorem letter_not_space {c : Char} (h : isLetter c = true) : Uni.isSpace c = false :=
  idChar_not_space (isLetter_idChar h)

theorem letter_not_digit {c : Char} (h : isLetter c = true) : Uni.digit c = none := by
  have hlt : c.toNat < 128 := by
    simp only [isLetter, Bool.or_eq_true, Bool.and_eq_true, decide_eq_true_eq] at h; omega
  rw [Uni.ascii_digit c hlt]
  simp only [isLetter, Bool.or_eq_true, Bool.and_eq_true, decide_eq_true_eq] at h
  rw [if_neg (by omega)]

theorem pyInt_letter {s : Str} (h : idAccepted s = true) : pyInt s = .error .valueError := by
  obtain ⟨c, cs, rfl, hc⟩ := (idAccepted_iff s).1 h
  have h1 : lstrip (c :: cs) = c :: cs := by
    rw [lstrip, List.dropWhile_cons, letter_not_space hc]; simp
  have h2 : ∃ t, strip (c :: cs) = c :: t := by
    rw [strip, h1]
    have : ∀ (l : Str), ∃ t, ((l ++ [c]).dropWhile Uni.isSpace).reverse = c :: t := by
      intro l
      induction l with
      | nil => refine ⟨[], ?_⟩; simp [letter_not_space hc]
      | cons x xs ih =>
        rw [List.cons_append, List.dropWhile_cons]
        split
        · exact ih
        · exact ⟨(x :: xs).reverse, by simp⟩
    have := this cs.reverse
    rwa [← List.reverse_cons] at this
  obtain ⟨t, ht⟩ := h2
  rw [pyInt, ht]
  have hm : c ≠ '-' := by rintro rfl; revert hc; decide
  have hp : c ≠ '+' := by rintro rfl; revert hc; decide
  simp only [hm, hp, if_false, parseNat, letter_not_digit hc]

end

/-! ### worlds -/

@[simp] theorem setObj_cont (w : World β) (a o) : (w.setObj a o).cont = w.cont := rfl
@[simp] theorem setCont_obj (w : World β) (k c) : (w.setCont k c).obj = w.obj := rfl
@[simp] theorem setCont_same (w : World β) (k c) : (w.setCont k c).cont k = c := by
  simp [World.setCont]
theorem setCont_other (w : World β) {k k'} (c) (h : k' ≠ k) : (w.setCont k c).cont k' = w.cont k' := by
  simp [World.setCont, h]

/-- nothing but parents and the index/list of container `k` differs -/
structure Rel (w w' : World β) (k : Nat) : Prop where
  ids : ∀ a, (w'.obj a).id = (w.obj a).id
  cls : ∀ a, (w'.obj a).cls = (w.obj a).cls
  others : ∀ k', k' ≠ k → w'.cont k' = w.cont k'
  owner : (w'.cont k).owner = (w.cont k).owner
  contained : (w'.cont k).contained = (w.cont k).contained

theorem Rel.refl (w : World β) (k) : Rel w w k :=
  ⟨fun _ => rfl, fun _ => rfl, fun _ _ => rfl, rfl, rfl⟩

theorem Rel.trans {w w' w'' : World β} {k} (h : Rel w w' k) (g : Rel w' w'' k) : Rel w w'' k :=
  ⟨fun a => (g.ids a).trans (h.ids a), fun a => (g.cls a).trans (h.cls a),
   fun k' hk => (g.others k' hk).trans (h.others k' hk), g.owner.trans h.owner,
   g.contained.trans h.contained⟩

theorem rel_setParent (w : World β) (k a k') : Rel w (setParent w k a) k' := by
  refine ⟨?_, ?_, fun _ _ => rfl, rfl, rfl⟩ <;>
  · intro b; simp only [setParent, World.setObj]; split <;> simp_all

theorem rel_setCont (w : World β) (k c) (h1 : c.owner = (w.cont k).owner)
    (h2 : c.contained = (w.cont k).contained) : Rel w (w.setCont k c) k :=
  ⟨fun _ => rfl, fun _ => rfl, fun _ h => setCont_other w c h, by simp [h1], by simp [h2]⟩

theorem rel_setList (w : World β) (k l) : Rel w (w.setList k l) k := rel_setCont w k _ rfl rfl
theorem rel_setDict (w : World β) (k l) : Rel w (w.setDict k l) k := rel_setCont w k _ rfl rfl

@[simp] theorem setList_list (w : World β) (k l) : ((w.setList k l).cont k).list = l := by
  simp [World.setList]
@[simp] theorem setList_dict (w : World β) (k l) :
    ((w.setList k l).cont k).dict = (w.cont k).dict := by simp [World.setList]
@[simp] theorem setDict_list (w : World β) (k d) :
    ((w.setDict k d).cont k).list = (w.cont k).list := by simp [World.setDict]
@[simp] theorem setDict_dict (w : World β) (k d) : ((w.setDict k d).cont k).dict = d := by
  simp [World.setDict]
@[simp] theorem setList_obj (w : World β) (k l) : (w.setList k l).obj = w.obj := rfl
@[simp] theorem setDict_obj (w : World β) (k l) : (w.setDict k l).obj = w.obj := rfl
@[simp] theorem setParent_cont (w : World β) (k a) : (setParent w k a).cont = w.cont := rfl
@[simp] theorem setParent_id (w : World β) (k a b) :
    ((setParent w k a).obj b).id = (w.obj b).id := (rel_setParent w k a k).ids b

/-- outcome of `_create_id_mapping` -/
theorem createMapping_cases (w : World β) (k a) :
    ((w.obj a).id = none ∧ createMapping w k a = (w, .ok ())) ∨
    (∃ i, (w.obj a).id = some i ∧ Dict.get? (w.cont k).dict i = none ∧
      createMapping w k a = (w.setDict k (Dict.set (w.cont k).dict i a), .ok ())) ∨
    (∃ i b, (w.obj a).id = some i ∧ Dict.get? (w.cont k).dict i = some b ∧
      createMapping w k a = (w, .error .xigtError)) := by
  unfold createMapping
  cases hi : (w.obj a).id with
  | none => exact Or.inl ⟨rfl, rfl⟩
  | some i =>
    cases hh : Dict.has (w.cont k).dict i with
    | false =>
      refine Or.inr (Or.inl ⟨i, rfl, (Dict.has_false_iff _ _).1 hh, ?_⟩)
      simp only [hh]; rfl
    | true =>
      obtain ⟨b, hb⟩ := (Dict.has_true_iff _ _).1 hh
      refine Or.inr (Or.inr ⟨i, b, rfl, hb, ?_⟩)
      simp only [hh]; rfl

/-- outcome of deleting a mapping -/
theorem dropMapping_cases (w : World β) (k a) :
    ((w.obj a).id = none ∧ dropMapping w k a = some w) ∨
    (∃ i b, (w.obj a).id = some i ∧ Dict.get? (w.cont k).dict i = some b ∧
      dropMapping w k a = some (w.setDict k (Dict.del (w.cont k).dict i))) ∨
    (∃ i, (w.obj a).id = some i ∧ Dict.get? (w.cont k).dict i = none ∧
      dropMapping w k a = none) := by
  unfold dropMapping
  cases hi : (w.obj a).id with
  | none => exact Or.inl ⟨rfl, rfl⟩
  | some i =>
    cases hh : Dict.has (w.cont k).dict i with
    | false =>
      refine Or.inr (Or.inr ⟨i, rfl, (Dict.has_false_iff _ _).1 hh, ?_⟩)
      simp only [hh]; rfl
    | true =>
      obtain ⟨b, hb⟩ := (Dict.has_true_iff _ _).1 hh
      refine Or.inr (Or.inl ⟨i, b, rfl, hb, ?_⟩)
      simp only [hh]; rfl

/-- sync of a container in a world -/
def SyncW (w : World β) (k : Nat) : Prop :=
  Sync (fun a => (w.obj a).id) (w.cont k).list (w.cont k).dict

theorem SyncW.congr {w w' : World β} {k} (h : SyncW w k) (hid : ∀ a, (w'.obj a).id = (w.obj a).id)
    (hc : w'.cont k = w.cont k) : SyncW w' k := by
  unfold SyncW at h ⊢
  rw [hc, show (fun a => (w'.obj a).id) = fun a => (w.obj a).id from funext hid]
  exact h

/-- an attempt to add: shared by append, insert -/
def addWith (f : List Nat → List Nat) (w : World β) (k a : Nat) : Out β :=
  match assertType w k a with
  | .error e => (w, .error e)
  | .ok () =>
    match createMapping (setParent w k a) k a with
    | (w, .error e) => (w, .error e)
    | (w, .ok ()) => (w.setList k (f (w.cont k).list), .ok ())

theorem append_eq (w : World β) (k a) : append w k a = addWith (· ++ [a]) w k a := rfl
theorem insert_eq (w : World β) (k i a) : insert w k i a = addWith (pyInsert · i a) w k a := rfl

/-- what an attempt to add does -/
theorem addWith_cases (f : List Nat → List Nat) (w : World β) (k a : Nat) :
    ((w.obj a).cls ≠ (w.cont k).contained ∧ addWith f w k a = (w, .error .xigtStructureError)) ∨
    ((w.obj a).cls = (w.cont k).contained ∧ (∃ i b, (w.obj a).id = some i ∧
      Dict.get? (w.cont k).dict i = some b) ∧
      addWith f w k a = (setParent w k a, .error .xigtError)) ∨
    ((w.obj a).cls = (w.cont k).contained ∧ (w.obj a).id = none ∧
      addWith f w k a = ((setParent w k a).setList k (f (w.cont k).list), .ok ())) ∨
    ((w.obj a).cls = (w.cont k).contained ∧ ∃ i, (w.obj a).id = some i ∧
      Dict.get? (w.cont k).dict i = none ∧
      addWith f w k a = (((setParent w k a).setDict k (Dict.set (w.cont k).dict i a)).setList k
        (f (w.cont k).list), .ok ())) := by
  unfold addWith assertType
  by_cases hc : (w.obj a).cls = (w.cont k).contained
  · refine Or.inr ?_
    simp only [hc, if_true, true_and]
    rcases createMapping_cases (setParent w k a) k a with ⟨h1, h2⟩ | ⟨i, h1, h3, h2⟩ | ⟨i, b, h1, h3, h2⟩
    · refine Or.inr (Or.inl ⟨by simpa using h1, ?_⟩)
      rw [h2]; simp
    · refine Or.inr (Or.inr ⟨i, by simpa using h1, by simpa using h3, ?_⟩)
      rw [h2]; simp
    · refine Or.inl ⟨⟨i, b, by simpa using h1, by simpa using h3⟩, ?_⟩
      rw [h2]
  · exact Or.inl ⟨hc, by simp [hc]⟩

theorem rel_addWith (f : List Nat → List Nat) (w : World β) (k a : Nat) :
    Rel w (addWith f w k a).1 k := by
  rcases addWith_cases f w k a with ⟨_, e⟩ | ⟨_, _, e⟩ | ⟨_, _, e⟩ | ⟨_, i, _, _, e⟩
  · rw [e]; exact Rel.refl w k
  · rw [e]; exact rel_setParent w k a k
  · rw [e]; exact (rel_setParent w k a k).trans (rel_setList _ _ _)
  · rw [e]; exact ((rel_setParent w k a k).trans (rel_setDict _ _ _)).trans (rel_setList _ _ _)

theorem sync_addWith {f : List Nat → List Nat} {w : World β} {k a : Nat}
    (hf : ∀ l, (f l).Perm (a :: l)) (h : SyncW w k) : SyncW (addWith f w k a).1 k := by
  rcases addWith_cases f w k a with ⟨_, e⟩ | ⟨_, _, e⟩ | ⟨_, hn, e⟩ | ⟨_, i, hi, hg, e⟩
  · rw [e]; exact h
  · rw [e]; exact h.congr (fun b => setParent_id w k a b) rfl
  · rw [e]
    simp only [SyncW, setList_list, setList_dict, setList_obj, setParent_cont, setParent_id]
    exact (h.cons_none hn).perm (hf _).symm
  · rw [e]
    simp only [SyncW, setList_list, setList_dict, setList_obj, setParent_cont, setParent_id,
      setDict_dict, setDict_list, setDict_obj]
    exact (h.cons_some hi hg).perm (hf _).symm

theorem append_perm (a : Nat) (l : List Nat) : (l ++ [a]).Perm (a :: l) := by
  have := List.perm_append_comm (l₁ := l) (l₂ := [a])
  simpa using this

theorem extend_induct {P : World β → World β → Prop} (k : Nat) (hr : ∀ w, P w w)
    (ht : ∀ w w' w'', P w w' → P w' w'' → P w w'')
    (ha : ∀ w a, P w (append w k a).1) : ∀ as w, P w (extend w k as).1 := by
  intro as
  induction as with
  | nil => intro w; exact hr w
  | cons a as ih =>
    intro w
    rw [extend]
    have h1 := ha w a
    match hq : append w k a with
    | (w', .error e) => rw [hq] at h1; exact h1
    | (w', .ok ()) => rw [hq] at h1; exact ht _ _ _ h1 (ih w')

theorem rel_remove (beq) (w : World β) (k a) : Rel w (remove beq w k a).1 k := by
  unfold remove
  rcases dropMapping_cases w k a with ⟨_, e⟩ | ⟨i, b, _, _, e⟩ | ⟨i, _, _, e⟩ <;> rw [e] <;> simp only
  · split
    · exact Rel.refl w k
    · exact rel_setList _ _ _
  · split
    · exact rel_setDict _ _ _
    · exact (rel_setDict _ _ _).trans (rel_setList _ _ _)
  · exact Rel.refl w k

/-- equal objects have equal IDs -/
theorem eqv_id {beq : β → β → Bool} {w : World β} {a b} (h : w.eqv beq a b = true) :
    (w.obj a).id = (w.obj b).id := by
  simp only [World.eqv, Bool.or_eq_true, beq_iff_eq, Bool.and_eq_true, decide_eq_true_eq] at h
  rcases h with rfl | h
  · rfl
  · exact h.1

theorem eqv_setDict (beq : β → β → Bool) (w : World β) (k d a b) :
    (w.setDict k d).eqv beq a b = w.eqv beq a b := rfl

theorem sync_remove {beq : β → β → Bool} {w : World β} {k a : Nat} (h : SyncW w k)
    (hb : (w.obj a).id = none ∨ (remove beq w k a).2 ≠ .error .valueError) :
    SyncW (remove beq w k a).1 k := by
  unfold remove at hb ⊢
  rcases dropMapping_cases w k a with ⟨hn, e⟩ | ⟨i, b, hi, hg, e⟩ | ⟨i, _, _, e⟩ <;> rw [e] at hb ⊢ <;>
    simp only at hb ⊢
  · rcases removeFirst_spec (p := fun x => w.eqv beq x a) (l := (w.cont k).list) with
      ⟨e, _⟩ | ⟨l₁, x, l₂, hl, hx, _, e⟩
    · rw [e]; exact h
    · rw [e]
      simp only [SyncW, setList_list, setList_dict, setList_obj]
      have hxn : (w.obj x).id = none := by rw [eqv_id hx, hn]
      unfold SyncW at h
      rw [hl] at h
      exact h.erase.1 hxn
  · simp only [eqv_setDict, setDict_list] at hb ⊢
    rcases removeFirst_spec (p := fun x => w.eqv beq x a) (l := (w.cont k).list) with
      ⟨e, _⟩ | ⟨l₁, x, l₂, hl, hx, _, e⟩
    · rw [e] at hb; simp [hi] at hb
    · rw [e]
      simp only [SyncW, setList_list, setList_dict, setList_obj, setDict_dict, setDict_obj]
      have hxn : (w.obj x).id = some i := by rw [eqv_id hx, hi]
      unfold SyncW at h
      rw [hl] at h
      exact h.erase.2 i hxn
  · exact h

section
variable [Uni]

/-- in sync, a subscription returns a contained object -/
theorem getItem_one_mem {w : World β} {k : Nat} (h : SyncW w k) {key a}
    (hg : getItem w k key = .ok (.one a)) : a ∈ (w.cont k).list := by
  have hpg : ∀ i, (pyGet (w.cont k).list i).map Got.one = .ok (.one a) → a ∈ (w.cont k).list := by
    intro i hi
    unfold pyGet at hi
    split at hi
    · split at hi
      · rename_i x hx
        simp only [Except.map, Except.ok.injEq, Got.one.injEq] at hi
        subst hi
        exact List.mem_of_getElem? hx
      · simp [Except.map] at hi
    · simp [Except.map] at hi
  cases key with
  | int i => exact hpg i hg
  | slice x y => simp [getItem] at hg
  | str s =>
    unfold getItem at hg
    simp only at hg
    split at hg
    · rename_i b hb
      simp only [Except.ok.injEq, Got.one.injEq] at hg
      subst hg
      exact ((h.map s b).1 hb).1
    · split at hg
      · exact hpg _ hg
      · cases hg

/-- removing a contained object never raises -/
theorem remove_mem_ok {beq : β → β → Bool} {w : World β} {k a : Nat} (h : SyncW w k)
    (ha : a ∈ (w.cont k).list) : (remove beq w k a).2 = .ok () := by
  have hself : w.eqv beq a a = true := by simp [World.eqv]
  unfold remove
  rcases dropMapping_cases w k a with ⟨hn, e⟩ | ⟨i, b, hi, hg, e⟩ | ⟨i, hi, hg, e⟩ <;> rw [e] <;>
    simp only
  · rcases removeFirst_spec (p := fun x => w.eqv beq x a) (l := (w.cont k).list) with
      ⟨_, e⟩ | ⟨l₁, x, l₂, hl, hx, _, e⟩
    · rw [e a ha] at hself; cases hself
    · rw [e]
  · simp only [eqv_setDict, setDict_list]
    rcases removeFirst_spec (p := fun x => w.eqv beq x a) (l := (w.cont k).list) with
      ⟨_, e⟩ | ⟨l₁, x, l₂, hl, hx, _, e⟩
    · rw [e a ha] at hself; cases hself
    · rw [e]
  · rw [(h.map i a).2 ⟨ha, hi⟩] at hg; cases hg

theorem sync_delItem {beq : β → β → Bool} {w : World β} {k : Nat} {key} (h : SyncW w k) :
    SyncW (delItem beq w k key).1 k := by
  unfold delItem
  match hg : getItem w k key with
  | .error e => exact h
  | .ok (.many _) => exact h
  | .ok (.one a) =>
    refine sync_remove h (Or.inr ?_)
    rw [remove_mem_ok h (getItem_one_mem h hg)]
    simp

theorem rel_delItem (beq) (w : World β) (k key) : Rel w (delItem beq w k key).1 k := by
  unfold delItem
  match getItem w k key with
  | .error e => exact Rel.refl w k
  | .ok (.many _) => exact Rel.refl w k
  | .ok (.one a) => exact rel_remove beq w k a

/-- what an item assignment does -/
theorem setItem_cases (w : World β) (k key a) :
    (∃ e, setItem w k key a = (w, .error e) ∧ e ≠ .xigtError) ∨
    ∃ i n cur, (w.obj a).cls = (w.cont k).contained ∧ setIdx key = .ok i ∧
      pyIdx (w.cont k).list.length i = some n ∧ (w.cont k).list[n]? = some cur ∧
      ∃ w₁, dropMapping w k cur = some w₁ ∧
        ((setItem w k key a).2 = .error .xigtError ∧ (setItem w k key a).1 = w₁ ∨
         (setItem w k key a) = ((createMapping w₁ k a).1.setList k ((w.cont k).list.set n a), .ok ())
          ∧ (createMapping w₁ k a).2 = .ok ()) := by
  have hdl : ∀ {w₁ : World β} {cur}, dropMapping w k cur = some w₁ →
      (w₁.cont k).list = (w.cont k).list := by
    intro w₁ cur h
    rcases dropMapping_cases w k cur with ⟨hn, e⟩ | ⟨i, b, hi, hg, e⟩ | ⟨i, hi, hg, e⟩ <;>
      rw [e] at h <;> cases h <;> simp
  have hcl : ∀ (w₁ : World β), ((createMapping w₁ k a).1.cont k).list = (w₁.cont k).list := by
    intro w₁
    rcases createMapping_cases w₁ k a with ⟨h1, h2⟩ | ⟨i, h1, h3, h2⟩ | ⟨i, b, h1, h3, h2⟩ <;>
      rw [h2] <;> simp
  have hce : ∀ (w₁ : World β), (createMapping w₁ k a).2 = .ok () ∨
      ((createMapping w₁ k a) = (w₁, .error .xigtError)) := by
    intro w₁
    rcases createMapping_cases w₁ k a with ⟨h1, h2⟩ | ⟨i, h1, h3, h2⟩ | ⟨i, b, h1, h3, h2⟩ <;>
      rw [h2] <;> simp
  have hsi : ∀ e, setIdx key = .error e → e ≠ .xigtError := by
    intro e he
    cases key with
    | int i => simp [setIdx] at he
    | slice x y => simp [setIdx] at he; subst he; decide
    | str s =>
      simp only [setIdx, pyInt] at he
      repeat' split at he
      all_goals cases he
      all_goals decide
  unfold setItem assertType
  by_cases hc : (w.obj a).cls = (w.cont k).contained
  · simp only [hc, if_true, true_and]
    match hs : setIdx key with
    | .error e => exact Or.inl ⟨e, rfl, hsi e hs⟩
    | .ok i =>
      simp only [Except.ok.injEq, exists_eq_left']
      match hp : pyIdx (w.cont k).list.length i with
      | none => exact Or.inl ⟨_, rfl, by decide⟩
      | some n =>
        simp only [Option.some.injEq, exists_eq_left']
        match hl : (w.cont k).list[n]? with
        | none => exact Or.inl ⟨_, rfl, by decide⟩
        | some cur =>
          simp only [Option.some.injEq, exists_eq_left']
          match hd : dropMapping w k cur with
          | none => exact Or.inl ⟨_, rfl, by decide⟩
          | some w₁ =>
            refine Or.inr ⟨i, n, cur, rfl, hp, hl, w₁, hd, ?_⟩
            simp only
            rcases hce w₁ with h | h
            · refine Or.inr ⟨?_, h⟩
              have e1 := hcl w₁
              match hq : createMapping w₁ k a with
              | (w₂, .error e) => rw [hq] at h; cases h
              | (w₂, .ok ()) =>
                rw [hq] at e1
                simp only at e1 ⊢
                rw [e1, hdl hd]
            · left; rw [h]; exact ⟨rfl, rfl⟩
  · exact Or.inl ⟨.xigtStructureError, by simp only [hc, if_false], by decide⟩

theorem rel_dropMapping {w w₁ : World β} {k a} (h : dropMapping w k a = some w₁) : Rel w w₁ k := by
  rcases dropMapping_cases w k a with ⟨hn, e⟩ | ⟨i, b, hi, hg, e⟩ | ⟨i, hi, hg, e⟩ <;>
    rw [e] at h <;> cases h
  · exact Rel.refl w k
  · exact rel_setDict _ _ _

theorem rel_createMapping (w : World β) (k a) : Rel w (createMapping w k a).1 k := by
  rcases createMapping_cases w k a with ⟨h1, h2⟩ | ⟨i, h1, h3, h2⟩ | ⟨i, b, h1, h3, h2⟩ <;> rw [h2]
  · exact Rel.refl w k
  · exact rel_setDict _ _ _
  · exact Rel.refl w k

theorem rel_setItem (w : World β) (k key a) : Rel w (setItem w k key a).1 k := by
  rcases setItem_cases w k key a with ⟨e, h, _⟩ | ⟨i, n, cur, _, _, _, _, w₁, hd, h | h⟩
  · rw [h]; exact Rel.refl w k
  · rw [h.2]; exact rel_dropMapping hd
  · rw [h.1]; exact ((rel_dropMapping hd).trans (rel_createMapping _ _ _)).trans (rel_setList _ _ _)

theorem sync_setItem {w : World β} {k key a} (h : SyncW w k)
    (hb : (setItem w k key a).2 ≠ .error .xigtError) : SyncW (setItem w k key a).1 k := by
  rcases setItem_cases w k key a with ⟨e, h', _⟩ | ⟨i, n, cur, _, _, _, hn, w₁, hd, h' | ⟨h', hok⟩⟩
  · rw [h']; exact h
  · exact absurd h'.1 hb
  · rw [h']
    obtain ⟨l₁, l₂, hl, hset, _⟩ := set_split (y := a) hn
    rw [hset]
    unfold SyncW at h
    rw [hl] at h
    have hr := rel_dropMapping hd
    -- index after dropping the old mapping
    have h1 : Sync (fun a => (w.obj a).id) (l₁ ++ l₂) (w₁.cont k).dict := by
      rcases dropMapping_cases w k cur with ⟨hn, e⟩ | ⟨i, b, hi, hg, e⟩ | ⟨i, hi, hg, e⟩ <;>
        rw [e] at hd <;> cases hd
      · exact h.erase.1 hn
      · simpa using h.erase.2 i hi
    rcases createMapping_cases w₁ k a with ⟨g1, g2⟩ | ⟨j, g1, g3, g2⟩ | ⟨j, b, g1, g3, g2⟩ <;>
      rw [g2] at hok ⊢
    · simp only [SyncW, setList_list, setList_dict, setList_obj, hr.ids]
      rw [hr.ids] at g1
      exact (h1.cons_none g1).perm List.perm_middle.symm
    · simp only [SyncW, setList_list, setList_dict, setList_obj, setDict_dict, setDict_obj, hr.ids]
      rw [hr.ids] at g1
      exact (h1.cons_some g1 g3).perm List.perm_middle.symm
    · cases hok

end

theorem refreshLoop_spec (k : Nat) : ∀ (l : List Nat) (w : World β) (pre : List Nat),
    Sync (fun a => (w.obj a).id) pre (w.cont k).dict →
    Rel w (refreshLoop w k l).1 k ∧ (refreshLoop w k l).1.obj = w.obj ∧
    ((refreshLoop w k l).1.cont k).list = (w.cont k).list ∧
    (((refreshLoop w k l).2 = .ok () ∧
        Sync (fun a => (w.obj a).id) (l ++ pre) ((refreshLoop w k l).1.cont k).dict) ∨
     ((refreshLoop w k l).2 = .error .xigtError ∧
        ¬ ((l ++ pre).filterMap fun a => (w.obj a).id).Nodup)) := by
  intro l
  induction l with
  | nil => intro w pre h; exact ⟨Rel.refl w k, rfl, rfl, Or.inl ⟨rfl, h⟩⟩
  | cons a as ih =>
    intro w pre h
    rw [refreshLoop]
    have key : ∀ (w' : World β), w'.obj = w.obj → (w'.cont k).list = (w.cont k).list → Rel w w' k →
        Sync (fun a => (w.obj a).id) (a :: pre) (w'.cont k).dict →
        Rel w (refreshLoop w' k as).1 k ∧ (refreshLoop w' k as).1.obj = w.obj ∧
        ((refreshLoop w' k as).1.cont k).list = (w.cont k).list ∧
        (((refreshLoop w' k as).2 = .ok () ∧
            Sync (fun a => (w.obj a).id) (a :: as ++ pre) ((refreshLoop w' k as).1.cont k).dict) ∨
         ((refreshLoop w' k as).2 = .error .xigtError ∧
            ¬ ((a :: as ++ pre).filterMap fun a => (w.obj a).id).Nodup)) := by
      intro w' ho hl hr hs
      have := ih w' (a :: pre) (by rw [ho]; exact hs)
      rw [ho, hl] at this
      obtain ⟨g1, g2, g3, g4⟩ := this
      have hp : (as ++ a :: pre).Perm (a :: as ++ pre) := List.perm_middle
      refine ⟨hr.trans g1, g2, g3, ?_⟩
      rcases g4 with ⟨g4, g5⟩ | ⟨g4, g5⟩
      · exact Or.inl ⟨g4, g5.perm hp⟩
      · exact Or.inr ⟨g4, fun hh => g5 ((hp.filterMap _).nodup_iff.2 hh)⟩
    rcases createMapping_cases w k a with ⟨h1, h2⟩ | ⟨i, h1, h3, h2⟩ | ⟨i, b, h1, h3, h2⟩ <;>
      rw [h2] <;> simp only
    · exact key w rfl rfl (Rel.refl w k) (h.cons_none h1)
    · refine key _ rfl (by simp) (rel_setDict _ _ _) ?_
      simpa using h.cons_some h1 h3
    · refine ⟨Rel.refl w k, by simp, by simp, Or.inr ⟨by simp, ?_⟩⟩
      obtain ⟨hb, hbi⟩ := (h.map i b).1 h3
      rw [List.cons_append, List.filterMap_cons, h1]
      intro hh
      refine (List.nodup_cons.1 hh).1 (List.mem_filterMap.2 ⟨b, ?_, hbi⟩)
      simp [hb]

/-- `refresh_index` on an arbitrary state -/
theorem refreshIndex_spec (w : World β) (k : Nat) :
    Rel w (refreshIndex w k).1 k ∧ (refreshIndex w k).1.obj = w.obj ∧
    ((refreshIndex w k).1.cont k).list = (w.cont k).list ∧
    (((refreshIndex w k).2 = .ok () ∧ SyncW (refreshIndex w k).1 k ∧ Distinct w k) ∨
     ((refreshIndex w k).2 = .error .xigtError ∧ ¬ Distinct w k)) := by
  have h := refreshLoop_spec k (w.cont k).list (w.setDict k []) [] (by simpa using sync_nil _)
  rw [← refreshIndex] at h
  obtain ⟨g1, g2, g3, g4⟩ := h
  simp only [setDict_obj, setDict_list, List.append_nil] at g2 g3 g4
  refine ⟨(rel_setDict _ _ _).trans g1, g2, g3, ?_⟩
  rcases g4 with ⟨g4, g5⟩ | ⟨g4, g5⟩
  · refine Or.inl ⟨g4, ?_, g5.nodup⟩
    unfold SyncW; rw [g2, g3]; exact g5
  · exact Or.inr ⟨g4, g5⟩

section
variable [Uni]

theorem rel_setBody (w : World β) (a b k) :
    Rel w (w.setObj a { w.obj a with body := b }) k := by
  refine ⟨?_, ?_, fun _ _ => rfl, rfl, rfl⟩ <;>
  · intro c; simp only [World.setObj]; split <;> simp_all

theorem rel_step (beq) (w : World β) (k op) : Rel w (step beq w k op).1 k := by
  cases op with
  | append a => exact rel_addWith (· ++ [a]) w k a
  | insert i a => exact rel_addWith (pyInsert · i a) w k a
  | extend as =>
    exact extend_induct (P := fun w w' => Rel w w' k) k (fun w => Rel.refl w k)
      (fun _ _ _ => Rel.trans) (fun w a => rel_addWith (· ++ [a]) w k a) as w
  | remove a => exact rel_remove beq w k a
  | delItem key => exact rel_delItem beq w k key
  | setItem key a => exact rel_setItem w k key a
  | clear => exact rel_setCont w k _ rfl rfl
  | refreshIndex => exact (refreshIndex_spec w k).1
  | sort key => exact rel_setList w k _
  | setBody a b => exact rel_setBody w a b k

theorem sync_step {beq : β → β → Bool} {w : World β} {k op} (hb : Benign beq w k op)
    (h : ∀ k, SyncW w k) : ∀ k', SyncW (step beq w k op).1 k' := by
  have hr := rel_step beq w k op
  intro k'
  by_cases hk : k' = k
  · subst hk
    have h := h k'
    cases op with
    | append a => exact sync_addWith (append_perm a) h
    | insert i a => exact sync_addWith (fun l => pyInsert_perm l i a) h
    | extend as =>
      exact extend_induct (P := fun w w' => SyncW w k' → SyncW w' k') k' (fun _ => id)
        (fun _ _ _ f g x => g (f x)) (fun w a => sync_addWith (append_perm a)) as w h
    | remove a => exact sync_remove h hb
    | delItem key => exact sync_delItem h
    | setItem key a => exact sync_setItem h hb
    | clear =>
      simp only [step, clear, SyncW, setCont_same, setCont_obj]; exact sync_nil _
    | refreshIndex =>
      rcases (refreshIndex_spec w k').2.2.2 with ⟨_, g, _⟩ | ⟨_, g⟩
      · exact g
      · exact absurd h.nodup g
    | sort key =>
      simp only [step, sortList, SyncW, setList_list, setList_dict, setList_obj]
      exact h.perm (sortBy_perm _ _).symm
    | setBody a b => exact h.congr (rel_setBody w a b k').ids rfl
  · exact (h k').congr hr.ids (hr.others k' hk)

theorem sync_hist (beq : β → β → Bool) : ∀ (hist : List (Nat × Op β)) (w : World β),
    BenignHist beq w hist → (∀ k, SyncW w k) → ∀ k, SyncW (runHist beq w hist) k := by
  intro hist
  induction hist with
  | nil => intro w _ h; exact h
  | cons p hist ih =>
    intro w hb h
    obtain ⟨k, op⟩ := p
    exact ih _ hb.2 (sync_step hb.1 h)

theorem sync_fresh {w : World β} (h : Fresh w) (k) : SyncW w k := by
  unfold SyncW; rw [(h k).1, (h k).2]; exact sync_nil _

theorem validIds_step {beq : β → β → Bool} {w : World β} (k op) (h : ValidIds w) :
    ValidIds (step beq w k op).1 := by
  intro a i hi
  rw [(rel_step beq w k op).ids] at hi
  exact h a i hi

theorem validIds_hist {beq : β → β → Bool} : ∀ (hist : List (Nat × Op β)) {w : World β}, ValidIds w →
    ValidIds (runHist beq w hist) := by
  intro hist
  induction hist with
  | nil => intro w h; exact h
  | cons p hist ih => intro w h; exact ih (validIds_step p.1 p.2 h)

theorem find?_unique {idf : Nat → Option Str} {l : List Nat} {a : Nat} {i : Str}
    (hn : (l.filterMap idf).Nodup) (ha : a ∈ l) (hi : idf a = some i) :
    l.find? (fun a => decide (idf a = some i)) = some a := by
  induction l with
  | nil => cases ha
  | cons c cs ih =>
    rw [List.find?_cons]
    rcases List.mem_cons.1 ha with rfl | ha
    · simp [hi]
    · have : idf c ≠ some i := by
        intro hc
        rw [List.filterMap_cons, hc] at hn
        exact (List.nodup_cons.1 hn).1 (List.mem_filterMap.2 ⟨a, ha, hi⟩)
      simp only [this, decide_false]
      apply ih _ ha
      rw [List.filterMap_cons] at hn
      split at hn
      · exact hn
      · exact (List.nodup_cons.1 hn).2

theorem exact_of_sync {w : World β} {k} (h : SyncW w k) : Exact w k := by
  intro i hi
  unfold getItem lookupSpec
  simp only
  cases hg : Dict.get? (w.cont k).dict i with
  | some a =>
    obtain ⟨h1, h2⟩ := (h.map i a).1 hg
    rw [find?_unique h.nodup h1 h2]
  | none =>
    rw [pyInt_letter hi]
    have : (w.cont k).list.find? (fun a => decide ((w.obj a).id = some i)) = none := by
      rw [List.find?_eq_none]
      intro a ha
      simp only [decide_eq_true_eq]
      intro he
      rw [(h.map i a).2 ⟨ha, he⟩] at hg; cases hg
    rw [this]

end

end Xigt
