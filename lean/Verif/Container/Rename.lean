import Verif.Container.Props
/-
C131: giving an object that is in a container another ID (mixins.py:209-217); and C04 for all
histories: which container is the parent of an object.
-/
set_option linter.unusedSectionVars false

namespace Xigt
variable {β : Type}

/-! ### Model -/

section
variable [Uni]

/-- mixins.py:213-217: `x.id = value`; containers are not told -/
def setId (w : World β) (a : Nat) (v : Option Str) : Out β :=
  match v with
  | none => (w.setObj a { w.obj a with id := none }, .ok ())
  | some i => if idAccepted i then (w.setObj a { w.obj a with id := some i }, .ok ()) else (w, .error .valueError)

/-! ### C131 -/

/-- C131, exactly what happens: an invalid ID is a ValueError and changes nothing; otherwise the ID
is set, and all containers have the same contents and answer every subscription as before. -/
theorem C131_same (w : World β) (a : Nat) (v : Option Str) :
    ((∃ i, v = some i ∧ idAccepted i = false) ∧ setId w a v = (w, .error .valueError)) ∨
    ((setId w a v).2 = .ok () ∧ ((setId w a v).1.obj a).id = v ∧ (∀ b, b ≠ a → (setId w a v).1.obj b = w.obj b) ∧
      ∀ k, SameView w (setId w a v).1 k) := by
  have same : ∀ u, ((w.setObj a { w.obj a with id := u }).obj a).id = u ∧ (∀ b, b ≠ a → (w.setObj a { w.obj a with id := u }).obj b = w.obj b) ∧
      ∀ k, SameView w (w.setObj a { w.obj a with id := u }) k := by
    intro u
    refine ⟨by simp [World.setObj], fun b hb => by simp [World.setObj, hb], fun k => ⟨rfl, fun key => ?_⟩⟩
    cases key <;> rfl
  cases v with
  | none => exact .inr ⟨rfl, same none⟩
  | some i =>
    cases h : idAccepted i with
    | false => exact .inl ⟨⟨i, rfl, h⟩, by simp [setId, h]⟩
    | true =>
      have : setId w a (some i) = (w.setObj a { w.obj a with id := some i }, .ok ()) := by simp [setId, h]
      rw [this]
      exact .inr ⟨rfl, same (some i)⟩

/-- the object is once in the container -/
def Once (w : World β) (k a : Nat) (l₁ l₂ : List Nat) : Prop := (w.cont k).list = l₁ ++ a :: l₂ ∧ a ∉ l₁ ∧ a ∉ l₂

/-- C131 with `refresh_index()` after the renaming, in any state in which no two objects of the
container have the same ID (C02): an object that is in the container gets a valid ID that no object
of the container has.  Then it is found under it and not under the one it had before, the others
are found, and it can be removed. -/
theorem C131_partial (beq : β → β → Bool) (w : World β) (hv : ValidIds w) (k a : Nat) (hd : Distinct w k) (l₁ l₂ : List Nat)
    (ha : Once w k a l₁ l₂) (v : Str) (hok : idAccepted v = true) (hfree : v ∉ idList w k) :
    ∃ w₁ w₂ w₃, setId w a (some v) = (w₁, .ok ()) ∧ refreshIndex w₁ k = (w₂, .ok ()) ∧ (w₂.cont k).list = (w.cont k).list ∧
      getItem w₂ k (.str v) = .ok (.one a) ∧ (∀ i, (w.obj a).id = some i → getItem w₂ k (.str i) = .error .keyError) ∧
      (∀ b ∈ l₁ ++ l₂, ∀ i, (w.obj b).id = some i → getItem w₂ k (.str i) = .ok (.one b)) ∧
      remove beq w₂ k a = (w₃, .ok ()) ∧ (w₃.cont k).list = l₁ ++ l₂ := by
  obtain ⟨hl, n1, n2⟩ := ha
  have e1 : setId w a (some v) = (w.setObj a { w.obj a with id := some v }, .ok ()) := by simp [setId, hok]
  have o1 : ((w.setObj a { w.obj a with id := some v }).obj a).id = some v := by simp [World.setObj]
  have o2 : ∀ b, b ≠ a → (w.setObj a { w.obj a with id := some v }).obj b = w.obj b := fun b hb => by simp [World.setObj, hb]
  have oc : (w.setObj a { w.obj a with id := some v }).cont = w.cont := rfl
  generalize w.setObj a { w.obj a with id := some v } = w₁ at e1 o1 o2 oc
  have f1 : ∀ l : List Nat, a ∉ l → l.filterMap (fun b => (w₁.obj b).id) = l.filterMap (fun b => (w.obj b).id) := by
    intro l hl
    induction l with
    | nil => rfl
    | cons b l ih =>
      rw [List.filterMap_cons, List.filterMap_cons, ih (fun h => hl (List.mem_cons_of_mem _ h)), o2 b (fun h => hl (by simp [h]))]
  have hd' : Distinct w₁ k := by
    unfold Distinct at hd ⊢; unfold idList at hd hfree ⊢
    rw [hl, List.filterMap_append, List.filterMap_cons] at hd hfree
    rw [oc, hl, List.filterMap_append, List.filterMap_cons, o1, f1 _ n1, f1 _ n2]
    simp only
    rw [List.perm_middle.nodup_iff, List.nodup_cons]
    cases hi : (w.obj a).id with
    | none =>
      rw [hi] at hd hfree
      exact ⟨hfree, hd⟩
    | some i =>
      rw [hi] at hd hfree
      simp only at hd hfree
      rw [List.perm_middle.nodup_iff, List.nodup_cons] at hd
      refine ⟨fun h => hfree ?_, hd.2⟩
      simp only [List.mem_append, List.mem_cons] at h ⊢
      rcases h with h | h
      · exact .inl h
      · exact .inr (.inr h)
  obtain ⟨-, r2, r3, r4, r5⟩ := C06_refresh w₁ k
  have r2 := r2.2 hd'
  obtain ⟨r5, r6⟩ := r5 hd'
  have hsync : SyncW (refreshIndex w₁ k).1 k := by
    obtain ⟨_, _, _, g4⟩ := refreshIndex_spec w₁ k
    rcases g4 with ⟨_, h2, _⟩ | ⟨_, h3⟩
    · exact h2
    · exact absurd hd' h3
  have hr : refreshIndex w₁ k = ((refreshIndex w₁ k).1, .ok ()) := by rw [← r2]
  generalize (refreshIndex w₁ k).1 = w₂ at *
  rw [oc] at r3
  have hmem : a ∈ (w₂.cont k).list := by rw [r3, hl]; simp
  have hrem := remove_mem_ok (beq := beq) hsync hmem
  refine ⟨w₁, w₂, (remove beq w₂ k a).1, e1, hr, r3, ?_, ?_, ?_, by rw [← hrem], ?_⟩
  · exact r6 a v (by rw [oc, hl]; simp) o1
  · intro i hi
    rw [r5 i (hv a i hi), lookupSpec]
    have : (w₂.cont k).list.find? (fun b => decide ((w₂.obj b).id = some i)) = none := by
      rw [List.find?_eq_none]
      intro b hb
      simp only [decide_eq_true_eq]
      rw [r4]
      by_cases hba : b = a
      · subst hba
        rw [o1]
        intro h
        cases h
        refine hfree ?_
        exact List.mem_filterMap.2 ⟨b, by rw [hl]; simp, hi⟩
      · rw [o2 b hba]
        intro hbi
        unfold Distinct idList at hd
        rw [hl, List.filterMap_append, List.filterMap_cons, hi] at hd
        simp only at hd
        rw [List.perm_middle.nodup_iff, List.nodup_cons] at hd
        refine hd.1 ?_
        rw [r3, hl] at hb
        simp only [List.mem_append, List.mem_cons, hba, false_or] at hb
        rw [← List.filterMap_append]
        exact List.mem_filterMap.2 ⟨b, by simpa using hb, hbi⟩
    rw [this]
  · intro b hb i hi
    refine r6 b i ?_ ?_
    · rw [oc, hl]
      simp only [List.mem_append, List.mem_cons] at hb ⊢
      rcases hb with h | h
      · exact .inl h
      · exact .inr (.inr h)
    · rw [o2 b ?_]
      · exact hi
      · rintro rfl
        simp only [List.mem_append] at hb
        rcases hb with h | h
        · exact n1 h
        · exact n2 h
  · unfold remove at hrem ⊢
    have key : ∀ x, x ∈ l₁ → w₂.eqv beq x a = false := by
      intro x hx
      have hxa : x ≠ a := fun h => n1 (h ▸ hx)
      have : ¬ (w₂.obj x).id = (w₂.obj a).id := by
        rw [r4, o1, o2 x hxa]
        intro h
        exact hfree (List.mem_filterMap.2 ⟨x, by rw [hl]; simp [hx], h⟩)
      simp [World.eqv, hxa, this]
    have gen : ∀ (p : Nat → Bool) l₁, (∀ x ∈ l₁, p x = false) → p a = true → removeFirst p (l₁ ++ a :: l₂) = some (l₁ ++ l₂) := by
      intro p l₁ h ha
      induction l₁ with
      | nil => simp [removeFirst, ha]
      | cons y ys ih =>
        rw [List.cons_append, removeFirst, h y (by simp), ih fun x hx => h x (by simp [hx])]
        rfl
    rcases dropMapping_cases w₂ k a with ⟨_, e⟩ | ⟨i, b, _, _, e⟩ | ⟨i, _, _, e⟩ <;> rw [e] at hrem ⊢ <;> simp only at hrem ⊢
    · rw [r3, hl, gen _ l₁ key (by simp [World.eqv])]
      simp
    · simp only [eqv_setDict, setDict_list]
      rw [r3, hl, gen _ l₁ key (by simp [World.eqv])]
      simp
    · cases hrem

/-! ### C04 in all histories -/

/-- the call on container `k` goes as far as making it the parent of `x`: an append or insertion of
an object of the right class, whether or not its ID is then found to be taken -/
def Reaches (w : World β) (k : Nat) : Op β → Nat → Prop
  | .append a, x => x = a ∧ (w.obj x).cls = (w.cont k).contained
  | .insert _ a, x => x = a ∧ (w.obj x).cls = (w.cont k).contained
  | .extend as, x => ∃ pre post, as = pre ++ x :: post ∧ (extend w k pre).2 = .ok () ∧ (w.obj x).cls = (w.cont k).contained
  | _, _ => False

theorem addWith_parent (f : List Nat → List Nat) (w : World β) (k a x : Nat) :
    ((x = a ∧ (w.obj x).cls = (w.cont k).contained) → ((addWith f w k a).1.obj x).parent = some (w.cont k).owner) ∧
    (¬ (x = a ∧ (w.obj x).cls = (w.cont k).contained) → ((addWith f w k a).1.obj x).parent = (w.obj x).parent) := by
  have sp : ∀ x, ((setParent w k a).obj x).parent = if x = a then some (w.cont k).owner else (w.obj x).parent := by
    intro x
    simp only [setParent, World.setObj]
    split <;> rfl
  have h : ((w.obj a).cls ≠ (w.cont k).contained ∧ (addWith f w k a).1 = w) ∨
      ((w.obj a).cls = (w.cont k).contained ∧ ∀ x, ((addWith f w k a).1.obj x) = (setParent w k a).obj x) := by
    rcases addWith_cases f w k a with ⟨h, e⟩ | ⟨h, _, e⟩ | ⟨h, _, e⟩ | ⟨h, j, h1, h2, e⟩
    · exact .inl ⟨h, by rw [e]⟩
    · exact .inr ⟨h, by rw [e]; intro x; rfl⟩
    · exact .inr ⟨h, by rw [e]; intro x; rfl⟩
    · exact .inr ⟨h, by rw [e]; intro x; rfl⟩
  rcases h with ⟨h, e⟩ | ⟨h, e⟩
  · rw [e]
    exact ⟨fun ⟨h1, h2⟩ => absurd (h1 ▸ h2) h, fun _ => rfl⟩
  · rw [e, sp]
    constructor
    · intro ⟨h1, _⟩; rw [if_pos h1]
    · intro hn; rw [if_neg]; intro h1; exact hn ⟨h1, h1 ▸ h⟩

theorem extend_reaches_parent (k x : Nat) : ∀ (as : List Nat) (w : World β),
    (Reaches w k (.extend as) x → ((extend w k as).1.obj x).parent = some (w.cont k).owner) ∧
    (¬ Reaches w k (.extend as) x → ((extend w k as).1.obj x).parent = (w.obj x).parent) := by
  intro as
  induction as with
  | nil =>
    intro w
    refine ⟨?_, fun _ => rfl⟩
    rintro ⟨pre, post, h, -⟩
    simp at h
  | cons a as ih =>
    intro w
    have ha := addWith_parent (· ++ [a]) w k a x
    have hr : Rel w (append w k a).1 k := rel_addWith (· ++ [a]) w k a
    change (_ → ((append w k a).1.obj x).parent = _) ∧ (_ → ((append w k a).1.obj x).parent = _) at ha
    cases h : append w k a with
    | mk w' r =>
      rw [h] at ha hr
      cases r with
      | error e =>
        have he : extend w k (a :: as) = (w', .error e) := by simp only [extend, h]
        rw [he]
        constructor
        · rintro ⟨pre, post, h1, h2, h3⟩
          cases pre with
          | nil => cases h1; exact ha.1 ⟨rfl, h3⟩
          | cons b pre =>
            cases h1
            simp only [extend, h] at h2
            cases h2
        · intro hn
          refine ha.2 fun ⟨h1, h2⟩ => hn ?_
          subst h1
          exact ⟨[], as, rfl, rfl, h2⟩
      | ok u =>
        have he : extend w k (a :: as) = extend w' k as := by simp only [extend, h]
        have hlift : Reaches w k (.extend (a :: as)) x ↔ (x = a ∧ (w.obj x).cls = (w.cont k).contained) ∨ Reaches w' k (.extend as) x := by
          constructor
          · rintro ⟨pre, post, h1, h2, h3⟩
            cases pre with
            | nil => cases h1; exact .inl ⟨rfl, h3⟩
            | cons b pre =>
              cases h1
              refine .inr ⟨pre, post, rfl, ?_, ?_⟩
              · simpa only [extend, h] using h2
              · rw [hr.cls, hr.contained]; exact h3
          · rintro (⟨rfl, h3⟩ | ⟨pre, post, h1, h2, h3⟩)
            · exact ⟨[], as, rfl, rfl, h3⟩
            · refine ⟨a :: pre, post, by rw [h1]; rfl, ?_, ?_⟩
              · simpa only [extend, h] using h2
              · rw [← hr.cls, ← hr.contained]; exact h3
        rw [he, hlift]
        have := ih w'
        rw [hr.owner] at this
        by_cases h1 : Reaches w' k (.extend as) x
        · exact ⟨fun _ => this.1 h1, fun hn => absurd (.inr h1) hn⟩
        · rw [this.2 h1]
          exact ⟨fun h2 => ha.1 (h2.resolve_right h1), fun hn => ha.2 fun h2 => hn (.inl h2)⟩

/-- C04, one call: it makes the owner of its container the parent of the objects it reaches, and
leaves the parents of all others as they are. -/
theorem C04_call (beq : β → β → Bool) (w : World β) (k : Nat) (op : Op β) (x : Nat) :
    (Reaches w k op x → ((step beq w k op).1.obj x).parent = some (w.cont k).owner) ∧
    (¬ Reaches w k op x → ((step beq w k op).1.obj x).parent = (w.obj x).parent) := by
  have drop : ∀ {k a} {w w' : World β}, dropMapping w k a = some w' → w'.obj = w.obj := by
    intro k a w w' h
    unfold dropMapping at h
    split at h
    · cases h; rfl
    · split at h
      · cases h; rfl
      · cases h
  have crt : ∀ (w : World β) k a, (createMapping w k a).1.obj = w.obj := by
    intro w k a
    unfold createMapping
    split
    · rfl
    · split <;> rfl
  have rem : ∀ a, (remove beq w k a).1.obj = w.obj := by
    intro a
    unfold remove
    split
    · rfl
    · rename_i h
      split
      · exact drop h
      · simp only [setList_obj]; exact drop h
  have keep : (step beq w k op).1.obj = w.obj → (∀ x, ¬ Reaches w k op x) →
      (Reaches w k op x → ((step beq w k op).1.obj x).parent = some (w.cont k).owner) ∧
      (¬ Reaches w k op x → ((step beq w k op).1.obj x).parent = (w.obj x).parent) :=
    fun h hn => ⟨fun hr => absurd hr (hn x), fun _ => by rw [h]⟩
  cases op with
  | append a => exact addWith_parent (· ++ [a]) w k a x
  | insert i a => exact addWith_parent (pyInsert · i a) w k a x
  | extend as => exact extend_reaches_parent k x as w
  | remove a => exact keep (rem a) fun _ h => h
  | delItem key =>
    refine keep ?_ fun _ h => h
    simp only [step, delItem]
    split
    · rfl
    · rfl
    · exact rem _
  | setItem key a =>
    refine keep ?_ fun _ h => h
    simp only [step]
    rcases setItem_cases w k key a with ⟨e, h, _⟩ | ⟨i, n, cur, _, _, _, _, w₁, hd, h | h⟩
    · rw [h]
    · rw [h.2]; exact drop hd
    · rw [h.1]; simp only [setList_obj, crt]; exact drop hd
  | clear => exact keep rfl fun _ h => h
  | refreshIndex => exact keep (C06_refresh w k).2.2.2.1 fun _ h => h
  | sort key => exact keep rfl fun _ h => h
  | setBody a b =>
    refine ⟨fun h => h.elim, fun _ => ?_⟩
    simp only [step, World.setObj]
    split
    · rename_i h; subst h; rfl
    · rfl

/-- some call of the history reaches the object -/
def ReachedIn (beq : β → β → Bool) (w : World β) : List (Nat × Op β) → Nat → Prop
  | [], _ => False
  | (k, op) :: h, x => Reaches w k op x ∨ ReachedIn beq (step beq w k op).1 h x

theorem unreached_parent (beq : β → β → Bool) (x : Nat) : ∀ (hist : List (Nat × Op β)) (w : World β),
    ¬ ReachedIn beq w hist x → ((runHist beq w hist).obj x).parent = (w.obj x).parent := by
  intro hist
  induction hist with
  | nil => intro w _; rfl
  | cons p hist ih =>
    intro w h
    obtain ⟨k, op⟩ := p
    rw [runHist, ih _ fun h' => h (.inr h'), (C04_call beq w k op x).2 fun h' => h (.inl h')]

theorem runHist_append (beq : β → β → Bool) : ∀ (h₁ h₂ : List (Nat × Op β)) (w : World β),
    runHist beq w (h₁ ++ h₂) = runHist beq (runHist beq w h₁) h₂ := by
  intro h₁
  induction h₁ with
  | nil => intro h₂ w; rfl
  | cons p h₁ ih => intro h₂ w; obtain ⟨k, op⟩ := p; exact ih h₂ _

/-- C04 for all histories, from all states: the parent of an object is the owner of the container of
the last call that reached it, and if none did, the parent it had. -/
theorem C04_last (beq : β → β → Bool) (w : World β) (x : Nat) :
    (∀ hist, ¬ ReachedIn beq w hist x → ((runHist beq w hist).obj x).parent = (w.obj x).parent) ∧
    ∀ h₁ k op h₂, Reaches (runHist beq w h₁) k op x → ¬ ReachedIn beq (runHist beq w (h₁ ++ [(k, op)])) h₂ x →
      ((runHist beq w (h₁ ++ (k, op) :: h₂)).obj x).parent = some ((runHist beq w h₁).cont k).owner := by
  refine ⟨fun hist => unreached_parent beq x hist w, fun h₁ k op h₂ hr hn => ?_⟩
  rw [runHist_append] at hn ⊢
  exact (unreached_parent beq x h₂ _ hn).trans ((C04_call beq _ k op x).1 hr)

end

/-! ### Cases -/

section
attribute [local instance] asciiUni

/-- C131 is false without `refresh_index()`: the object is found under its old ID only, and cannot
be removed. -/
theorem C131_refuted : ∃ (w : World Nat) (hist : List (Nat × Op Nat)) (a : Nat) (v : Str), Fresh w ∧ BenignHist (· == ·) w hist ∧
    ((runHist (· == ·) w hist).cont 0).list = [a] ∧ (setId (runHist (· == ·) w hist) a (some v)).2 = .ok () ∧
    getItem (setId (runHist (· == ·) w hist) a (some v)).1 0 (.str v) = .error .keyError ∧
    getItem (setId (runHist (· == ·) w hist) a (some v)).1 0 (.str ['a']) = .ok (.one a) ∧
    (remove (· == ·) (setId (runHist (· == ·) w hist) a (some v)).1 0 a).2 = .error .keyError :=
  ⟨exWorld, [(0, .append 0)], 0, ['c'], exWorld_fresh, ⟨trivial, trivial⟩, by decide +kernel, by decide +kernel, by decide +kernel, by decide +kernel,
    by decide +kernel⟩

/-- C131 is false also of IDs that are taken: nothing keeps two objects of a container from having
the same ID, and if one of them is then removed, the other is not found any more. -/
theorem C131_refuted_taken : ∃ (w : World Nat) (hist : List (Nat × Op Nat)), Fresh w ∧ BenignHist (· == ·) w hist ∧
    ((runHist (· == ·) w hist).cont 0).list = [0, 2] ∧ (setId (runHist (· == ·) w hist) 2 (some ['a'])).2 = .ok () ∧
    ¬ Distinct (setId (runHist (· == ·) w hist) 2 (some ['a'])).1 0 ∧
    ((remove (· == ·) (setId (runHist (· == ·) w hist) 2 (some ['a'])).1 0 2).1.cont 0).list = [0] ∧
    getItem (remove (· == ·) (setId (runHist (· == ·) w hist) 2 (some ['a'])).1 0 2).1 0 (.str ['a']) = .error .keyError := by
  refine ⟨exWorld, [(0, .append 0), (0, .append 2)], exWorld_fresh, ⟨trivial, trivial, trivial⟩, by decide +kernel, by decide +kernel, ?_, by decide +kernel,
    by decide +kernel⟩
  unfold Distinct
  decide +kernel

/-- a call that is rejected reaches its object; one of the wrong class does not -/
example : Reaches (runHist (· == ·) exWorld [(1, .append 0)]) 1 (.append 1) 1 ∧
    ¬ Reaches exWorld 0 (.append 5) 5 ∧ Reaches exWorld 0 (.extend [0, 3, 1, 2]) 1 ∧ ¬ Reaches exWorld 0 (.extend [0, 3, 1, 2]) 2 := by
  refine ⟨⟨rfl, by decide +kernel⟩, fun h => absurd h.2 (by decide +kernel), ⟨[0, 3], [2], rfl, by decide +kernel, by decide +kernel⟩, ?_⟩
  rintro ⟨pre, post, h1, h2, -⟩
  have : pre = [0, 3, 1] := by
    have hl : pre ++ 2 :: post = [0, 3, 1, 2] := h1.symm
    match pre, hl with
    | [], hl => cases hl
    | [_], hl => cases hl
    | [_, _], hl => cases hl
    | [_, _, _], hl => cases hl; rfl
    | _ :: _ :: _ :: _ :: [], hl => cases hl
    | _ :: _ :: _ :: _ :: _ :: _, hl => cases hl
  subst this
  exact absurd h2 (by decide +kernel)

/-- the hypotheses of `C131_partial` are met -/
example : ValidIds exWorld ∧ Distinct (runHist (· == ·) exWorld [(0, .append 0), (0, .append 2)]) 0 ∧
    Once (runHist (· == ·) exWorld [(0, .append 0), (0, .append 2)]) 0 2 [0] [] ∧ idAccepted ['c'] = true ∧
    ['c'] ∉ idList (runHist (· == ·) exWorld [(0, .append 0), (0, .append 2)]) 0 := by
  refine ⟨?_, ?_, ⟨by decide +kernel, by decide, by decide⟩, by decide +kernel, by decide +kernel⟩
  · intro a i h
    simp only [exWorld] at h
    repeat' split at h
    all_goals (first | (cases h; decide +kernel) | cases h)
  · unfold Distinct
    decide +kernel
end

end Xigt
