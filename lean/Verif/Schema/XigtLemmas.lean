import Verif.Schema.Xigt
import Verif.Schema.Wrote
/- What the patterns of xigt.rnc and its extensions match. -/

set_option linter.unusedSectionVars false

namespace Xigt.Rng

variable {env : Str → Pat}

/-! ### Patterns with the same matches -/

def Same (env : Str → Pat) (p q : Pat) : Prop := ∀ a ns, Matches env p a ns ↔ Matches env q a ns

namespace Same
theorem refl (p : Pat) : Same env p p := fun _ _ => .rfl
theorem symm {p q : Pat} (h : Same env p q) : Same env q p := fun a ns => (h a ns).symm
theorem trans {p q r : Pat} (h : Same env p q) (h' : Same env q r) : Same env p r := fun a ns => (h a ns).trans (h' a ns)

theorem group {p p' q q' : Pat} (hp : Same env p p') (hq : Same env q q') : Same env (.group p q) (.group p' q') := by
  intro a ns
  simp only [group_iff, hp _ _, hq _ _]

theorem right {p q q' : Pat} (hq : Same env q q') : Same env (.group p q) (.group p q') := (refl p).group hq

theorem choice {p p' q q' : Pat} (hp : Same env p p') (hq : Same env q q') : Same env (.choice p q) (.choice p' q') := by
  intro a ns
  simp only [choice_iff, hp _ _, hq _ _]

theorem assoc {p q r : Pat} : Same env (.group (.group p q) r) (.group p (.group q r)) := fun _ _ => group_assoc

theorem distrib {p q r : Pat} : Same env (.group (.choice p q) r) (.choice (.group p r) (.group q r)) := by
  intro a ns
  rw [group_choice, choice_iff]

/-- nothing is left out -/
theorem empty_left {p : Pat} : Same env (.group .empty p) p := by
  intro a ns
  rw [group_iff]
  constructor
  · rintro ⟨a₁, a₂, n₁, n₂, h1, rfl, h2, h3⟩
    obtain ⟨rfl, rfl⟩ := empty_iff.1 h2
    exact h3.perm h1.symm
  · intro h
    exact ⟨[], a, [], ns, .refl _, rfl, .empty, h⟩

theorem not_left {p : Pat} : Same env (.choice .notAllowed p) p := by
  intro a ns
  rw [choice_iff]
  exact ⟨fun h => h.elim (fun h => absurd h notAllowed_iff) id, .inr⟩

theorem distrib_left {p q r : Pat} : Same env (.group p (.choice q r)) (.choice (.group p q) (.group p r)) := by
  intro a ns
  rw [choice_iff]
  simp only [group_iff, choice_iff]
  constructor
  · rintro ⟨a₁, a₂, n₁, n₂, h1, h2, h3, h4 | h4⟩
    · exact .inl ⟨a₁, a₂, n₁, n₂, h1, h2, h3, h4⟩
    · exact .inr ⟨a₁, a₂, n₁, n₂, h1, h2, h3, h4⟩
  · rintro (⟨a₁, a₂, n₁, n₂, h1, h2, h3, h4⟩ | ⟨a₁, a₂, n₁, n₂, h1, h2, h3, h4⟩)
    · exact ⟨a₁, a₂, n₁, n₂, h1, h2, h3, .inl h4⟩
    · exact ⟨a₁, a₂, n₁, n₂, h1, h2, h3, .inr h4⟩

theorem plus {p q : Pat} (h : Same env p q) : Same env (.plus p) (.plus q) := by
  have key : ∀ {p q : Pat}, Same env p q → ∀ a ns, Matches env (.plus p) a ns → Matches env (.plus q) a ns := by
    intro p q h a ns hm
    generalize hr : Pat.plus p = r at hm
    induction hm with
    | one h1 => cases hr; exact .one ((h _ _).1 h1)
    | more h1 h2 _ _ ih => cases hr; exact .more h1 ((h _ _).1 h2) (ih rfl)
    | _ => cases hr
  exact fun a ns => ⟨key h a ns, key h.symm a ns⟩

theorem star {p q : Pat} (h : Same env p q) : Same env (.star p) (.star q) := h.plus.choice (refl _)

theorem content {p q : Pat} (h : Same env p q) {a ns} : Content env p a ns ↔ Content env q a ns := by
  simp only [Content, h _ _]

end Same

theorem plus_append {p : Pat} {a a₁ a₂ n₁ n₂} (ha : a.Perm (a₁ ++ a₂)) (h1 : Matches env (.plus p) a₁ n₁) (h2 : Matches env (.plus p) a₂ n₂) :
    Matches env (.plus p) a (n₁ ++ n₂) := by
  generalize hr : Pat.plus p = r at h1
  induction h1 generalizing a with
  | one h => cases hr; exact .more ha h h2
  | @more _ b b₁ b₂ m₁ m₂ g1 g2 g3 _ ih =>
    cases hr
    rw [List.append_assoc]
    refine .more (a₁ := b₁) (a₂ := b₂ ++ a₂) (ha.trans ?_) g2 (ih (.refl _) rfl)
    rw [← List.append_assoc]
    exact g1.append_right _
  | _ => cases hr

theorem star_append {p : Pat} {a a₁ a₂ n₁ n₂} (ha : a.Perm (a₁ ++ a₂)) (h1 : Matches env (.star p) a₁ n₁) (h2 : Matches env (.star p) a₂ n₂) :
    Matches env (.star p) a (n₁ ++ n₂) := by
  rcases star_iff.1 h1 with g1 | ⟨rfl, rfl⟩
  · rcases star_iff.1 h2 with g2 | ⟨rfl, rfl⟩
    · exact star_iff.2 (.inl (plus_append ha g1 g2))
    · rw [List.append_nil] at ha ⊢
      exact h1.perm ha.symm
  · exact h2.perm ha.symm

theorem plus_mono {p q : Pat} (h : ∀ a ns, Matches env p a ns → Matches env (.plus q) a ns) {a ns} (hm : Matches env (.plus p) a ns) :
    Matches env (.plus q) a ns := by
  generalize hr : Pat.plus p = r at hm
  induction hm with
  | one h1 => cases hr; exact h _ _ h1
  | more h1 h2 _ _ ih => cases hr; exact plus_append h1 (h _ _ h2) (ih rfl)
  | _ => cases hr

/-- a star within a star -/
theorem star_absorb {p q : Pat} : Same env (.star (.choice (.star p) q)) (.star (.choice p q)) := by
  intro a ns
  constructor
  · intro h
    rcases star_iff.1 h with hm | ⟨rfl, rfl⟩
    · clear h
      generalize hr : Pat.plus (.choice (.star p) q) = r at hm
      have one : ∀ a ns, Matches env (.choice (.star p) q) a ns → Matches env (.star (.choice p q)) a ns := by
        intro a ns h
        rcases choice_iff.1 h with h | h
        · rcases star_iff.1 h with h | h
          · exact star_iff.2 (.inl (plus_mono (fun a ns h => .one (.left h)) h))
          · exact star_iff.2 (.inr h)
        · exact star_iff.2 (.inl (.one (.right h)))
      induction hm with
      | one h => cases hr; exact one _ _ h
      | more h1 h2 _ _ ih => cases hr; exact star_append h1 (one _ _ h2) (ih rfl)
      | _ => cases hr
    · exact star_iff.2 (.inr ⟨rfl, rfl⟩)
  · intro h
    rcases star_iff.1 h with h | h
    · refine star_iff.2 (.inl (plus_mono (fun a ns h => .one ?_) h))
      rcases choice_iff.1 h with h | h
      · exact .left (star_iff.2 (.inl (.one h)))
      · exact .right h
    · exact star_iff.2 (.inr h)

/-! ### Elements -/

theorem elemLike_not : ElemLike env .notAllowed where
  noAttr _ _ h := nomatch h
  inv _ h := nomatch h
  wrap _ _ _ _ _ h := nomatch h

theorem ElemLike.choice {p q : Pat} (hp : ElemLike env p) (hq : ElemLike env q) : ElemLike env (.choice p q) where
  noAttr a ns h := (choice_iff.1 h).elim (hp.noAttr a ns) (hq.noAttr a ns)
  inv ns h := by
    rcases choice_iff.1 h with h | h
    · obtain ⟨w₁, n, w₂, h1, h2, h3, h4, h5⟩ := hp.inv ns h
      exact ⟨w₁, n, w₂, h1, h2, h3, h4, .left h5⟩
    · obtain ⟨w₁, n, w₂, h1, h2, h3, h4, h5⟩ := hq.inv ns h
      exact ⟨w₁, n, w₂, h1, h2, h3, h4, .right h5⟩
  wrap w₁ n w₂ h1 h2 h := by
    rcases choice_iff.1 h with h | h
    · exact .left (hp.wrap w₁ n w₂ h1 h2 h)
    · exact .right (hq.wrap w₁ n w₂ h1 h2 h)

theorem shuffle_left_nil {α : Type} : ∀ {l : List α}, Shuffle [] l l
  | [] => .nil
  | _ :: _ => .right shuffle_left_nil

theorem shuffle_right_nil {α : Type} : ∀ {l : List α}, Shuffle l [] l
  | [] => .nil
  | _ :: _ => .left shuffle_right_nil

theorem shuffle_mem {α : Type} {a b c : List α} (h : Shuffle a b c) (x : α) : x ∈ c ↔ x ∈ a ∨ x ∈ b := by
  induction h with
  | nil => simp
  | left _ ih => simp [ih, or_assoc]
  | right _ ih => simp only [List.mem_cons, ih]; exact or_left_comm

theorem shuffle_append {α : Type} {a b c a' b' c' : List α} (h : Shuffle a b c) (h' : Shuffle a' b' c') : Shuffle (a ++ a') (b ++ b') (c ++ c') := by
  induction h with
  | nil => exact h'
  | left _ ih => exact .left ih
  | right _ ih => exact .right ih

/-- `mixed { E }` with one element: any text around it -/
theorem mixed_elem {E : Pat} (hE : ElemLike env E) {ns} (h : Matches env (.mixed E) [] ns) : elems ns ≠ [] ∧ ∀ n ∈ elems ns, Matches env E [] [n] := by
  cases h with
  | interleave h1 h2 h3 h4 =>
    obtain ⟨e1, ht⟩ := text_iff.1 h3
    have e2 := hE.noAttr _ _ h4
    subst e2
    obtain ⟨w₁, n, w₂, rfl, g1, g2, g3, g4⟩ := hE.inv _ h4
    constructor
    · intro he
      have hn : n ∈ elems ns := List.mem_filter.2 ⟨(shuffle_mem h2 n).2 (.inr (by simp)), g3⟩
      rw [he] at hn; cases hn
    · intro m hm
      obtain ⟨hm1, hm2⟩ := List.mem_filter.1 hm
      rcases (shuffle_mem h2 m).1 hm1 with h | h
      · obtain ⟨s, rfl⟩ := ht m h; cases hm2
      · rcases List.mem_append.1 h with h | h
        · obtain ⟨s, rfl, -⟩ := g1 m h; cases hm2
        · rcases List.mem_cons.1 h with rfl | h
          · exact g4
          · obtain ⟨s, rfl, -⟩ := g2 m h; cases hm2

theorem mixed_noAttr {E : Pat} (hE : ElemLike env E) : NoAttr env (.mixed E) := by
  intro a ns h
  cases h with
  | interleave h1 h2 h3 h4 =>
    obtain ⟨rfl, -⟩ := text_iff.1 h3
    rw [hE.noAttr _ _ h4] at h1
    exact List.perm_nil.1 h1

theorem split_elem : ∀ (ns : List Node), elems ns ≠ [] → ∃ w n rest, ns = w ++ n :: rest ∧ (∀ x ∈ w, ∃ s, x = .text s) ∧ n.isElem = true := by
  intro ns
  induction ns with
  | nil => intro h; exact absurd rfl h
  | cons x ns ih =>
    intro h
    cases x with
    | elem tag a ks => exact ⟨[], _, ns, rfl, by simp, rfl⟩
    | text s =>
      obtain ⟨w, n, rest, rfl, h1, h2⟩ := ih (by simpa [elems, List.filter_cons, Node.isElem] using h)
      refine ⟨.text s :: w, n, rest, rfl, ?_, h2⟩
      intro m hm
      rcases List.mem_cons.1 hm with rfl | hm
      · exact ⟨s, rfl⟩
      · exact h1 m hm

theorem mixed_one {E : Pat} {w u : List Node} {n : Node} (hw : ∀ x ∈ w, ∃ s, x = .text s) (hu : ∀ x ∈ u, ∃ s, x = .text s)
    (h : Matches env E [] [n]) : Matches env (.mixed E) [] (w ++ n :: u) := by
  refine .interleave (a₁ := []) (a₂ := []) (n₁ := w ++ u) (n₂ := [n]) (.refl _) ?_ (.text ?_) h
  · exact shuffle_append (b := []) (shuffle_right_nil) (.right shuffle_right_nil)
  · intro x hx
    exact (List.mem_append.1 hx).elim (hw x) (hu x)

/-- `mixed { E }*`: nothing, or at least one element -/
theorem mixed_star {E : Pat} (hE : ElemLike env E) {ns} : Matches env (.star (.mixed E)) [] ns ↔
    ns = [] ∨ (elems ns ≠ [] ∧ ∀ n ∈ elems ns, Matches env E [] [n]) := by
  rw [star_iff]
  constructor
  · rintro (hm | ⟨-, rfl⟩)
    · right
      generalize hr : Pat.plus (.mixed E) = r at hm
      generalize ha : ([] : List (Str × Str)) = a at hm
      induction hm with
      | one h => cases hr; cases ha; exact mixed_elem hE h
      | more h1 h2 h3 _ ih =>
        cases hr; cases ha
        have e1 := mixed_noAttr hE _ _ h2
        have e2 := plus_noAttr (mixed_noAttr hE) _ _ h3
        subst e1 e2
        obtain ⟨i1, i2⟩ := ih rfl rfl
        obtain ⟨j1, j2⟩ := mixed_elem hE h2
        rw [elems_append]
        refine ⟨by simp [j1], fun n hn => ?_⟩
        exact (List.mem_append.1 hn).elim (j2 n) (i2 n)
      | _ => cases hr
    · exact .inl rfl
  · rintro (rfl | ⟨h2, h3⟩)
    · exact .inr ⟨rfl, rfl⟩
    · left
      generalize hl : ns.length = l
      induction l using Nat.strongRecOn generalizing ns with
      | ind l ih =>
        obtain ⟨w, n, rest, rfl, hw, hn⟩ := split_elem ns h2
        have hmem : n ∈ elems (w ++ n :: rest) := by rw [elems]; simp [hn]
        by_cases hr : elems rest = []
        · exact .one (mixed_one hw (elems_nil_iff.1 hr) (h3 n hmem))
        · have hrest : Matches env (.plus (.mixed E)) [] rest := by
            refine ih rest.length (by rw [← hl]; simp; omega) (ns := rest) hr (fun m hm => h3 m ?_) rfl
            rw [elems_append]
            refine List.mem_append_right _ ?_
            rw [elems, List.filter_cons, if_pos hn]
            exact List.mem_cons_of_mem _ hm
          have := Matches.more (env := env) (a := []) (.refl _) (mixed_one (u := []) hw (by simp) (h3 n hmem)) hrest
          simpa using this

/-! ### Attributes -/

/-- attributes with names and values, the second component telling whether they must be there -/
abbrev AttSpec := List (Str × Bool × Pat)

def attsPat : AttSpec → Pat → Pat
  | [], q => q
  | (k, true, p) :: r, q => .group (att k p) (attsPat r q)
  | (k, false, p) :: r, q => .group (.opt (att k p)) (attsPat r q)

/-- just these attributes -/
def Atts (env : Str → Pat) (l : AttSpec) (a : List (Str × Str)) : Prop :=
  (∀ s ∈ l, s.2.1 = true → ∃ v, (s.1, v) ∈ a) ∧ ∀ x ∈ a, ∃ s ∈ l, s.1 = x.1 ∧ Val env s.2.2 x.2

theorem avoids_att {k k' : Str} {p : Pat} (h : k' ≠ k) : Avoids env (att k p) k' := .attr h

theorem attsPat_avoids {q : Pat} (hq : NoAttr env q) {k : Str} : ∀ (l : AttSpec), k ∉ l.map (·.1) → Avoids env (attsPat l q) k := by
  intro l
  induction l with
  | nil => intro _; exact hq.avoids k
  | cons s l ih =>
    obtain ⟨k', b, p⟩ := s
    intro h
    simp only [List.map_cons, List.mem_cons, not_or] at h
    cases b
    · exact (avoids_att h.1).opt.group (ih h.2)
    · exact (avoids_att h.1).group (ih h.2)

theorem attsPat_iff {q : Pat} (hq : NoAttr env q) {ns} : ∀ (l : AttSpec) (a : List (Str × Str)), (l.map (·.1)).Nodup → (a.map Prod.fst).Nodup →
    (Matches env (attsPat l q) a ns ↔ Atts env l a ∧ Matches env q [] ns) := by
  intro l
  induction l with
  | nil =>
    intro a _ _
    simp only [attsPat, Atts, List.not_mem_nil, false_and, exists_false, imp_false, false_imp_iff, implies_true, true_and]
    constructor
    · intro h
      have := hq _ _ h
      subst this
      exact ⟨by simp, h⟩
    · rintro ⟨h1, h2⟩
      rw [List.eq_nil_iff_forall_not_mem.2 h1]
      exact h2
  | cons s l ih =>
    obtain ⟨k, b, p⟩ := s
    intro a hl ha
    rw [List.map_cons, List.nodup_cons] at hl
    have hav : Avoids env (attsPat l q) k := attsPat_avoids hq l hl.1
    have hi := ih (without a k) hl.2 (without_nodup ha k)
    have hne : ∀ s ∈ l, s.1 ≠ k := fun s hs e => hl.1 (List.mem_map.2 ⟨s, hs, e⟩)
    have e1 : Atts env l (without a k) ↔ (∀ s ∈ l, s.2.1 = true → ∃ v, (s.1, v) ∈ a) ∧
        ∀ x ∈ a, x.1 ≠ k → ∃ s ∈ l, s.1 = x.1 ∧ Val env s.2.2 x.2 := by
      refine and_congr ?_ ?_
      · refine forall_congr' fun s => forall_congr' fun hs => forall_congr' fun _ => ?_
        constructor
        · rintro ⟨v, hv⟩; exact ⟨v, (mem_without.1 hv).1⟩
        · rintro ⟨v, hv⟩; exact ⟨v, mem_without.2 ⟨hv, hne s hs⟩⟩
      · simp only [mem_without, and_imp]
    have e2 : (∀ x ∈ a, ∃ s ∈ (k, b, p) :: l, s.1 = x.1 ∧ Val env s.2.2 x.2) ↔ (∀ v, (k, v) ∈ a → Val env p v) ∧
        ∀ x ∈ a, x.1 ≠ k → ∃ s ∈ l, s.1 = x.1 ∧ Val env s.2.2 x.2 := by
      constructor
      · intro h
        constructor
        · intro v hv
          obtain ⟨s, hs, h1, h2⟩ := h _ hv
          rcases List.mem_cons.1 hs with rfl | hs
          · exact h2
          · exact absurd h1 (hne s hs)
        · intro x hx hk
          obtain ⟨s, hs, h1, h2⟩ := h _ hx
          rcases List.mem_cons.1 hs with rfl | hs
          · exact absurd h1.symm hk
          · exact ⟨s, hs, h1, h2⟩
      · rintro ⟨h1, h2⟩ x hx
        by_cases hk : x.1 = k
        · exact ⟨(k, b, p), by simp, hk.symm, h1 _ (by rw [← hk]; exact hx)⟩
        · obtain ⟨s, hs, h3⟩ := h2 x hx hk
          exact ⟨s, by simp [hs], h3⟩
    cases b
    · rw [attsPat, att, peel_opt ha hav, hi, e1, Atts, e2]
      constructor
      · rintro ⟨h1, ⟨h2, h3⟩, h4⟩
        refine ⟨⟨?_, h1, h3⟩, h4⟩
        intro s hs hb
        rcases List.mem_cons.1 hs with rfl | hs
        · cases hb
        · exact h2 s hs hb
      · rintro ⟨⟨h1, h2, h3⟩, h4⟩
        exact ⟨h2, ⟨fun s hs => h1 s (by simp [hs]), h3⟩, h4⟩
    · rw [attsPat, att, peel ha hav, hi, e1, Atts, e2]
      constructor
      · rintro ⟨⟨v, hv, h1⟩, ⟨h2, h3⟩, h4⟩
        refine ⟨⟨?_, fun w hw => ?_, h3⟩, h4⟩
        · intro s hs hb
          rcases List.mem_cons.1 hs with rfl | hs
          · exact ⟨v, hv⟩
          · exact h2 s hs hb
        · rw [← nodup_val ha hv hw]; exact h1
      · rintro ⟨⟨h1, h2, h3⟩, h4⟩
        obtain ⟨v, hv⟩ := h1 (k, true, p) (by simp) rfl
        exact ⟨⟨v, hv, h2 v hv⟩, ⟨fun s hs => h1 s (by simp [hs]), h3⟩, h4⟩

/-- the same for the content of elements -/
theorem attsPat_content {q : Pat} (hq : NoAttr env q) {l : AttSpec} {a ns} (hl : (l.map (·.1)).Nodup) (ha : (a.map Prod.fst).Nodup) :
    Content env (attsPat l q) a ns ↔ Atts env l a ∧ Content env q [] ns :=
  content_and (fun _ => attsPat_iff hq l a hl ha) ns

theorem val_empty {v : Str} : Val env .empty v ↔ Ws v := by
  rw [Val, empty_iff, empty_iff]
  simp

theorem val_not {v : Str} : ¬ Val env .notAllowed v := by
  rintro (h | ⟨-, h⟩) <;> cases h

theorem val_choice {p q : Pat} {v : Str} : Val env (.choice p q) v ↔ Val env p v ∨ Val env q v := by
  simp only [Val, choice_iff]
  constructor
  · rintro ((h | h) | ⟨h1, h | h⟩)
    · exact .inl (.inl h)
    · exact .inr (.inl h)
    · exact .inl (.inr ⟨h1, h⟩)
    · exact .inr (.inr ⟨h1, h⟩)
  · rintro ((h | ⟨h1, h⟩) | (h | ⟨h1, h⟩))
    · exact .inl (.inl h)
    · exact .inr ⟨h1, .inl h⟩
    · exact .inl (.inr h)
    · exact .inr ⟨h1, .inr h⟩

end Xigt.Rng
