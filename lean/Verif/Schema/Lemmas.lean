import Verif.Schema.Spec
/- What patterns match, in terms of attributes and children. -/

set_option linter.unusedSectionVars false

namespace Xigt.Rng

variable {env : Str → Pat}

/-! ### Inversion -/

theorem group_iff {p q : Pat} {a ns} : Matches env (.group p q) a ns ↔
    ∃ a₁ a₂ n₁ n₂, a.Perm (a₁ ++ a₂) ∧ ns = n₁ ++ n₂ ∧ Matches env p a₁ n₁ ∧ Matches env q a₂ n₂ := by
  constructor
  · intro h
    cases h with
    | group h1 h2 h3 => exact ⟨_, _, _, _, h1, rfl, h2, h3⟩
  · rintro ⟨a₁, a₂, n₁, n₂, h1, rfl, h2, h3⟩
    exact .group h1 h2 h3

theorem choice_iff {p q : Pat} {a ns} : Matches env (.choice p q) a ns ↔ Matches env p a ns ∨ Matches env q a ns := by
  constructor
  · intro h
    cases h with
    | left h => exact .inl h
    | right h => exact .inr h
  · rintro (h | h)
    · exact .left h
    · exact .right h

theorem empty_iff {a ns} : Matches env .empty a ns ↔ a = [] ∧ ns = [] := by
  constructor
  · intro h; cases h; exact ⟨rfl, rfl⟩
  · rintro ⟨rfl, rfl⟩; exact .empty

theorem notAllowed_iff {a ns} : ¬ Matches env .notAllowed a ns := fun h => nomatch h

theorem text_iff {a ns} : Matches env .text a ns ↔ a = [] ∧ ∀ n ∈ ns, ∃ s, n = .text s := by
  constructor
  · intro h; cases h with
    | text h => exact ⟨rfl, h⟩
  · rintro ⟨rfl, h⟩; exact .text h

theorem data_iff {P a ns} : Matches env (.data P) a ns ↔ a = [] ∧ ∃ s, ns = [.text s] ∧ P s := by
  constructor
  · intro h; cases h with
    | data h => exact ⟨rfl, _, rfl, h⟩
  · rintro ⟨rfl, s, rfl, h⟩; exact .data h

theorem ref_iff {n a ns} : Matches env (.ref n) a ns ↔ Matches env (env n) a ns :=
  ⟨fun h => by cases h; assumption, .ref⟩

/-- a value -/
def Val (env : Str → Pat) (p : Pat) (v : Str) : Prop := Matches env p [] [.text v] ∨ (Ws v ∧ Matches env p [] [])

theorem attr_iff {nc p a ns} : Matches env (.attr nc p) a ns ↔ ns = [] ∧ ∃ k v, a = [(k, v)] ∧ nc.Has k ∧ Val env p v := by
  constructor
  · intro h
    cases h with
    | attr h1 h2 => exact ⟨rfl, _, _, rfl, h1, .inl h2⟩
    | attrWs h1 h2 h3 => exact ⟨rfl, _, _, rfl, h1, .inr ⟨h2, h3⟩⟩
  · rintro ⟨rfl, k, v, rfl, h1, h2 | ⟨h2, h3⟩⟩
    · exact .attr h1 h2
    · exact .attrWs h1 h2 h3

/-- the content of an element -/
def Content (env : Str → Pat) (p : Pat) (a : List (Str × Str)) (ns : List Node) : Prop :=
  Matches env p a ns ∨ (WsNodes ns ∧ (Matches env p a [] ∨ Matches env p a [.text []]))

theorem elem_iff {nc p a ns} : Matches env (.elem nc p) a ns ↔ a = [] ∧ ∃ w₁ tag as ks w₂, ns = w₁ ++ .elem tag as ks :: w₂ ∧
    WsNodes w₁ ∧ WsNodes w₂ ∧ nc.Has tag ∧ Content env p as ks := by
  constructor
  · intro h
    cases h with
    | elem h1 h2 h3 h4 => exact ⟨rfl, _, _, _, _, _, rfl, h3, h4, h1, .inl h2⟩
    | elemWs h1 h2 h3 h4 h5 => exact ⟨rfl, _, _, _, _, _, rfl, h4, h5, h1, .inr ⟨h2, .inl h3⟩⟩
    | elemEmpty h1 h2 h3 h4 h5 => exact ⟨rfl, _, _, _, _, _, rfl, h4, h5, h1, .inr ⟨h2, .inr h3⟩⟩
  · rintro ⟨rfl, w₁, tag, as, ks, w₂, rfl, h3, h4, h1, h2 | ⟨h2, h5 | h5⟩⟩
    · exact .elem h1 h2 h3 h4
    · exact .elemWs h1 h2 h5 h3 h4
    · exact .elemEmpty h1 h2 h5 h3 h4

theorem opt_iff {p : Pat} {a ns} : Matches env (.opt p) a ns ↔ Matches env p a ns ∨ (a = [] ∧ ns = []) := by
  rw [Pat.opt, choice_iff, empty_iff]

theorem star_iff {p : Pat} {a ns} : Matches env (.star p) a ns ↔ Matches env (.plus p) a ns ∨ (a = [] ∧ ns = []) := by
  rw [Pat.star, choice_iff, empty_iff]

/-- the order of attributes does not matter -/
theorem Matches.perm {p a ns} (h : Matches env p a ns) : ∀ {a'}, a.Perm a' → Matches env p a' ns := by
  induction h with
  | empty => intro a' ha; rw [List.nil_perm.1 ha]; exact .empty
  | text h => intro a' ha; rw [List.nil_perm.1 ha]; exact .text h
  | data h => intro a' ha; rw [List.nil_perm.1 ha]; exact .data h
  | left _ ih => intro a' ha; exact .left (ih ha)
  | right _ ih => intro a' ha; exact .right (ih ha)
  | group h1 h2 h3 => intro a' ha; exact .group (ha.symm.trans h1) h2 h3
  | interleave h1 h2 h3 h4 => intro a' ha; exact .interleave (ha.symm.trans h1) h2 h3 h4
  | one _ ih => intro a' ha; exact .one (ih ha)
  | more h1 h2 h3 => intro a' ha; exact .more (ha.symm.trans h1) h2 h3
  | attr h1 h2 => intro a' ha; rw [List.singleton_perm.1 ha |>.symm]; exact .attr h1 h2
  | attrWs h1 h2 h3 => intro a' ha; rw [List.singleton_perm.1 ha |>.symm]; exact .attrWs h1 h2 h3
  | elem h1 h2 h3 h4 => intro a' ha; rw [List.nil_perm.1 ha]; exact .elem h1 h2 h3 h4
  | elemWs h1 h2 h3 h4 h5 => intro a' ha; rw [List.nil_perm.1 ha]; exact .elemWs h1 h2 h3 h4 h5
  | elemEmpty h1 h2 h3 h4 h5 => intro a' ha; rw [List.nil_perm.1 ha]; exact .elemEmpty h1 h2 h3 h4 h5
  | ref _ ih => intro a' ha; exact .ref (ih ha)

/-! ### Attributes -/

/-- the pattern takes no attribute of this name -/
def Avoids (env : Str → Pat) (p : Pat) (k : Str) : Prop := ∀ a ns, Matches env p a ns → ∀ x ∈ a, x.1 ≠ k

/-- the pattern takes no attributes -/
def NoAttr (env : Str → Pat) (p : Pat) : Prop := ∀ a ns, Matches env p a ns → a = []

theorem NoAttr.avoids {p : Pat} (h : NoAttr env p) (k : Str) : Avoids env p k := by
  intro a ns hm x hx
  rw [h a ns hm] at hx
  cases hx

theorem Avoids.group {p q : Pat} {k} (hp : Avoids env p k) (hq : Avoids env q k) : Avoids env (.group p q) k := by
  intro a ns hm x hx
  obtain ⟨a₁, a₂, n₁, n₂, h1, -, h2, h3⟩ := group_iff.1 hm
  rcases List.mem_append.1 (h1.mem_iff.1 hx) with h | h
  · exact hp _ _ h2 x h
  · exact hq _ _ h3 x h

theorem Avoids.choice {p q : Pat} {k} (hp : Avoids env p k) (hq : Avoids env q k) : Avoids env (.choice p q) k := by
  intro a ns hm
  rcases choice_iff.1 hm with h | h
  · exact hp _ _ h
  · exact hq _ _ h

theorem Avoids.empty {k} : Avoids env .empty k := by
  intro a ns hm x hx
  rw [(empty_iff.1 hm).1] at hx; cases hx

theorem Avoids.opt {p : Pat} {k} (hp : Avoids env p k) : Avoids env (.opt p) k := hp.choice .empty

theorem Avoids.attr {nc p k} (h : ¬ NameClass.Has nc k) : Avoids env (.attr nc p) k := by
  intro a ns hm x hx
  obtain ⟨-, k', v, rfl, hk, -⟩ := attr_iff.1 hm
  simp only [List.mem_singleton] at hx
  subst hx
  rintro rfl
  exact h hk

theorem Avoids.plus {p : Pat} {k} (hp : Avoids env p k) : Avoids env (.plus p) k := by
  intro a ns hm
  generalize hq : Pat.plus p = q at hm
  induction hm with
  | one h => cases hq; exact hp _ _ h
  | more h1 h2 _ _ ih =>
    cases hq
    intro x hx
    rcases List.mem_append.1 (h1.mem_iff.1 hx) with h | h
    · exact hp _ _ h2 x h
    · exact ih rfl x h
  | _ => cases hq

theorem Avoids.star {p : Pat} {k} (hp : Avoids env p k) : Avoids env (.star p) k := hp.plus.choice .empty

/-- the attributes but one -/
def without (a : List (Str × Str)) (k : Str) : List (Str × Str) := a.filter fun x => decide (x.1 ≠ k)

theorem mem_without {a : List (Str × Str)} {k : Str} {x} : x ∈ without a k ↔ x ∈ a ∧ x.1 ≠ k := by
  simp [without]

theorem without_nodup {a : List (Str × Str)} (h : (a.map Prod.fst).Nodup) (k : Str) : ((without a k).map Prod.fst).Nodup :=
  h.sublist ((List.filter_sublist).map _)

theorem without_of_not {a : List (Str × Str)} {k : Str} (h : ∀ x ∈ a, x.1 ≠ k) : without a k = a := by
  rw [without, List.filter_eq_self]
  intro x hx
  simpa using h x hx

/-- an attribute of distinct ones can be put first -/
theorem perm_without {a : List (Str × Str)} (h : (a.map Prod.fst).Nodup) {k v : Str} (hm : (k, v) ∈ a) :
    a.Perm ((k, v) :: without a k) := by
  induction a with
  | nil => cases hm
  | cons x a ih =>
    rw [List.map_cons, List.nodup_cons] at h
    rcases List.mem_cons.1 hm with rfl | hm
    · have : without ((k, v) :: a) k = a := by
        rw [without, List.filter_cons]
        simp only [ne_eq, not_true, decide_false, Bool.false_eq_true, if_false]
        exact without_of_not fun y hy e => h.1 (List.mem_map.2 ⟨y, hy, e⟩)
      rw [this]
    · have hk : x.1 ≠ k := fun e => h.1 (e ▸ List.mem_map_of_mem (f := Prod.fst) hm)
      have : without (x :: a) k = x :: without a k := by
        rw [without, List.filter_cons]
        simp [hk, without]
      rw [this]
      exact ((ih h.2 hm).cons x).trans (.swap _ _ _)

theorem nodup_val {a : List (Str × Str)} (h : (a.map Prod.fst).Nodup) {k v w : Str} (hv : (k, v) ∈ a) (hw : (k, w) ∈ a) : v = w := by
  have := (perm_without h hv).mem_iff.1 hw
  rcases List.mem_cons.1 this with h | h
  · cases h; rfl
  · exact absurd rfl (mem_without.1 h).2

/-- an attribute that must be there -/
theorem peel {p q : Pat} {k : Str} {a ns} (h : (a.map Prod.fst).Nodup) (hq : Avoids env q k) :
    Matches env (.group (.attr (.name k) p) q) a ns ↔ (∃ v, (k, v) ∈ a ∧ Val env p v) ∧ Matches env q (without a k) ns := by
  constructor
  · intro hm
    obtain ⟨a₁, a₂, n₁, n₂, h1, rfl, h2, h3⟩ := group_iff.1 hm
    obtain ⟨rfl, k', v, rfl, rfl, hv⟩ := attr_iff.1 h2
    have hv' : (k', v) ∈ a := h1.mem_iff.2 (by simp)
    refine ⟨⟨v, hv', hv⟩, ?_⟩
    have : ((k', v) :: a₂).Perm ((k', v) :: without a k') := h1.symm.trans (perm_without h hv')
    exact h3.perm ((List.perm_cons _).1 this)
  · rintro ⟨⟨v, hv, hval⟩, h3⟩
    exact group_iff.2 ⟨[(k, v)], without a k, [], ns, perm_without h hv, rfl, attr_iff.2 ⟨rfl, k, v, rfl, rfl, hval⟩, h3⟩

/-- an attribute that may be there -/
theorem peel_opt {p q : Pat} {k : Str} {a ns} (h : (a.map Prod.fst).Nodup) (hq : Avoids env q k) :
    Matches env (.group (.opt (.attr (.name k) p)) q) a ns ↔ (∀ v, (k, v) ∈ a → Val env p v) ∧ Matches env q (without a k) ns := by
  have key : Matches env (.group (.opt (.attr (.name k) p)) q) a ns ↔
      Matches env (.group (.attr (.name k) p) q) a ns ∨ Matches env q a ns := by
    constructor
    · intro hm
      obtain ⟨a₁, a₂, n₁, n₂, h1, rfl, h2, h3⟩ := group_iff.1 hm
      rcases opt_iff.1 h2 with h2 | ⟨rfl, rfl⟩
      · exact .inl (group_iff.2 ⟨a₁, a₂, n₁, n₂, h1, rfl, h2, h3⟩)
      · exact .inr (h3.perm h1.symm)
    · rintro (hm | hm)
      · obtain ⟨a₁, a₂, n₁, n₂, h1, rfl, h2, h3⟩ := group_iff.1 hm
        exact group_iff.2 ⟨a₁, a₂, n₁, n₂, h1, rfl, opt_iff.2 (.inl h2), h3⟩
      · exact group_iff.2 ⟨[], a, [], ns, .refl _, rfl, opt_iff.2 (.inr ⟨rfl, rfl⟩), hm⟩
  rw [key, peel h hq]
  constructor
  · rintro (⟨⟨v, hv, hval⟩, h3⟩ | hm)
    · refine ⟨fun w hw => ?_, h3⟩
      rw [← nodup_val h hv hw]
      exact hval
    · have hk : ∀ x ∈ a, x.1 ≠ k := hq _ _ hm
      exact ⟨fun v hv => absurd rfl (hk _ hv), by rw [without_of_not hk]; exact hm⟩
  · rintro ⟨h1, h2⟩
    by_cases hk : ∃ v, (k, v) ∈ a
    · obtain ⟨v, hv⟩ := hk
      exact .inl ⟨⟨v, hv, h1 v hv⟩, h2⟩
    · rw [without_of_not fun x hx e => hk ⟨x.2, by rw [← e]; exact hx⟩] at h2
      exact .inr h2

theorem group_choice {p q r : Pat} {a ns} : Matches env (.group (.choice p q) r) a ns ↔
    Matches env (.group p r) a ns ∨ Matches env (.group q r) a ns := by
  simp only [group_iff, choice_iff]
  constructor
  · rintro ⟨a₁, a₂, n₁, n₂, h1, h2, h3 | h3, h4⟩
    · exact .inl ⟨a₁, a₂, n₁, n₂, h1, h2, h3, h4⟩
    · exact .inr ⟨a₁, a₂, n₁, n₂, h1, h2, h3, h4⟩
  · rintro (⟨a₁, a₂, n₁, n₂, h1, h2, h3, h4⟩ | ⟨a₁, a₂, n₁, n₂, h1, h2, h3, h4⟩)
    · exact ⟨a₁, a₂, n₁, n₂, h1, h2, .inl h3, h4⟩
    · exact ⟨a₁, a₂, n₁, n₂, h1, h2, .inr h3, h4⟩

theorem group_assoc {p q r : Pat} {a ns} : Matches env (.group (.group p q) r) a ns ↔ Matches env (.group p (.group q r)) a ns := by
  simp only [group_iff]
  constructor
  · rintro ⟨a₁, a₂, n₁, n₂, h1, rfl, ⟨b₁, b₂, m₁, m₂, g1, rfl, g2, g3⟩, h4⟩
    refine ⟨b₁, b₂ ++ a₂, m₁, m₂ ++ n₂, h1.trans ?_, by simp, g2, b₂, a₂, m₂, n₂, .refl _, rfl, g3, h4⟩
    rw [← List.append_assoc]
    exact g1.append_right _
  · rintro ⟨a₁, a₂, n₁, n₂, h1, rfl, h4, b₁, b₂, m₁, m₂, g1, rfl, g2, g3⟩
    refine ⟨a₁ ++ b₁, b₂, n₁ ++ m₁, m₂, h1.trans ?_, by simp, ⟨a₁, b₁, n₁, m₁, .refl _, rfl, h4, g2⟩, g3⟩
    rw [List.append_assoc]
    exact g1.append_left _

/-- any number of attributes of a class -/
theorem star_attr {nc p a ns} : Matches env (.star (.attr nc p)) a ns ↔ ns = [] ∧ ∀ x ∈ a, nc.Has x.1 ∧ Val env p x.2 := by
  constructor
  · intro h0
    rcases star_iff.1 h0 with hm | ⟨rfl, rfl⟩
    · clear h0
      generalize hq : Pat.plus (.attr nc p) = q at hm
      induction hm with
      | one h =>
        cases hq
        obtain ⟨rfl, k, v, rfl, h1, h2⟩ := attr_iff.1 h
        refine ⟨rfl, ?_⟩
        intro x hx
        simp only [List.mem_singleton] at hx
        subst hx
        exact ⟨h1, h2⟩
      | more h1 h2 h3 _ ih =>
        cases hq
        obtain ⟨rfl, k, v, rfl, g1, g2⟩ := attr_iff.1 h2
        obtain ⟨rfl, ih'⟩ := ih rfl
        refine ⟨rfl, ?_⟩
        intro x hx
        rcases List.mem_cons.1 (h1.mem_iff.1 hx) with rfl | hx
        · exact ⟨g1, g2⟩
        · exact ih' x hx
      | _ => cases hq
    · exact ⟨rfl, by simp⟩
  · rintro ⟨rfl, h⟩
    refine star_iff.2 ?_
    induction a with
    | nil => exact .inr ⟨rfl, rfl⟩
    | cons x a ih =>
      have hx : Matches env (.attr nc p) [x] [] := attr_iff.2 ⟨rfl, x.1, x.2, rfl, h x (by simp)⟩
      rcases ih fun y hy => h y (by simp [hy]) with h' | ⟨rfl, -⟩
      · exact .inl (.more (.refl _) hx h')
      · exact .inl (.one hx)

theorem peel_star {nc p q a ns} (hq : NoAttr env q) : Matches env (.group (.star (.attr nc p)) q) a ns ↔
    (∀ x ∈ a, nc.Has x.1 ∧ Val env p x.2) ∧ Matches env q [] ns := by
  rw [group_iff]
  constructor
  · rintro ⟨a₁, a₂, n₁, n₂, h1, rfl, h2, h3⟩
    obtain ⟨rfl, h2'⟩ := star_attr.1 h2
    have := hq _ _ h3
    subst this
    rw [List.append_nil] at h1
    exact ⟨fun x hx => h2' x (h1.mem_iff.1 hx), h3⟩
  · rintro ⟨h1, h2⟩
    exact ⟨a, [], [], ns, by rw [List.append_nil], rfl, star_attr.2 ⟨rfl, h1⟩, h2⟩

/-! ### Children -/

theorem elems_append (a b : List Node) : elems (a ++ b) = elems a ++ elems b := List.filter_append ..

theorem elems_nil_iff {ns : List Node} : elems ns = [] ↔ ∀ n ∈ ns, ∃ s, n = .text s := by
  rw [elems, List.filter_eq_nil_iff]
  constructor
  · intro h n hn
    cases n with
    | text s => exact ⟨s, rfl⟩
    | elem => exact absurd rfl (h _ hn)
  · intro h n hn
    obtain ⟨s, rfl⟩ := h n hn
    simp [Node.isElem]

theorem wsNodes_iff {ns : List Node} : WsNodes ns ↔ elems ns = [] ∧ WsOnly ns := by
  rw [elems_nil_iff]
  constructor
  · intro h
    refine ⟨fun n hn => (h n hn).imp fun _ h => h.1, fun s hs => ?_⟩
    obtain ⟨t, ht, hw⟩ := h _ hs
    cases ht
    exact hw
  · rintro ⟨h1, h2⟩ n hn
    obtain ⟨s, rfl⟩ := h1 n hn
    exact ⟨s, rfl, h2 s hn⟩

theorem wsOnly_append {a b : List Node} : WsOnly (a ++ b) ↔ WsOnly a ∧ WsOnly b := by
  simp only [WsOnly, List.mem_append]
  exact ⟨fun h => ⟨fun s hs => h s (.inl hs), fun s hs => h s (.inr hs)⟩, fun h s hs => hs.elim (h.1 s) (h.2 s)⟩

/-- a pattern that matches single elements, with white space around them -/
structure ElemLike (env : Str → Pat) (E : Pat) : Prop where
  noAttr : NoAttr env E
  inv : ∀ ns, Matches env E [] ns → ∃ w₁ n w₂, ns = w₁ ++ n :: w₂ ∧ WsNodes w₁ ∧ WsNodes w₂ ∧ n.isElem = true ∧ Matches env E [] [n]
  wrap : ∀ w₁ n w₂, WsNodes w₁ → WsNodes w₂ → Matches env E [] [n] → Matches env E [] (w₁ ++ n :: w₂)

theorem singleton_split {α : Type} {n m : α} {w₁ w₂ : List α} (h : [n] = w₁ ++ m :: w₂) : w₁ = [] ∧ n = m ∧ w₂ = [] := by
  cases w₁ with
  | nil => simp only [List.nil_append, List.cons.injEq] at h; exact ⟨rfl, h.1, h.2.symm⟩
  | cons x w => simp at h

theorem elemLike_elem (nc : NameClass) (p : Pat) : ElemLike env (.elem nc p) where
  noAttr a ns h := (elem_iff.1 h).1
  inv ns h := by
    obtain ⟨-, w₁, tag, as, ks, w₂, rfl, h1, h2, h3⟩ := elem_iff.1 h
    exact ⟨w₁, _, w₂, rfl, h1, h2, rfl, elem_iff.2 ⟨rfl, [], tag, as, ks, [], rfl, by simp [WsNodes], by simp [WsNodes], h3⟩⟩
  wrap w₁ n w₂ h1 h2 h := by
    obtain ⟨-, u₁, tag, as, ks, u₂, he, -, -, h3⟩ := elem_iff.1 h
    obtain ⟨rfl, rfl, rfl⟩ := singleton_split he
    exact elem_iff.2 ⟨rfl, w₁, tag, as, ks, w₂, rfl, h1, h2, h3⟩

theorem ElemLike.ref {n : Str} (h : ElemLike env (env n)) : ElemLike env (.ref n) where
  noAttr a ns hm := h.noAttr a ns (ref_iff.1 hm)
  inv ns hm := by
    obtain ⟨w₁, m, w₂, h1, h2, h3, h4, h5⟩ := h.inv ns (ref_iff.1 hm)
    exact ⟨w₁, m, w₂, h1, h2, h3, h4, ref_iff.2 h5⟩
  wrap w₁ m w₂ h1 h2 hm := ref_iff.2 (h.wrap w₁ m w₂ h1 h2 (ref_iff.1 hm))

theorem plus_noAttr {p : Pat} (h : NoAttr env p) : NoAttr env (.plus p) := by
  intro a ns hm
  generalize hq : Pat.plus p = q at hm
  induction hm with
  | one h' => cases hq; exact h _ _ h'
  | more h1 h2 _ _ ih =>
    cases hq
    rw [h _ _ h2, ih rfl] at h1
    exact List.perm_nil.1 h1
  | _ => cases hq

theorem star_noAttr {p : Pat} (h : NoAttr env p) : NoAttr env (.star p) := by
  intro a ns hm
  rcases star_iff.1 hm with hm | ⟨rfl, -⟩
  · exact plus_noAttr h _ _ hm
  · rfl

theorem group_noAttr {p q : Pat} (hp : NoAttr env p) (hq : NoAttr env q) : NoAttr env (.group p q) := by
  intro a ns hm
  obtain ⟨a₁, a₂, n₁, n₂, h1, -, h2, h3⟩ := group_iff.1 hm
  rw [hp _ _ h2, hq _ _ h3] at h1
  exact List.perm_nil.1 h1

theorem first_elem : ∀ (ns : List Node), WsOnly ns → elems ns ≠ [] → ∃ w n rest, ns = w ++ n :: rest ∧ WsNodes w ∧ n.isElem = true := by
  intro ns
  induction ns with
  | nil => intro _ h; exact absurd rfl h
  | cons x ns ih =>
    intro hw he
    cases x with
    | elem tag a ks => exact ⟨[], _, ns, rfl, by simp [WsNodes], rfl⟩
    | text s =>
      obtain ⟨w, n, rest, rfl, h1, h2⟩ := ih (fun t ht => hw t (by simp [ht])) (by simpa [elems, List.filter_cons, Node.isElem] using he)
      refine ⟨.text s :: w, n, rest, rfl, ?_, h2⟩
      intro m hm
      rcases List.mem_cons.1 hm with rfl | hm
      · exact ⟨s, rfl, hw s (by simp)⟩
      · exact h1 m hm

theorem plus_elems {E : Pat} (hE : ElemLike env E) {ns} : Matches env (.plus E) [] ns ↔
    WsOnly ns ∧ elems ns ≠ [] ∧ ∀ n ∈ elems ns, Matches env E [] [n] := by
  constructor
  · intro hm
    generalize hq : Pat.plus E = q at hm
    generalize ha : ([] : List (Str × Str)) = a at hm
    have one : ∀ ns, Matches env E [] ns → WsOnly ns ∧ elems ns ≠ [] ∧ ∀ n ∈ elems ns, Matches env E [] [n] := by
      intro ns h
      obtain ⟨w₁, n, w₂, rfl, h1, h2, h3, h4⟩ := hE.inv _ h
      have e1 := (wsNodes_iff.1 h1).1
      have e2 := (wsNodes_iff.1 h2).1
      have : elems (w₁ ++ n :: w₂) = [n] := by
        rw [elems_append, e1, List.nil_append, elems, List.filter_cons, if_pos h3]
        show n :: elems w₂ = [n]
        rw [e2]
      refine ⟨?_, by rw [this]; simp, by rw [this]; simpa using h4⟩
      intro s hs
      rcases List.mem_append.1 hs with h | h
      · exact (wsNodes_iff.1 h1).2 s h
      · rcases List.mem_cons.1 h with h | h
        · rw [← h] at h3; cases h3
        · exact (wsNodes_iff.1 h2).2 s h
    induction hm with
    | one h => cases hq; cases ha; exact one _ h
    | more h1 h2 h3 _ ih =>
      cases hq
      cases ha
      have e1 := hE.noAttr _ _ h2
      have e2 := plus_noAttr hE.noAttr _ _ h3
      subst e1 e2
      obtain ⟨i1, i2, i3⟩ := ih rfl rfl
      obtain ⟨j1, j2, j3⟩ := one _ h2
      refine ⟨wsOnly_append.2 ⟨j1, i1⟩, by rw [elems_append]; simp [j2], ?_⟩
      intro n hn
      rw [elems_append] at hn
      rcases List.mem_append.1 hn with h | h
      · exact j3 n h
      · exact i3 n h
    | _ => cases hq
  · rintro ⟨h1, h2, h3⟩
    generalize hl : ns.length = l
    induction l using Nat.strongRecOn generalizing ns with
    | ind l ih =>
      obtain ⟨w, n, rest, rfl, hw, hn⟩ := first_elem ns h1 h2
      have hmem : n ∈ elems (w ++ n :: rest) := by rw [elems]; simp [hn]
      by_cases hr : elems rest = []
      · refine .one (hE.wrap w n rest hw ?_ (h3 n hmem))
        refine wsNodes_iff.2 ⟨hr, ?_⟩
        exact fun s hs => h1 s (by simp [hs])
      · have hrest : Matches env (.plus E) [] rest := by
          refine ih rest.length (by rw [← hl]; simp; omega) (ns := rest) (fun s hs => h1 s (by simp [hs])) hr (fun m hm => h3 m ?_) rfl
          rw [elems_append]
          refine List.mem_append_right _ ?_
          rw [elems, List.filter_cons, if_pos hn]
          exact List.mem_cons_of_mem _ hm
        have hone : Matches env E [] (w ++ [n]) := hE.wrap w n [] hw (by simp [WsNodes]) (h3 n hmem)
        have := Matches.more (env := env) (a := []) (.refl _) hone hrest
        simpa using this

theorem star_elems {E : Pat} (hE : ElemLike env E) {ns} : Matches env (.star E) [] ns ↔
    WsOnly ns ∧ (elems ns = [] → ns = []) ∧ ∀ n ∈ elems ns, Matches env E [] [n] := by
  rw [star_iff, plus_elems hE]
  constructor
  · rintro (⟨h1, h2, h3⟩ | ⟨-, rfl⟩)
    · exact ⟨h1, fun h => absurd h h2, h3⟩
    · exact ⟨by simp [WsOnly], fun _ => rfl, by simp [elems]⟩
  · rintro ⟨h1, h2, h3⟩
    by_cases he : elems ns = []
    · exact .inr ⟨rfl, h2 he⟩
    · exact .inl ⟨h1, he, h3⟩

theorem elems_split : ∀ (ns : List Node) (l r : List Node), elems ns = l ++ r → ∃ n₁ n₂, ns = n₁ ++ n₂ ∧ elems n₁ = l ∧ elems n₂ = r := by
  intro ns
  induction ns with
  | nil =>
    intro l r h
    obtain ⟨rfl, rfl⟩ := List.append_eq_nil_iff.1 h.symm
    exact ⟨[], [], rfl, rfl, rfl⟩
  | cons x ns ih =>
    intro l r h
    cases l with
    | nil => exact ⟨[], x :: ns, rfl, rfl, h⟩
    | cons y l =>
      cases hx : x.isElem with
      | true =>
        rw [elems, List.filter_cons, if_pos hx, List.cons_append] at h
        injection h with h1 h2
        obtain ⟨n₁, n₂, rfl, e1, e2⟩ := ih l r h2
        refine ⟨x :: n₁, n₂, rfl, ?_, e2⟩
        rw [elems, List.filter_cons, if_pos hx, h1]
        exact congrArg _ e1
      | false =>
        rw [elems, List.filter_cons, if_neg (by simp [hx])] at h
        obtain ⟨n₁, n₂, rfl, e1, e2⟩ := ih (y :: l) r h
        refine ⟨x :: n₁, n₂, rfl, ?_, e2⟩
        rw [elems, List.filter_cons, if_neg (by simp [hx])]
        exact e1

/-- first elements of one kind, then of another -/
theorem two_stars {A B : Pat} (hA : ElemLike env A) (hB : ElemLike env B) {ns} : Matches env (.group (.star A) (.star B)) [] ns ↔
    WsOnly ns ∧ (elems ns = [] → ns = []) ∧ ∃ l r, elems ns = l ++ r ∧ (∀ n ∈ l, Matches env A [] [n]) ∧ ∀ n ∈ r, Matches env B [] [n] := by
  rw [group_iff]
  constructor
  · rintro ⟨a₁, a₂, n₁, n₂, -, rfl, h2, h3⟩
    have e1 := star_noAttr hA.noAttr _ _ h2
    have e2 := star_noAttr hB.noAttr _ _ h3
    subst e1 e2
    obtain ⟨i1, i2, i3⟩ := (star_elems hA).1 h2
    obtain ⟨j1, j2, j3⟩ := (star_elems hB).1 h3
    refine ⟨wsOnly_append.2 ⟨i1, j1⟩, ?_, elems n₁, elems n₂, elems_append _ _, i3, j3⟩
    intro h
    rw [elems_append] at h
    obtain ⟨h1, h2⟩ := List.append_eq_nil_iff.1 h
    rw [i2 h1, j2 h2]; rfl
  · rintro ⟨h1, h2, l, r, h3, h4, h5⟩
    by_cases hl : l = []
    · subst hl
      refine ⟨[], [], [], ns, .refl _, rfl, star_iff.2 (.inr ⟨rfl, rfl⟩), (star_elems hB).2 ⟨h1, h2, ?_⟩⟩
      rw [h3]; exact h5
    · by_cases hr : r = []
      · subst hr
        refine ⟨[], [], ns, [], .refl _, by simp, (star_elems hA).2 ⟨h1, h2, ?_⟩, star_iff.2 (.inr ⟨rfl, rfl⟩)⟩
        rw [h3, List.append_nil]; exact h4
      · obtain ⟨n₁, n₂, rfl, e1, e2⟩ := elems_split ns l r h3
        obtain ⟨w1, w2⟩ := wsOnly_append.1 h1
        exact ⟨[], [], n₁, n₂, .refl _, rfl, (star_elems hA).2 ⟨w1, fun h => absurd (e1.symm.trans h) hl, by rw [e1]; exact h4⟩,
          (star_elems hB).2 ⟨w2, fun h => absurd (e2.symm.trans h) hr, by rw [e2]; exact h5⟩⟩

theorem elem_single {nc p n} : Matches env (.elem nc p) [] [n] ↔ ∃ tag a ns, n = .elem tag a ns ∧ nc.Has tag ∧ Content env p a ns := by
  rw [elem_iff]
  constructor
  · rintro ⟨-, w₁, tag, as, ks, w₂, he, -, -, h1, h2⟩
    obtain ⟨-, rfl, -⟩ := singleton_split he
    exact ⟨tag, as, ks, rfl, h1, h2⟩
  · rintro ⟨tag, a, ns, rfl, h1, h2⟩
    exact ⟨rfl, [], tag, a, ns, [], rfl, by simp [WsNodes], by simp [WsNodes], h1, h2⟩

/-- attributes are matched apart from the content -/
theorem content_and {p q : Pat} {a : List (Str × Str)} {A : Prop} (h : ∀ ns, Matches env p a ns ↔ A ∧ Matches env q [] ns) (ns : List Node) :
    Content env p a ns ↔ A ∧ Content env q [] ns := by
  simp only [Content, h]
  constructor
  · rintro (⟨h1, h2⟩ | ⟨h1, ⟨h2, h3⟩ | ⟨h2, h3⟩⟩)
    · exact ⟨h1, .inl h2⟩
    · exact ⟨h2, .inr ⟨h1, .inl h3⟩⟩
    · exact ⟨h2, .inr ⟨h1, .inr h3⟩⟩
  · rintro ⟨h1, h2 | ⟨h2, h3 | h3⟩⟩
    · exact .inl ⟨h1, h2⟩
    · exact .inr ⟨h2, .inl ⟨h1, h3⟩⟩
    · exact .inr ⟨h2, .inr ⟨h1, h3⟩⟩

theorem content_two_stars {A B : Pat} (hA : ElemLike env A) (hB : ElemLike env B) {ns} : Content env (.group (.star A) (.star B)) [] ns ↔
    WsOnly ns ∧ ∃ l r, elems ns = l ++ r ∧ (∀ n ∈ l, Matches env A [] [n]) ∧ ∀ n ∈ r, Matches env B [] [n] := by
  rw [Content, two_stars hA hB]
  constructor
  · rintro (⟨h1, -, h2⟩ | ⟨h1, -⟩)
    · exact ⟨h1, h2⟩
    · exact ⟨(wsNodes_iff.1 h1).2, [], [], (wsNodes_iff.1 h1).1, by simp, by simp⟩
  · rintro ⟨h1, h2⟩
    by_cases he : elems ns = []
    · refine .inr ⟨wsNodes_iff.2 ⟨he, h1⟩, .inl ?_⟩
      exact (two_stars hA hB).2 ⟨by simp [WsOnly], fun _ => rfl, [], [], rfl, by simp, by simp⟩
    · exact .inl ⟨h1, fun h => absurd h he, h2⟩

theorem content_star {A : Pat} (hA : ElemLike env A) {ns} : Content env (.star A) [] ns ↔
    WsOnly ns ∧ ∀ n ∈ elems ns, Matches env A [] [n] := by
  rw [Content, star_elems hA]
  constructor
  · rintro (⟨h1, -, h2⟩ | ⟨h1, -⟩)
    · exact ⟨h1, h2⟩
    · exact ⟨(wsNodes_iff.1 h1).2, by rw [(wsNodes_iff.1 h1).1]; simp⟩
  · rintro ⟨h1, h2⟩
    by_cases he : elems ns = []
    · exact .inr ⟨wsNodes_iff.2 ⟨he, h1⟩, .inl (star_iff.2 (.inr ⟨rfl, rfl⟩))⟩
    · exact .inl ⟨h1, fun h => absurd h he, h2⟩

theorem content_text {ns} : Content env .text [] ns ↔ elems ns = [] := by
  rw [Content, text_iff, elems_nil_iff]
  constructor
  · rintro (⟨-, h⟩ | ⟨h, -⟩)
    · exact h
    · exact fun n hn => (h n hn).imp fun _ h => h.1
  · exact fun h => .inl ⟨rfl, h⟩

theorem content_choice {p q : Pat} {a ns} : Content env (.choice p q) a ns ↔ Content env p a ns ∨ Content env q a ns := by
  simp only [Content, choice_iff]
  constructor
  · rintro ((h | h) | ⟨h1, (h | h) | h | h⟩)
    · exact .inl (.inl h)
    · exact .inr (.inl h)
    · exact .inl (.inr ⟨h1, .inl h⟩)
    · exact .inr (.inr ⟨h1, .inl h⟩)
    · exact .inl (.inr ⟨h1, .inr h⟩)
    · exact .inr (.inr ⟨h1, .inr h⟩)
  · rintro ((h | ⟨h1, h | h⟩) | (h | ⟨h1, h | h⟩))
    · exact .inl (.inl h)
    · exact .inr ⟨h1, .inl (.inl h)⟩
    · exact .inr ⟨h1, .inr (.inl h)⟩
    · exact .inl (.inr h)
    · exact .inr ⟨h1, .inl (.inr h)⟩
    · exact .inr ⟨h1, .inr (.inr h)⟩

theorem val_data {P : Str → Prop} {v : Str} : Val env (.data P) v ↔ P v := by
  rw [Val, data_iff, data_iff]
  constructor
  · rintro (⟨-, s, h1, h2⟩ | ⟨-, -, s, h, -⟩)
    · cases h1; exact h2
    · cases h
  · exact fun h => .inl ⟨rfl, v, rfl, h⟩

theorem val_text {v : Str} : Val env .text v := .inl (.text (by simp))

end Xigt.Rng
