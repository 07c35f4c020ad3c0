import Verif.Scripts.ValidateValues
import Verif.Equality.Spec
/-
Igts of which the validator (/repo/xigt/scripts/xigt_validate.py) reports no error.
-/

set_option linter.unusedSectionVars false

namespace Xigt.Vld

/-- IDs are not used twice, and references lead to something that is there -/
structure Clean [Uni] (g : Obj) : Prop where
  tiers : ∀ (j : Nat) t, g.kids[j]? = some t → ¬ Repeated g.kids j t
  items : ∀ (j : Nat) t, g.kids[j]? = some t → ∀ (k : Nat) x, t.kids[k]? = some x → ¬ Repeated t.kids k x
  across : ∀ (j' : Nat) t' (j : Nat) t, g.kids[j']? = some t' → g.kids[j]? = some t → ∀ y ∈ t'.kids, ∀ x ∈ t.kids, ∀ s,
    y.data.id = some s → x.data.id = some s → j' = j
  attrs : ∀ t ∈ g.kids, ∀ x ∈ t.kids, ∀ ra ∈ refAttrs, Dict.get? x.data.attrs ra ≠ none → Dict.get? t.data.attrs ra ≠ none
  tierRefs : ∀ t ∈ g.kids, ∀ ra ∈ refAttrs, ∀ s, Dict.get? t.data.attrs ra = some s → contGet g.kids s ≠ none
  itemRefs : ∀ t ∈ g.kids, ∀ x ∈ t.kids, ∀ ra ∈ refAttrs, ∀ e s u, Dict.get? x.data.attrs ra = some e →
    Dict.get? t.data.attrs ra = some s → contGet g.kids s = some u → ∀ i ∈ ids e, contGet u.kids i ≠ none

section
variable [Uni]

/-- no record of a condition that gives no message, nor of one that is not an error -/
theorem cond_below {lvl : Nat} {r : Py (Option Msg)} {a : List Rec} (h : cond lvl r = .ok a)
    (hr : r = .ok none ∨ lvl < ERROR) : ∀ x ∈ a, x.level < ERROR := by
  intro x hx
  obtain ⟨o, h1, h2⟩ := cond_ok h
  obtain ⟨m, h3, rfl⟩ := (h2 x).1 hx
  rcases hr with hr | hr
  · rw [hr] at h1; cases h1; cases h3
  · exact hr

/-- nor of several such conditions -/
theorem conds_below {l : List (Py (List Rec))} {rs : List Rec} (h : conds l = .ok rs)
    (hl : ∀ r ∈ l, ∀ a, r = .ok a → ∀ x ∈ a, x.level < ERROR) : ∀ x ∈ rs, x.level < ERROR := by
  intro x hx
  obtain ⟨r, h1, a, h2, h3⟩ := (conds_mem h x).1 hx
  exact hl r h1 a h2 x h3

theorem no_problem {rs : List Rec} {cs : List Report} (h : ∀ x ∈ rs, x.level < ERROR) (hc : ∀ c ∈ cs, ¬ Problem ERROR c) :
    ¬ Problem ERROR (.node rs cs) := by
  intro hp
  cases hp with
  | here hx hl => exact absurd (h _ hx) (Nat.not_lt.2 hl)
  | within hm hp => exact hc _ hm hp

theorem below_append {a b : List Rec} (ha : ∀ x ∈ a, x.level < ERROR) (hb : ∀ x ∈ b, x.level < ERROR) :
    ∀ x ∈ a ++ b, x.level < ERROR := by
  intro x hx
  rcases List.mem_append.1 hx with h | h
  · exact ha x h
  · exact hb x h

theorem unique_of {seen : List Str} {x : Obj} (h : ∀ s, x.data.id = some s → s ≠ [] → s ∉ seen) : idIsUnique seen x = none := by
  cases hu : idIsUnique seen x with
  | none => rfl
  | some m =>
    obtain ⟨-, s, h1, h2, h3⟩ := idIsUnique_iff.1 hu
    exact absurd h3 (h s h1 h2)

theorem unique_of_not {xs : List Obj} {k : Nat} {x : Obj} (h : ¬ Repeated xs k x) : idIsUnique (idsBefore xs k) x = none := by
  cases hu : idIsUnique (idsBefore xs k) x with
  | none => rfl
  | some m => exact absurd (unique_before.1 hu).2 h

/-- the validator reports no error of what is clean -/
theorem clean_passes {depth : Nat} {seen : List Str} {xc : Obj} {igts : List Obj} {r : Report}
    (h : validateCorpus depth seen ⟨xc, igts.map .ok⟩ = .ok r) (hc : ∀ s, xc.data.id = some s → s ∉ seen)
    (hd : ∀ (i : Nat) g, igts[i]? = some g → ¬ Repeated igts i g) (hg : ∀ g ∈ igts, Clean g) : ¬ Problem ERROR r := by
  simp only [validateCorpus, bind, Except.bind] at h
  split at h
  · cases h
  next rs hrs =>
  split at h
  · cases h
  next cs hcs =>
  cases h
  refine no_problem (conds_below hrs ?_) ?_
  · intro r hr a ha
    simp only [List.mem_cons, List.not_mem_nil, or_false] at hr
    rcases hr with rfl | rfl
    · exact cond_below ha (.inr (by decide))
    · exact cond_below ha (.inl (by rw [unique_of fun s hs _ => hc s hs]))
  · intro c hcm
    obtain ⟨igts', h0, h1, h2⟩ := validateIgts_get hcs
    have : igts' = igts := (List.map_inj_right (fun a b => by simp)).1 h0.symm
    subst this
    obtain ⟨i, hi⟩ := List.mem_iff_getElem?.1 hcm
    obtain ⟨hil, -⟩ := List.getElem?_eq_some_iff.1 hi
    rw [h1] at hil
    obtain ⟨g, hgi⟩ : ∃ g, igts'[i]? = some g := ⟨_, List.getElem?_eq_getElem hil⟩
    obtain ⟨ri, us, h3, h4, h5⟩ := h2 i g hgi
    have hgm : g ∈ igts' := List.mem_of_getElem? hgi
    have hcl := hg g hgm
    rw [h5] at hi
    cases hi
    simp only [validateIgt, bind, Except.bind] at h3
    split at h3
    · cases h3
    next gs hgs =>
    split at h3
    · cases h3
    next ts hts =>
    cases h3
    rw [extend]
    refine no_problem (below_append (conds_below hgs ?_) (cond_below h4 (.inl (by
      rw [List.nil_append, unique_of_not (hd i g hgi)])))) ?_
    · intro r hr a ha
      simp only [List.mem_singleton] at hr
      subst hr
      exact cond_below ha (.inr (by decide))
    · intro c hcm
      obtain ⟨h6, h7⟩ := validateTiers_get hts
      obtain ⟨j, hj⟩ := List.mem_iff_getElem?.1 hcm
      obtain ⟨hjl, -⟩ := List.getElem?_eq_some_iff.1 hj
      rw [h6] at hjl
      obtain ⟨t, htj⟩ : ∃ t, g.kids[j]? = some t := ⟨_, List.getElem?_eq_getElem hjl⟩
      have htm : t ∈ g.kids := List.mem_of_getElem? htj
      obtain ⟨rt, ut, q, h8, h9, h10, h11⟩ := h7 j t htj
      rw [h11] at hj
      cases hj
      obtain ⟨rrs, its, rfl, h12, h13⟩ := validateTier_node h8
      rw [Report.children] at h10
      rw [Report.records]
      refine no_problem (below_append (conds_below h12 ?_) (cond_below h9 (.inl (by
        rw [List.nil_append, unique_of_not (hcl.tiers j t htj)])))) ?_
      · intro r hr a ha
        rcases List.mem_append.1 hr with hr | hr
        · simp only [List.mem_cons, List.not_mem_nil, or_false] at hr
          rcases hr with rfl | rfl | rfl
          · exact cond_below ha (.inr (by decide))
          · exact cond_below ha (.inr (by decide))
          · refine cond_below ha (.inl ?_)
            cases hm : itemRefattrs t with
            | none => rfl
            | some m =>
              exfalso
              obtain ⟨l, -, hl, -, hall⟩ := itemRefattrs_iff.1 hm
              obtain ⟨ra, hra⟩ := List.exists_mem_of_ne_nil l hl
              obtain ⟨k1, k2, x, hx, k3⟩ := (hall ra).1 hra
              exact hcl.attrs t htm x hx ra k1 k3 k2
        · obtain ⟨ra, hra, rfl⟩ := List.mem_map.1 hr
          refine cond_below ha (.inl ?_)
          unfold refIdInIgt
          cases hat : Dict.get? t.data.attrs ra with
          | none => rfl
          | some s =>
            have := hcl.tierRefs t htm ra hra s hat
            simp only
            rw [if_neg]
            rintro ⟨-, hn⟩
            exact this (Option.isNone_iff_eq_none.1 hn)
      · intro c hcm
        obtain ⟨h14, h15⟩ := validateItems_get h13
        obtain ⟨h16, h17, h18⟩ := igtItems_get h14 h10
        obtain ⟨k, hk⟩ := List.mem_iff_getElem?.1 hcm
        obtain ⟨hkl, -⟩ := List.getElem?_eq_some_iff.1 hk
        rw [h16] at hkl
        obtain ⟨x, hxk⟩ : ∃ x, t.kids[k]? = some x := ⟨_, List.getElem?_eq_getElem hkl⟩
        have hxm : x ∈ t.kids := List.mem_of_getElem? hxk
        obtain ⟨rx, ux, h19, h20, h21⟩ := h15 k x hxk
        obtain ⟨uy, h22, h23⟩ := h18 k x _ hxk h19
        rw [h22] at hk
        cases hk
        rw [extend]
        have hrep := hcl.items j t htj k x hxk
        refine no_problem (below_append (below_append (conds_below h20 ?_) (cond_below h21 (.inl (by
          rw [List.nil_append, unique_of_not hrep])))) (cond_below h23 (.inl ?_))) (by simp)
        · intro r hr a ha
          rcases List.mem_cons.1 hr with rfl | hr
          · exact cond_below ha (.inr (by decide))
          · obtain ⟨ra, hra, hr⟩ := List.mem_flatMap.1 hr
            simp only [List.mem_cons, List.not_mem_nil, or_false] at hr
            rcases hr with rfl | rfl | rfl
            · refine cond_below ha (.inl ?_)
              unfold idsInTier
              cases hir : itemRef g t x ra with
              | none => rfl
              | some p =>
                obtain ⟨e, u⟩ := p
                obtain ⟨k1, k2, k3⟩ := itemRef_iff.1 hir
                obtain ⟨s, k4, k5⟩ : ∃ s, Dict.get? t.data.attrs ra = some s ∧ contGet g.kids s = some u := by
                  unfold referredTier at k3
                  split at k3
                  · next s hs =>
                    split at k3
                    · cases k3
                    · split at k3
                      · next hc =>
                        split at k3
                        · cases k3
                        · cases k3; exact ⟨s, hs, hc⟩
                      · cases k3
                  · cases k3
                have : ((ids e).filter fun i => (contGet u.kids i).isNone) = [] := by
                  rw [List.filter_eq_nil_iff]
                  intro i hi hn
                  exact hcl.itemRefs t htm x hxm ra hra e s u k1 k4 k5 i hi (Option.isNone_iff_eq_none.1 hn)
                simp [this]
            · exact cond_below ha (.inr (by decide))
            · exact cond_below ha (.inr (by decide))
        · rw [List.nil_append]
          rw [unique_of]
          intro s hs h0 hm
          rcases List.mem_append.1 hm with hm | hm
          · obtain ⟨j', t', y, hj', ht', hy, hys⟩ := mem_itemsBefore.1 hm
            have := hcl.across j' t' j t ht' htj y hy x hxm s hys hs
            omega
          · obtain ⟨k', y, hk', hy, hys⟩ := mem_idsBefore.1 hm
            exact hrep ⟨s, hs, h0, k', y, hk', hy, hys⟩

/-! ### Different IDs -/

theorem contGet_of_id {xs : List Obj} {x : Obj} {s : Str} (hx : x ∈ xs) (hs : x.data.id = some s) : contGet xs s ≠ none := by
  unfold contGet
  split
  · simp
  · next hn =>
    rw [List.find?_eq_none] at hn
    exact absurd (by simp [hs]) (hn x hx)

theorem not_repeated {xs : List Obj} (h : (xs.map fun x => x.data.id).Nodup) (k : Nat) (x : Obj) (hk : xs[k]? = some x) :
    ¬ Repeated xs k x := by
  rintro ⟨s, hs, -, k', y, hlt, hy, hys⟩
  have e1 : (xs.map fun x => x.data.id)[k]? = some (some s) := by rw [List.getElem?_map, hk]; simp [hs]
  have e2 : (xs.map fun x => x.data.id)[k']? = some (some s) := by rw [List.getElem?_map, hy]; simp [hys]
  obtain ⟨l1, g1⟩ := List.getElem?_eq_some_iff.1 e1
  obtain ⟨l2, g2⟩ := List.getElem?_eq_some_iff.1 e2
  have := (List.getElem_inj h).1 (g1.trans g2.symm)
  omega

/-! ### The same data -/

theorem same_inv {x y : Obj} (h : SameData x y) : x.data.id = y.data.id ∧ x.data.text = y.data.text ∧
    x.data.attrs.Perm y.data.attrs ∧ x.kids.length = y.kids.length ∧
    ∀ (i : Nat) a b, x.kids[i]? = some a → y.kids[i]? = some b → SameData a b := by
  cases h with
  | mk _ h2 _ _ h5 _ h7 _ h9 _ h11 => exact ⟨h2, h5, h7, h9, h11⟩

theorem same_left {x y : Obj} (h : SameData x y) {a : Obj} (ha : a ∈ x.kids) : ∃ b ∈ y.kids, SameData a b := by
  obtain ⟨-, -, -, h4, h5⟩ := same_inv h
  obtain ⟨i, hi⟩ := List.mem_iff_getElem?.1 ha
  obtain ⟨hl, -⟩ := List.getElem?_eq_some_iff.1 hi
  rw [h4] at hl
  exact ⟨_, List.getElem_mem hl, h5 i a _ hi (List.getElem?_eq_getElem hl)⟩

theorem same_right {x y : Obj} (h : SameData x y) {b : Obj} (hb : b ∈ y.kids) : ∃ a ∈ x.kids, SameData a b := by
  obtain ⟨-, -, -, h4, h5⟩ := same_inv h
  obtain ⟨i, hi⟩ := List.mem_iff_getElem?.1 hb
  obtain ⟨hl, -⟩ := List.getElem?_eq_some_iff.1 hi
  rw [← h4] at hl
  exact ⟨_, List.getElem_mem hl, h5 i _ b (List.getElem?_eq_getElem hl) hi⟩

theorem same_ids {x y : Obj} (h : SameData x y) : (x.kids.map fun a => a.data.id) = y.kids.map fun a => a.data.id := by
  obtain ⟨-, -, -, h4, h5⟩ := same_inv h
  apply List.ext_getElem?
  intro i
  rw [List.getElem?_map, List.getElem?_map]
  cases hx : x.kids[i]? with
  | none =>
    rw [List.getElem?_eq_none_iff, h4, ← List.getElem?_eq_none_iff] at hx
    rw [hx]
  | some a =>
    obtain ⟨hl, -⟩ := List.getElem?_eq_some_iff.1 hx
    rw [h4] at hl
    rw [List.getElem?_eq_getElem hl]
    simp only [Option.map_some]
    rw [(same_inv (h5 i a _ hx (List.getElem?_eq_getElem hl))).1]

end

end Xigt.Vld
