import Verif.Scripts.ValidateSame
import Verif.Scripts.SortValues
/-
C139: sorting (/repo/xigt/scripts/xigt_sort.py) does not change what the validator
(/repo/xigt/scripts/xigt_validate.py) finds.
-/

set_option linter.unusedSectionVars false

namespace Xigt.Vld
open Srt Re

section
variable [Uni]

/-! ### Specification -/

/-- no two tiers have the same ID, nor two items of one tier, and what tiers refer to is named -/
structure ByNames (g : Obj) : Prop where
  tiers : (g.kids.filterMap fun t => t.data.id).Nodup
  items : ∀ t ∈ g.kids, (t.kids.filterMap fun i => i.data.id).Nodup
  refs : ∀ t ∈ g.kids, ∀ ra ∈ refAttrs, ∀ v, Dict.get? t.data.attrs ra = some v → ByName g v

theorem ByNames.named {g : Obj} (h : ByNames g) : Named g :=
  ⟨h.tiers, h.items, fun t ht ra v hra hv => h.refs t ht ra (by rcases hra with rfl | rfl <;> simp [refAttrs]) v hv⟩

/-! ### Lookup -/

theorem parseDigits_letter {c : Char} (hc : isLetter c = true) : ∀ (cs : Str) d b, c ∈ cs → parseDigits cs d b = none := by
  intro cs
  induction cs with
  | nil => intro d b h; cases h
  | cons x cs ih =>
    intro d b h
    unfold parseDigits
    rcases List.mem_cons.1 h with rfl | h
    · have h1 : c ≠ '_' := by rintro rfl; exact absurd hc (by decide)
      rw [if_neg h1, letter_not_digit hc]
    · split
      · split
        · rfl
        · exact ih _ _ h
      · split
        · exact ih _ _ h
        · rfl

theorem parseNat_letter {c : Char} (hc : isLetter c = true) {cs : Str} (h : c ∈ cs) : parseNat cs = none := by
  unfold parseNat
  cases cs with
  | nil => cases h
  | cons x cs =>
    simp only
    rcases List.mem_cons.1 h with rfl | h
    · rw [letter_not_digit hc]
    · split
      · exact parseDigits_letter hc _ _ _ h
      · rfl

theorem mem_dropSpace {c : Char} (hc : Uni.isSpace c = false) : ∀ s : Str, c ∈ s → c ∈ s.dropWhile Uni.isSpace := by
  intro s
  induction s with
  | nil => exact id
  | cons x s ih =>
    intro h
    rw [List.dropWhile_cons]
    split
    · rcases List.mem_cons.1 h with rfl | h
      · rename_i h1; rw [hc] at h1; cases h1
      · exact ih h
    · exact h

/-- what contains a letter is not a numeral -/
theorem pyInt_has_letter {s : Str} {c : Char} (hc : isLetter c = true) (h : c ∈ s) : ∀ k, pyInt s ≠ .ok k := by
  have hs : c ∈ strip s := by
    have h1 := mem_dropSpace (letter_not_space hc) s h
    have h2 := mem_dropSpace (letter_not_space hc) _ (List.mem_reverse.2 h1)
    exact List.mem_reverse.2 h2
  intro k hk
  unfold pyInt at hk
  split at hk
  · cases hk
  · rename_i x cs hx
    rw [hx] at hs
    have hm : c ≠ '-' := by rintro rfl; exact absurd hc (by decide)
    have hp : c ≠ '+' := by rintro rfl; exact absurd hc (by decide)
    have hcs : x = '-' ∨ x = '+' → c ∈ cs := by
      intro hx
      rcases List.mem_cons.1 hs with rfl | h
      · rcases hx with h | h
        · exact absurd h hm
        · exact absurd h hp
      · exact h
    split at hk
    · rw [parseNat_letter hc (hcs (.inl (by assumption)))] at hk; cases hk
    · split at hk
      · rw [parseNat_letter hc (hcs (.inr (by assumption)))] at hk; cases hk
      · rw [parseNat_letter hc hs] at hk; cases hk

/-- a text that `selection_re` matches contains a letter -/
theorem selection_letter {s : Str} {x : Str × MSt} (h : selectionRe.match? s = some x) : ∃ c ∈ s, isLetter c = true := by
  have h1 : x ∈ selectionRe.run ⟨true, s, []⟩ := List.mem_of_head? h
  obtain ⟨y, hy, z, hz, rfl⟩ := mem_seq h1
  obtain ⟨y', hy', rfl⟩ := mem_grp hy
  obtain ⟨u, hu, v, hv, rfl⟩ := mem_seq hz
  obtain ⟨u', hu', rfl⟩ := mem_grp hu
  obtain ⟨c, cs, hu'', hc, -⟩ := mem_idRe hu'
  have hs := run_sound' selectionRe _ _ h1
  refine ⟨c, ?_, hc⟩
  simp only at hs
  rw [hs, hu'']
  simp

/-- the tiers before and after -/
def Tr (g t t' : Obj) : Prop := t ∈ g.kids ∧ t'.data = t.data ∧ t'.kids.Perm t.kids

theorem tier_found {g g' : Obj} (hn : ByNames g) (h : Reord 2 g g') {v : Str} (hb : ByName g v) :
    OptR (Tr g) (contGet g.kids v) (contGet g'.kids v) := by
  obtain ⟨-, -, l, hp, ha⟩ := h
  have hb' : (∃ u ∈ g'.kids, u.data.id = some v) ∨ ∀ k, pyInt v ≠ .ok k := by
    rcases hb with ⟨u, hu, hs⟩ | hb
    · obtain ⟨u', hu', hr⟩ := All2.mem_left ha u (hp.mem_iff.2 hu)
      exact .inl ⟨u', hu', by rw [(reord_one hr).1]; exact hs⟩
    · exact .inr hb
  rw [contGet_named hb, contGet_named hb', ← find_perm hp v ((hp.filterMap _).nodup_iff.2 hn.tiers)]
  have hf := find_all2 (fun a b h => (reord_one h).1) v ha
  have hmem : ∀ r, l.find? (fun x => decide (x.data.id = some v)) = some r → r ∈ g.kids := fun r hr =>
    hp.mem_iff.1 (List.mem_of_find?_eq_some hr)
  generalize l.find? (fun x => decide (x.data.id = some v)) = o at hf hmem
  generalize g'.kids.find? (fun x => decide (x.data.id = some v)) = o' at hf
  cases hf with
  | none => exact .none
  | some hr => exact .some ⟨hmem _ rfl, reord_one hr⟩

theorem item_found {g t t' : Obj} (hn : ByNames g) (h : Tr g t t') {s : Str} (hs : ∀ k, pyInt s ≠ .ok k) :
    contGet t'.kids s = contGet t.kids s := by
  rw [contGet_named (.inr hs), contGet_named (.inr hs)]
  exact find_perm h.2.2 s ((h.2.2.filterMap _).nodup_iff.2 (hn.items t h.1))

/-! ### Conditions -/

theorem refIdInIgt_sorted {g g' t t' : Obj} (hn : ByNames g) (h : Reord 2 g g') (ht : Tr g t t') {ra : Str} (hra : ra ∈ refAttrs) :
    refIdInIgt g' t' ra = refIdInIgt g t ra := by
  simp only [refIdInIgt, ht.2.1]
  cases hv : Dict.get? t.data.attrs ra with
  | none => rfl
  | some v =>
    have : (contGet g'.kids v).isNone = (contGet g.kids v).isNone := by
      have := tier_found hn h (hn.refs t ht.1 ra hra v hv)
      generalize contGet g.kids v = o at this
      generalize contGet g'.kids v = o' at this
      cases this <;> rfl
    simp only [this]

theorem any_sorted {l l' : List Obj} (h : l'.Perm l) (f : Obj → Bool) : l'.any f = l.any f := by
  rw [Bool.eq_iff_iff, List.any_eq_true, List.any_eq_true]
  simp only [h.mem_iff]

theorem itemRefattrs_sorted {g t t' : Obj} (ht : Tr g t t') : itemRefattrs t' = itemRefattrs t := by
  simp only [itemRefattrs, ht.2.1, any_sorted ht.2.2]

theorem referredTier_sorted {g g' t t' : Obj} (hn : ByNames g) (h : Reord 2 g g') (ht : Tr g t t') {ra : Str} (hra : ra ∈ refAttrs) :
    OptR (Tr g) (referredTier g t ra) (referredTier g' t' ra) := by
  simp only [referredTier, ht.2.1]
  cases hv : Dict.get? t.data.attrs ra with
  | none => exact .none
  | some v =>
    simp only
    by_cases h0 : v = []
    · rw [if_pos h0, if_pos h0]; exact .none
    · rw [if_neg h0, if_neg h0]
      have := tier_found hn h (hn.refs t ht.1 ra hra v hv)
      generalize contGet g.kids v = o at this
      generalize contGet g'.kids v = o' at this
      cases this with
      | none => exact .none
      | @some u u' hu =>
        simp only
        have he : u'.kids = [] ↔ u.kids = [] := by
          rw [← List.length_eq_zero_iff, ← List.length_eq_zero_iff, hu.2.2.length_eq]
        by_cases h1 : u.kids = []
        · rw [if_pos h1, if_pos (he.2 h1)]; exact .none
        · rw [if_neg h1, if_neg fun h => h1 (he.1 h)]; exact .some hu

theorem itemRef_sorted {g g' t t' : Obj} (hn : ByNames g) (h : Reord 2 g g') (ht : Tr g t t') {ra : Str} (hra : ra ∈ refAttrs) (x : Obj) :
    (itemRef g t x ra = none ∧ itemRef g' t' x ra = none) ∨
    ∃ e u u', itemRef g t x ra = some (e, u) ∧ itemRef g' t' x ra = some (e, u') ∧ Tr g u u' := by
  simp only [itemRef]
  have := referredTier_sorted hn h ht hra
  cases Dict.get? x.data.attrs ra with
  | none => exact .inl ⟨rfl, rfl⟩
  | some e =>
    generalize referredTier g t ra = o at this
    generalize referredTier g' t' ra = o' at this
    cases this with
    | none => exact .inl ⟨rfl, rfl⟩
    | some hu =>
      simp only
      by_cases h0 : e = []
      · rw [if_pos h0, if_pos h0]; exact .inl ⟨rfl, rfl⟩
      · rw [if_neg h0, if_neg h0]; exact .inr ⟨_, _, _, rfl, rfl, hu⟩

theorem idOK_not_int {i : Str} (h : IdOK i) : ∀ k, pyInt i ≠ .ok k := by
  intro k hk
  rw [pyInt_letter (idOK_accepted h)] at hk
  cases hk

theorem idsInTier_sorted {g g' t t' : Obj} (hn : ByNames g) (h : Reord 2 g g') (ht : Tr g t t') {ra : Str} (hra : ra ∈ refAttrs) (x : Obj) :
    idsInTier g' t' x ra = idsInTier g t x ra := by
  unfold idsInTier
  rcases itemRef_sorted hn h ht hra x with ⟨h1, h2⟩ | ⟨e, u, u', h1, h2, hu⟩ <;> rw [h1, h2]
  have : ((ids e).filter fun i => (contGet u'.kids i).isNone) = (ids e).filter fun i => (contGet u.kids i).isNone :=
    List.filter_congr fun i hi => by rw [item_found hn hu (idOK_not_int (C13_ids_occur e i hi).1)]
  simp only [this, hu.2.1]

theorem spansOutLoop_sorted {depth : Nat} {g g' u u' : Obj} (hn : ByNames g) (h : Reord 2 g g') (hu : Tr g u u') : ∀ toks,
    spansOutLoop depth g' u' toks = spansOutLoop depth g u toks := by
  intro toks
  induction toks with
  | nil => rfl
  | cons s toks ih =>
    simp only [spansOutLoop, ih]
    split
    · rfl
    · split
      · rfl
      · next m hm =>
        have hid := selection_id rfl (List.mem_of_head? hm)
        simp only [item_found hn hu (idOK_not_int hid), value_sorted hn.named h depth u u' _ hu.1 hu.2.1]

/-- once the spans were looked at without exception -/
theorem overlapLoop_sorted {depth : Nat} {g g' u u' : Obj} (hn : ByNames g) (h : Reord 2 g g') (hu : Tr g u u') : ∀ toks l d,
    spansOutLoop depth g u toks = .ok l → overlapLoop depth g' u' toks d = overlapLoop depth g u toks d := by
  intro toks
  induction toks with
  | nil => intro l d _; rfl
  | cons s toks ih =>
    intro l d hl
    unfold spansOutLoop at hl
    unfold overlapLoop
    by_cases h0 : isDelim s = true
    · rw [if_pos h0, if_pos h0]
      rw [if_pos h0] at hl
      exact ih l d hl
    · rw [if_neg h0, if_neg h0]
      rw [if_neg h0] at hl
      split at hl
      · cases hl
      · next m hm =>
        obtain ⟨c, hc, hcl⟩ := selection_letter hm
        have hrest : ∃ l, spansOutLoop depth g u toks = .ok l := by
          split at hl
          · exact ⟨l, hl⟩
          · split at hl
            · cases hl
            · simp only [bind, Except.bind] at hl
              split at hl
              · cases hl
              · split at hl
                · cases hl
                · split at hl
                  · exact ⟨l, hl⟩
                  · split at hl
                    · cases hl
                    · split at hl
                      · cases hl
                      · split at hl
                        · cases hl
                        · exact ⟨_, by assumption⟩
        obtain ⟨l', hl'⟩ := hrest
        rw [item_found hn hu (pyInt_has_letter hcl hc)]
        simp only [value_sorted hn.named h depth u u' _ hu.1 hu.2.1, ih l' _ hl']

theorem spansInItem_sorted {depth : Nat} {g g' t t' : Obj} (hn : ByNames g) (h : Reord 2 g g') (ht : Tr g t t') {ra : Str}
    (hra : ra ∈ refAttrs) (x : Obj) : spansInItem depth g' t' x ra = spansInItem depth g t x ra := by
  unfold spansInItem
  rcases itemRef_sorted hn h ht hra x with ⟨h1, h2⟩ | ⟨e, u, u', h1, h2, hu⟩ <;> rw [h1, h2]
  simp only [spansOutLoop_sorted hn h hu]

theorem spansOverlap_sorted {depth : Nat} {g g' t t' : Obj} (hn : ByNames g) (h : Reord 2 g g') (ht : Tr g t t') {ra : Str}
    (hra : ra ∈ refAttrs) (x : Obj) {o} (ho : spansInItem depth g t x ra = .ok o) : spansOverlap depth g' t' x ra = spansOverlap depth g t x ra := by
  unfold spansInItem at ho
  unfold spansOverlap
  rcases itemRef_sorted hn h ht hra x with ⟨h1, h2⟩ | ⟨e, u, u', h1, h2, hu⟩ <;> rw [h1, h2]
  rw [h1] at ho
  simp only [bind, Except.bind] at ho
  split at ho
  · cases ho
  · rename_i l hl
    simp only [overlapLoop_sorted hn h hu _ l _ hl]

theorem conds_congr {r : Py (List Rec)} {l l' : List (Py (List Rec))} (h : ∀ a, r = .ok a → conds l = conds l') :
    conds (r :: l) = conds (r :: l') := by
  simp only [conds]
  cases r with
  | error e => rfl
  | ok a => rw [h a rfl]

theorem validateItem_sorted {depth : Nat} {g g' t t' : Obj} (hn : ByNames g) (h : Reord 2 g g') (ht : Tr g t t') (x : Obj) :
    validateItem depth g' t' x = validateItem depth g t x := by
  have step : ∀ l : List Str, (∀ ra ∈ l, ra ∈ refAttrs) →
      conds (l.flatMap fun ra => [cond ERROR (.ok (idsInTier g' t' x ra)), cond WARNING (spansInItem depth g' t' x ra),
        cond WARNING (spansOverlap depth g' t' x ra)]) =
      conds (l.flatMap fun ra => [cond ERROR (.ok (idsInTier g t x ra)), cond WARNING (spansInItem depth g t x ra),
        cond WARNING (spansOverlap depth g t x ra)]) := by
    intro l
    induction l with
    | nil => intro _; rfl
    | cons ra l ih =>
      intro hl
      have hra := hl ra (List.mem_cons_self ..)
      have ih := ih fun r hr => hl r (List.mem_cons_of_mem _ hr)
      simp only [List.flatMap_cons, List.cons_append, List.nil_append]
      rw [idsInTier_sorted hn h ht hra, spansInItem_sorted hn h ht hra]
      refine conds_congr fun _ _ => conds_congr fun a ha => ?_
      obtain ⟨o, ho, -⟩ := cond_ok ha
      rw [spansOverlap_sorted hn h ht hra x ho]
      exact conds_congr fun _ _ => ih
  unfold validateItem
  exact conds_congr fun _ _ => step refAttrs fun _ h => h

/-! ### Problems, whatever the order -/

/-- a record of at least the level -/
def HasLvl (lvl : Nat) (rs : List Rec) : Prop := ∃ r ∈ rs, lvl ≤ r.level

theorem hasLvl_append {lvl : Nat} {a b : List Rec} : HasLvl lvl (a ++ b) ↔ HasLvl lvl a ∨ HasLvl lvl b := by
  simp only [HasLvl, List.mem_append]
  constructor
  · rintro ⟨r, h | h, hl⟩
    · exact .inl ⟨r, h, hl⟩
    · exact .inr ⟨r, h, hl⟩
  · rintro (⟨r, h, hl⟩ | ⟨r, h, hl⟩)
    · exact ⟨r, .inl h, hl⟩
    · exact ⟨r, .inr h, hl⟩

theorem problem_node {lvl : Nat} {rs : List Rec} {cs : List Report} :
    Problem lvl (.node rs cs) ↔ HasLvl lvl rs ∨ ∃ c ∈ cs, Problem lvl c := by
  constructor
  · intro h
    cases h with
    | here hx hl => exact .inl ⟨_, hx, hl⟩
    | within hc hp => exact .inr ⟨_, hc, hp⟩
  · rintro (⟨r, hr, hl⟩ | ⟨c, hc, hp⟩)
    · exact .here hr hl
    · exact .within hc hp

theorem problem_extend {lvl : Nat} {us : List Rec} {r : Report} (hr : r ≠ .empty) :
    Problem lvl (extend us r) ↔ Problem lvl r ∨ HasLvl lvl us := by
  cases r with
  | empty => exact absurd rfl hr
  | node rs cs =>
    rw [extend, problem_node, problem_node, hasLvl_append]
    constructor
    · rintro ((h | h) | h)
      · exact .inl (.inl h)
      · exact .inr h
      · exact .inl (.inr h)
    · rintro ((h | h) | h)
      · exact .inl (.inl h)
      · exact .inr h
      · exact .inl (.inr h)

theorem all2_right {α β : Type} {R : α → β → Prop} {as : List α} {bs : List β} (h : All2 R as bs) : ∀ b ∈ bs, ∃ a ∈ as, R a b := by
  induction h with
  | nil => intro b hb; cases hb
  | cons h _ ih =>
    intro b hb
    rcases List.mem_cons.1 hb with rfl | hb
    · exact ⟨_, List.mem_cons_self .., h⟩
    · obtain ⟨a, ha, hr⟩ := ih b hb
      exact ⟨a, List.mem_cons_of_mem _ ha, hr⟩

/-- an ID that was seen comes again -/
def Dup (seen : List Str) : List Obj → Prop
  | [] => False
  | x :: xs => idIsUnique seen x ≠ none ∨ Dup (addId seen x) xs

/-- the IDs -/
def idsOf (xs : List Obj) : List Str := xs.filterMap fun x => x.data.id

theorem dup_iff : ∀ (xs : List Obj) (seen : List Str), Dup seen xs ↔
    ∃ s, s ≠ [] ∧ ((s ∈ seen ∧ s ∈ idsOf xs) ∨ 2 ≤ (idsOf xs).count s) := by
  intro xs
  induction xs with
  | nil => intro seen; simp [Dup, idsOf]
  | cons x xs ih =>
    intro seen
    have hu : idIsUnique seen x ≠ none ↔ ∃ s, x.data.id = some s ∧ s ≠ [] ∧ s ∈ seen := by
      constructor
      · intro h
        cases hu : idIsUnique seen x with
        | none => exact absurd hu h
        | some m => exact (idIsUnique_iff.1 hu).2
      · rintro h hu
        rw [idIsUnique_iff.2 ⟨rfl, h⟩] at hu; cases hu
    simp only [Dup, ih, hu]
    cases hx : x.data.id with
    | none => simp [idsOf, hx, addId]
    | some i =>
      have h1 : idsOf (x :: xs) = i :: idsOf xs := by simp [idsOf, hx]
      have h2 : addId seen x = seen ++ [i] := by simp [addId, hx]
      rw [h1, h2]
      simp only [List.mem_append, List.mem_cons, List.not_mem_nil, or_false, List.count_cons]
      constructor
      · rintro (⟨s, hs, h0, h⟩ | ⟨s, h0, ⟨h | rfl, hm⟩ | h⟩)
        · cases hs; exact ⟨i, h0, .inl ⟨h, .inl rfl⟩⟩
        · exact ⟨s, h0, .inl ⟨h, .inr hm⟩⟩
        · have := List.count_pos_iff.2 hm
          exact ⟨s, h0, .inr (by simp; omega)⟩
        · exact ⟨s, h0, .inr (by omega)⟩
      · rintro ⟨s, h0, ⟨h, rfl | hm⟩ | h⟩
        · exact .inl ⟨s, rfl, h0, h⟩
        · exact .inr ⟨s, h0, .inl ⟨.inl h, hm⟩⟩
        · by_cases hs : i = s
          · subst hs
            rw [if_pos (by simp)] at h
            exact .inr ⟨i, h0, .inl ⟨.inr rfl, List.count_pos_iff.1 (by omega)⟩⟩
          · have : (i == s) = false := by simpa using hs
            simp [this] at h
            exact .inr ⟨s, h0, .inr h⟩

theorem dup_perm {seen : List Str} {xs ys : List Obj} (h : (idsOf xs).Perm (idsOf ys)) : Dup seen xs ↔ Dup seen ys := by
  rw [dup_iff, dup_iff]
  simp only [h.mem_iff, h.count_eq]

theorem cond_dup (lvl : Nat) (seen : List Str) (x : Obj) : ∃ us, cond ERROR (.ok (idIsUnique seen x)) = .ok us ∧
    (HasLvl lvl us ↔ lvl ≤ ERROR ∧ idIsUnique seen x ≠ none) := by
  cases hu : idIsUnique seen x with
  | none => exact ⟨[], rfl, by simp [HasLvl]⟩
  | some m =>
    obtain ⟨rfl, -⟩ := idIsUnique_iff.1 hu
    exact ⟨[⟨ERROR, .notUnique⟩], rfl, by simp [HasLvl]⟩

theorem validateItems_order {depth : Nat} {g t : Obj} : ∀ (xs : List Obj) (seen : List Str),
    (∀ x ∈ xs, ∃ rs, validateItem depth g t x = .ok rs) → ∃ cs, validateItems depth g t xs seen = .ok cs ∧ cs.length = xs.length ∧
      (∀ c ∈ cs, c ≠ .empty) ∧ ∀ lvl, (∃ c ∈ cs, Problem lvl c) ↔
        (∃ x ∈ xs, ∃ rs, validateItem depth g t x = .ok rs ∧ HasLvl lvl rs) ∨ (lvl ≤ ERROR ∧ Dup seen xs) := by
  intro xs
  induction xs with
  | nil => intro seen _; exact ⟨[], rfl, rfl, by simp, by simp [Dup]⟩
  | cons x xs ih =>
    intro seen h
    obtain ⟨rs, hrs⟩ := h x (List.mem_cons_self ..)
    obtain ⟨cs, h1, h2, h3, h4⟩ := ih (addId seen x) fun y hy => h y (List.mem_cons_of_mem _ hy)
    obtain ⟨us, hus, -⟩ := cond_dup 0 seen x
    refine ⟨.node (rs ++ us) [] :: cs, ?_, by simp [h2], ?_, fun lvl => ?_⟩
    · simp only [validateItems, hrs, hus, h1, bind, Except.bind]
    · intro c hc
      rcases List.mem_cons.1 hc with rfl | hc
      · exact fun h => by cases h
      · exact h3 c hc
    · obtain ⟨us', hus', hl⟩ := cond_dup lvl seen x
      rw [hus] at hus'
      cases hus'
      have h4 := h4 lvl
      have hn : Problem lvl (.node (rs ++ us) []) ↔ HasLvl lvl rs ∨ (lvl ≤ ERROR ∧ idIsUnique seen x ≠ none) := by
        rw [problem_node, hasLvl_append, hl]
        simp
      simp only [List.mem_cons, Dup]
      constructor
      · rintro ⟨c, rfl | hc, hp⟩
        · rcases hn.1 hp with hp | hp
          · exact .inl ⟨x, .inl rfl, rs, hrs, hp⟩
          · exact .inr ⟨hp.1, .inl hp.2⟩
        · rcases h4.1 ⟨c, hc, hp⟩ with ⟨y, hy, hp⟩ | hp
          · exact .inl ⟨y, .inr hy, hp⟩
          · exact .inr ⟨hp.1, .inr hp.2⟩
      · rintro (⟨y, rfl | hy, rs', hrs', hp⟩ | ⟨hl, hp | hp⟩)
        · rw [hrs] at hrs'; cases hrs'
          exact ⟨_, .inl rfl, hn.2 (.inl hp)⟩
        · obtain ⟨c, hc, hp⟩ := h4.2 (.inl ⟨y, hy, rs', hrs', hp⟩)
          exact ⟨c, .inr hc, hp⟩
        · exact ⟨_, .inl rfl, hn.2 (.inr ⟨hl, hp⟩)⟩
        · obtain ⟨c, hc, hp⟩ := h4.2 (.inr ⟨hl, hp⟩)
          exact ⟨c, .inr hc, hp⟩

theorem validateItems_inv {depth : Nat} {g t : Obj} : ∀ {xs : List Obj} {seen : List Str} {cs}, validateItems depth g t xs seen = .ok cs →
    ∀ x ∈ xs, ∃ rs, validateItem depth g t x = .ok rs := by
  intro xs
  induction xs with
  | nil => intro _ _ _ x hx; cases hx
  | cons y xs ih =>
    intro seen cs h x hx
    simp only [validateItems, bind, Except.bind] at h
    split at h
    · cases h
    · rename_i rs hrs
      split at h
      · cases h
      · split at h
        · cases h
        · rename_i l hl
          rcases List.mem_cons.1 hx with rfl | hx
          · exact ⟨rs, hrs⟩
          · exact ih hl x hx

/-- the records of a tier -/
def tierConds (g t : Obj) : Py (List Rec) := conds ([cond WARNING (.ok (hasId t)), cond WARNING (.ok (hasType t)),
    cond ERROR (.ok (itemRefattrs t))] ++ refAttrs.map fun ra => cond ERROR (.ok (refIdInIgt g t ra)))

theorem tierConds_sorted {g g' t t' : Obj} (hn : ByNames g) (h : Reord 2 g g') (ht : Tr g t t') : tierConds g' t' = tierConds g t := by
  have h1 : (refAttrs.map fun ra => cond ERROR (.ok (refIdInIgt g' t' ra))) = refAttrs.map fun ra => cond ERROR (.ok (refIdInIgt g t ra)) :=
    List.map_congr_left fun ra hra => by rw [refIdInIgt_sorted hn h ht hra]
  unfold tierConds
  rw [h1]
  simp only [hasId, hasType, ht.2.1, itemRefattrs_sorted ht]

/-- when the validation of a tier finishes, and with what problems -/
theorem validateTier_order {depth : Nat} {g t : Obj} : ((∃ rs, tierConds g t = .ok rs) → (∀ x ∈ t.kids, ∃ rs, validateItem depth g t x = .ok rs) →
      ∃ r, validateTier depth g t = .ok r) ∧
    ∀ r, validateTier depth g t = .ok r → ∃ rs, tierConds g t = .ok rs ∧ (∀ x ∈ t.kids, ∃ rs, validateItem depth g t x = .ok rs) ∧
      (∀ lvl, Problem lvl r ↔ HasLvl lvl rs ∨ (∃ x ∈ t.kids, ∃ rs, validateItem depth g t x = .ok rs ∧ HasLvl lvl rs) ∨
        (lvl ≤ ERROR ∧ Dup [] t.kids)) ∧ ∃ cs, r = .node rs cs ∧ cs.length = t.kids.length ∧ ∀ c ∈ cs, c ≠ .empty := by
  constructor
  · rintro ⟨rs, hrs⟩ hi
    obtain ⟨cs, hcs, -⟩ := validateItems_order t.kids [] hi
    unfold tierConds at hrs
    exact ⟨.node rs cs, by simp only [validateTier, hrs, hcs, bind, Except.bind]⟩
  · intro r h
    simp only [validateTier, bind, Except.bind] at h
    split at h
    · cases h
    · rename_i rs hrs
      split at h
      · cases h
      · rename_i cs hcs
        cases h
        have hi := validateItems_inv hcs
        obtain ⟨cs', hcs', h2, h3, h4⟩ := validateItems_order t.kids [] hi
        rw [hcs] at hcs'
        cases hcs'
        exact ⟨rs, hrs, hi, fun lvl => by rw [problem_node, h4 lvl], cs, rfl, h2, h3⟩

theorem validateTier_sorted {depth : Nat} {g g' t t' : Obj} (hn : ByNames g) (h : Reord 2 g g') (ht : Tr g t t') {r : Report}
    (hr : validateTier depth g t = .ok r) : ∃ r', validateTier depth g' t' = .ok r' ∧ ∀ lvl, Problem lvl r' ↔ Problem lvl r := by
  obtain ⟨rs, h1, h2, h3, -⟩ := (validateTier_order (depth := depth)).2 r hr
  have hi : ∀ x ∈ t'.kids, ∃ rs, validateItem depth g' t' x = .ok rs := fun x hx => by
    rw [validateItem_sorted hn h ht x]; exact h2 x (ht.2.2.mem_iff.1 hx)
  obtain ⟨r', hr'⟩ := (validateTier_order (depth := depth)).1 ⟨rs, (tierConds_sorted hn h ht).trans h1⟩ hi
  obtain ⟨rs', g1, -, g3, -⟩ := (validateTier_order (depth := depth)).2 r' hr'
  rw [tierConds_sorted hn h ht, h1] at g1
  cases g1
  refine ⟨r', hr', fun lvl => ?_⟩
  rw [g3 lvl, h3 lvl, dup_perm (ht.2.2.filterMap _)]
  simp only [validateItem_sorted hn h ht, ht.2.2.mem_iff]

/-! ### Igts and corpora -/

theorem addId_ids (seen : List Str) (x : Obj) (xs : List Obj) : addId seen x ++ idsOf xs = seen ++ idsOf (x :: xs) := by
  unfold addId idsOf
  cases hx : x.data.id <;> simp [hx]

theorem igtItems_order : ∀ (xs : List Obj) (rs : List Report) (seen : List Str), rs.length = xs.length → (∀ r ∈ rs, r ≠ .empty) →
    ∃ cs, igtItems (xs.zip rs) seen = .ok (cs, seen ++ idsOf xs) ∧ ∀ lvl, (∃ c ∈ cs, Problem lvl c) ↔
      (∃ c ∈ rs, Problem lvl c) ∨ (lvl ≤ ERROR ∧ Dup seen xs) := by
  intro xs
  induction xs with
  | nil =>
    intro rs seen hl _
    cases rs with
    | nil => exact ⟨[], by simp [igtItems, idsOf], by simp [Dup]⟩
    | cons r rs => cases hl
  | cons x xs ih =>
    intro rs seen hlen hne
    cases rs with
    | nil => cases hlen
    | cons r rs =>
      obtain ⟨cs, h1, h2⟩ := ih rs (addId seen x) (by simpa using hlen) fun c hc => hne c (List.mem_cons_of_mem _ hc)
      obtain ⟨us, hus, -⟩ := cond_dup 0 seen x
      refine ⟨extend us r :: cs, ?_, fun lvl => ?_⟩
      · simp only [List.zip_cons_cons, igtItems, hus, h1, bind, Except.bind, addId_ids]
      · obtain ⟨us', hus', hl⟩ := cond_dup lvl seen x
        rw [hus] at hus'
        cases hus'
        have h2 := h2 lvl
        have hr := problem_extend (us := us) (lvl := lvl) (hne r (List.mem_cons_self ..))
        rw [hl] at hr
        simp only [List.mem_cons, Dup]
        constructor
        · rintro ⟨c, rfl | hc, hp⟩
          · rcases hr.1 hp with hp | hp
            · exact .inl ⟨r, .inl rfl, hp⟩
            · exact .inr ⟨hp.1, .inl hp.2⟩
          · rcases h2.1 ⟨c, hc, hp⟩ with ⟨y, hy, hp⟩ | hp
            · exact .inl ⟨y, .inr hy, hp⟩
            · exact .inr ⟨hp.1, .inr hp.2⟩
        · rintro (⟨y, rfl | hy, hp⟩ | ⟨hl, hp | hp⟩)
          · exact ⟨_, .inl rfl, hr.2 (.inl hp)⟩
          · obtain ⟨c, hc, hp⟩ := h2.2 (.inl ⟨y, hy, hp⟩)
            exact ⟨c, .inr hc, hp⟩
          · exact ⟨_, .inl rfl, hr.2 (.inr ⟨hl, hp⟩)⟩
          · obtain ⟨c, hc, hp⟩ := h2.2 (.inr ⟨hl, hp⟩)
            exact ⟨c, .inr hc, hp⟩

theorem dup_append (seen : List Str) : ∀ (xs ys : List Obj), Dup seen (xs ++ ys) ↔ Dup seen xs ∨ Dup (seen ++ idsOf xs) ys := by
  intro xs
  induction xs generalizing seen with
  | nil => intro ys; simp [Dup, idsOf]
  | cons x xs ih =>
    intro ys
    simp only [List.cons_append, Dup, ih, addId_ids, or_assoc]

theorem validateTiers_order {depth : Nat} {g : Obj} : ∀ (ts : List Obj) (tseen iseen : List Str),
    (∀ t ∈ ts, ∃ r, validateTier depth g t = .ok r) → ∃ cs, validateTiers depth g ts tseen iseen = .ok cs ∧
      ∀ lvl, (∃ c ∈ cs, Problem lvl c) ↔ (∃ t ∈ ts, ∃ r, validateTier depth g t = .ok r ∧ Problem lvl r) ∨
        (lvl ≤ ERROR ∧ (Dup tseen ts ∨ Dup iseen (ts.flatMap Obj.kids))) := by
  intro ts
  induction ts with
  | nil => intro _ _ _; exact ⟨[], rfl, by simp [Dup]⟩
  | cons t ts ih =>
    intro tseen iseen h
    obtain ⟨r, hr⟩ := h t (List.mem_cons_self ..)
    obtain ⟨rs, h1, -, h3, cs, rfl, h5, h6⟩ := (validateTier_order (depth := depth)).2 r hr
    obtain ⟨us, hus, -⟩ := cond_dup 0 tseen t
    obtain ⟨ps, hps, hpl⟩ := igtItems_order t.kids cs iseen h5 h6
    obtain ⟨ls, hls, hll⟩ := ih (addId tseen t) (iseen ++ idsOf t.kids) fun y hy => h y (List.mem_cons_of_mem _ hy)
    refine ⟨.node (rs ++ us) ps :: ls, ?_, fun lvl => ?_⟩
    · simp only [validateTiers, hr, hus, Report.children, Report.records, hps, hls, bind, Except.bind]
    · obtain ⟨us', hus', hl⟩ := cond_dup lvl tseen t
      rw [hus] at hus'
      cases hus'
      have hpl := hpl lvl
      have hll := hll lvl
      have hn : Problem lvl (.node (rs ++ us) ps) ↔ Problem lvl (.node rs cs) ∨
          (lvl ≤ ERROR ∧ (idIsUnique tseen t ≠ none ∨ Dup iseen t.kids)) := by
        rw [problem_node, problem_node, hasLvl_append, hl, hpl]
        constructor
        · rintro ((h | h) | h | h)
          · exact .inl (.inl h)
          · exact .inr ⟨h.1, .inl h.2⟩
          · exact .inl (.inr h)
          · exact .inr ⟨h.1, .inr h.2⟩
        · rintro ((h | h) | ⟨h0, h | h⟩)
          · exact .inl (.inl h)
          · exact .inr (.inl h)
          · exact .inl (.inr ⟨h0, h⟩)
          · exact .inr (.inr ⟨h0, h⟩)
      simp only [List.mem_cons, List.flatMap_cons, Dup, dup_append]
      constructor
      · rintro ⟨c, rfl | hc, hp⟩
        · rcases hn.1 hp with hp | ⟨h0, hp | hp⟩
          · exact .inl ⟨t, .inl rfl, _, hr, hp⟩
          · exact .inr ⟨h0, .inl (.inl hp)⟩
          · exact .inr ⟨h0, .inr (.inl hp)⟩
        · rcases hll.1 ⟨c, hc, hp⟩ with ⟨y, hy, hp⟩ | ⟨h0, hp | hp⟩
          · exact .inl ⟨y, .inr hy, hp⟩
          · exact .inr ⟨h0, .inl (.inr hp)⟩
          · exact .inr ⟨h0, .inr (.inr hp)⟩
      · rintro (⟨y, rfl | hy, r', hr', hp⟩ | ⟨h0, (hp | hp) | hp | hp⟩)
        · rw [hr] at hr'; cases hr'
          exact ⟨_, .inl rfl, hn.2 (.inl hp)⟩
        · obtain ⟨c, hc, hp⟩ := hll.2 (.inl ⟨y, hy, r', hr', hp⟩)
          exact ⟨c, .inr hc, hp⟩
        · exact ⟨_, .inl rfl, hn.2 (.inr ⟨h0, .inl hp⟩)⟩
        · obtain ⟨c, hc, hp⟩ := hll.2 (.inr ⟨h0, .inl hp⟩)
          exact ⟨c, .inr hc, hp⟩
        · exact ⟨_, .inl rfl, hn.2 (.inr ⟨h0, .inr hp⟩)⟩
        · obtain ⟨c, hc, hp⟩ := hll.2 (.inr ⟨h0, .inr hp⟩)
          exact ⟨c, .inr hc, hp⟩

theorem validateTiers_inv {depth : Nat} {g : Obj} : ∀ {ts : List Obj} {tseen iseen : List Str} {cs}, validateTiers depth g ts tseen iseen = .ok cs →
    ∀ t ∈ ts, ∃ r, validateTier depth g t = .ok r := by
  intro ts
  induction ts with
  | nil => intro _ _ _ _ x hx; cases hx
  | cons y ts ih =>
    intro tseen iseen cs h x hx
    simp only [validateTiers, bind, Except.bind] at h
    split at h
    · cases h
    · rename_i r hr
      split at h
      · cases h
      · split at h
        · cases h
        · split at h
          · cases h
          · rename_i l hl
            rcases List.mem_cons.1 hx with rfl | hx
            · exact ⟨r, hr⟩
            · exact ih hl x hx

/-- an igt: when the validation finishes, and with what problems -/
theorem validateIgt_order {depth : Nat} {g : Obj} : ((∀ t ∈ g.kids, ∃ r, validateTier depth g t = .ok r) → ∃ r, validateIgt depth g = .ok r) ∧
    ∀ r, validateIgt depth g = .ok r → (∀ t ∈ g.kids, ∃ r, validateTier depth g t = .ok r) ∧ r ≠ .empty ∧
      ∀ lvl, Problem lvl r ↔ (lvl ≤ WARNING ∧ hasId g ≠ none) ∨ (∃ t ∈ g.kids, ∃ r, validateTier depth g t = .ok r ∧ Problem lvl r) ∨
        (lvl ≤ ERROR ∧ (Dup [] g.kids ∨ Dup [] (g.kids.flatMap Obj.kids))) := by
  have hid : ∃ rs, conds [cond WARNING (.ok (hasId g))] = .ok rs ∧ ∀ lvl, HasLvl lvl rs ↔ lvl ≤ WARNING ∧ hasId g ≠ none := by
    cases h : hasId g with
    | none => exact ⟨[], rfl, by simp [HasLvl]⟩
    | some m =>
      obtain ⟨rfl, -⟩ := hasId_iff.1 h
      exact ⟨[⟨WARNING, .noId⟩], rfl, by simp [HasLvl]⟩
  obtain ⟨rs, hrs, hl⟩ := hid
  constructor
  · intro h
    obtain ⟨cs, hcs, -⟩ := validateTiers_order g.kids [] [] h
    exact ⟨.node rs cs, by simp only [validateIgt, hrs, hcs, bind, Except.bind]⟩
  · intro r h
    simp only [validateIgt, hrs, bind, Except.bind] at h
    split at h
    · cases h
    · rename_i cs hcs
      cases h
      have hi := validateTiers_inv hcs
      obtain ⟨cs', hcs', h2⟩ := validateTiers_order g.kids [] [] hi
      rw [hcs] at hcs'
      cases hcs'
      exact ⟨hi, fun h => (by cases h), fun lvl => by rw [problem_node, hl, h2 lvl]⟩

theorem idsOf_all2 {R : Obj → Obj → Prop} (hR : ∀ a b, R a b → b.data = a.data) {l l' : List Obj} (h : All2 R l l') : idsOf l' = idsOf l := by
  induction h with
  | nil => rfl
  | cons h _ ih =>
    unfold idsOf at ih ⊢
    rw [List.filterMap_cons, List.filterMap_cons, hR _ _ h, ih]

theorem idsOf_perm {l l' : List Obj} (h : l.Perm l') : (idsOf l).Perm (idsOf l') := h.filterMap _

theorem idsOf_append (a b : List Obj) : idsOf (a ++ b) = idsOf a ++ idsOf b := by simp [idsOf]

theorem kids_all2 {l l' : List Obj} (h : All2 (Reord 1) l l') : (idsOf (l'.flatMap Obj.kids)).Perm (idsOf (l.flatMap Obj.kids)) := by
  induction h with
  | nil => exact .refl _
  | cons h _ ih =>
    rw [List.flatMap_cons, List.flatMap_cons, idsOf_append, idsOf_append]
    exact (idsOf_perm (reord_one h).2).append ih

theorem validateIgt_sorted {depth : Nat} {g g' : Obj} (hn : ByNames g) (h : Reord 2 g g') {r : Report} (hr : validateIgt depth g = .ok r) :
    ∃ r', validateIgt depth g' = .ok r' ∧ ∀ lvl, Problem lvl r' ↔ Problem lvl r := by
  obtain ⟨h1, -, h3⟩ := (validateIgt_order (depth := depth)).2 r hr
  have hh := h
  obtain ⟨hd, -, l, hp, ha⟩ := h
  have hto : ∀ t' ∈ g'.kids, ∃ t ∈ g.kids, Tr g t t' := fun t' ht' => by
    obtain ⟨t, ht, hr⟩ := all2_right ha _ ht'
    have ht := hp.mem_iff.1 ht
    exact ⟨t, ht, ht, reord_one hr⟩
  have hfrom : ∀ t ∈ g.kids, ∃ t' ∈ g'.kids, Tr g t t' := fun t ht => by
    obtain ⟨t', ht', hr⟩ := All2.mem_left ha t (hp.mem_iff.2 ht)
    exact ⟨t', ht', ht, reord_one hr⟩
  have hi : ∀ t' ∈ g'.kids, ∃ r, validateTier depth g' t' = .ok r := fun t' ht' => by
    obtain ⟨t, ht, htr⟩ := hto t' ht'
    obtain ⟨r, hr⟩ := h1 t ht
    obtain ⟨r', hr', -⟩ := validateTier_sorted hn hh htr hr
    exact ⟨r', hr'⟩
  obtain ⟨r', hr'⟩ := (validateIgt_order (depth := depth)).1 hi
  obtain ⟨-, -, g3⟩ := (validateIgt_order (depth := depth)).2 r' hr'
  refine ⟨r', hr', fun lvl => ?_⟩
  rw [g3 lvl, h3 lvl]
  have e1 : hasId g' = hasId g := by simp only [hasId, hd]
  have e2 : Dup [] g'.kids ↔ Dup [] g.kids := dup_perm (by
    rw [idsOf_all2 (fun a b h => (reord_one h).1) ha]; exact idsOf_perm hp)
  have e3 : Dup [] (g'.kids.flatMap Obj.kids) ↔ Dup [] (g.kids.flatMap Obj.kids) :=
    dup_perm ((kids_all2 ha).trans (idsOf_perm (hp.flatMap_right _)))
  have e4 : (∃ t ∈ g'.kids, ∃ r, validateTier depth g' t = .ok r ∧ Problem lvl r) ↔ ∃ t ∈ g.kids, ∃ r, validateTier depth g t = .ok r ∧ Problem lvl r := by
    constructor
    · rintro ⟨t', ht', r2, hr2, hp2⟩
      obtain ⟨t, ht, htr⟩ := hto t' ht'
      obtain ⟨r, hr⟩ := h1 t ht
      obtain ⟨r3, hr3, hq⟩ := validateTier_sorted hn hh htr hr
      rw [hr2] at hr3; cases hr3
      exact ⟨t, ht, r, hr, (hq lvl).1 hp2⟩
    · rintro ⟨t, ht, r, hr, hp2⟩
      obtain ⟨t', ht', htr⟩ := hfrom t ht
      obtain ⟨r3, hr3, hq⟩ := validateTier_sorted hn hh htr hr
      exact ⟨t', ht', r3, hr3, (hq lvl).2 hp2⟩
  rw [e1, e2, e3, e4]

theorem validateIgts_order {depth : Nat} : ∀ (gs : List Obj) (seen : List Str), (∀ g ∈ gs, ∃ r, validateIgt depth g = .ok r) →
    ∃ cs, validateIgts depth (gs.map .ok) seen = .ok cs ∧ ∀ lvl, (∃ c ∈ cs, Problem lvl c) ↔
      (∃ g ∈ gs, ∃ r, validateIgt depth g = .ok r ∧ Problem lvl r) ∨ (lvl ≤ ERROR ∧ Dup seen gs) := by
  intro gs
  induction gs with
  | nil => intro _ _; exact ⟨[], rfl, by simp [Dup]⟩
  | cons x xs ih =>
    intro seen h
    obtain ⟨r, hr⟩ := h x (List.mem_cons_self ..)
    obtain ⟨cs, h1, h2⟩ := ih (addId seen x) fun y hy => h y (List.mem_cons_of_mem _ hy)
    obtain ⟨us, hus, -⟩ := cond_dup 0 seen x
    refine ⟨extend us r :: cs, ?_, fun lvl => ?_⟩
    · simp only [List.map_cons, validateIgts, bind, Except.bind, hr, hus, h1]
    · obtain ⟨us', hus', hl⟩ := cond_dup lvl seen x
      rw [hus] at hus'
      cases hus'
      have h2 := h2 lvl
      obtain ⟨-, hne, -⟩ := (validateIgt_order (depth := depth)).2 r hr
      have hn := problem_extend (us := us) (lvl := lvl) hne
      rw [hl] at hn
      simp only [List.mem_cons, Dup]
      constructor
      · rintro ⟨c, rfl | hc, hp⟩
        · rcases hn.1 hp with hp | hp
          · exact .inl ⟨x, .inl rfl, r, hr, hp⟩
          · exact .inr ⟨hp.1, .inl hp.2⟩
        · rcases h2.1 ⟨c, hc, hp⟩ with ⟨y, hy, hp⟩ | hp
          · exact .inl ⟨y, .inr hy, hp⟩
          · exact .inr ⟨hp.1, .inr hp.2⟩
      · rintro (⟨y, rfl | hy, r', hr', hp⟩ | ⟨hl, hp | hp⟩)
        · rw [hr] at hr'; cases hr'
          exact ⟨_, .inl rfl, hn.2 (.inl hp)⟩
        · obtain ⟨c, hc, hp⟩ := h2.2 (.inl ⟨y, hy, r', hr', hp⟩)
          exact ⟨c, .inr hc, hp⟩
        · exact ⟨_, .inl rfl, hn.2 (.inr ⟨hl, hp⟩)⟩
        · obtain ⟨c, hc, hp⟩ := h2.2 (.inr ⟨hl, hp⟩)
          exact ⟨c, .inr hc, hp⟩

theorem validateIgts_inv {depth : Nat} : ∀ {gs : List Obj} {seen : List Str} {cs}, validateIgts depth (gs.map .ok) seen = .ok cs →
    ∀ g ∈ gs, ∃ r, validateIgt depth g = .ok r := by
  intro gs
  induction gs with
  | nil => intro _ _ _ x hx; cases hx
  | cons y gs ih =>
    intro seen cs h x hx
    simp only [List.map_cons, validateIgts, bind, Except.bind] at h
    split at h
    · cases h
    · rename_i r hr
      split at h
      · cases h
      · split at h
        · cases h
        · rename_i l hl
          rcases List.mem_cons.1 hx with rfl | hx
          · exact ⟨r, hr⟩
          · exact ih hl x hx

/-! ### C139 -/

/-- **C139** (for igts that meet `ByNames`): whatever the keys of `xigt sort` are, if the validator finishes with a corpus it
finishes with the sorted one, and finds a problem of a level in the one exactly if it does in the other. -/
theorem C139_partial (c : XP.PCfg) (n : Nat) (a : Args) (x y : Obj) (h : Srt.run c n a x = some (.ok y)) (hb : ∀ g ∈ x.kids, ByNames g)
    (depth : Nat) (seen : List Str) (r : Report) (hr : validateCorpus depth seen (opened x) = .ok r) :
    ∃ r', validateCorpus depth seen (opened y) = .ok r' ∧ ∀ lvl, Problem lvl r' ↔ Problem lvl r := by
  obtain ⟨hd, -, l, hp, ha⟩ := C68_reorders c n a x y h
  simp only [validateCorpus, opened, bind, Except.bind] at hr
  split at hr
  · cases hr
  · rename_i rs hrs
    split at hr
    · cases hr
    · rename_i cs hcs
      cases hr
      have hi := validateIgts_inv hcs
      obtain ⟨cs1, hcs1, h1⟩ := validateIgts_order x.kids [] hi
      rw [hcs] at hcs1
      cases hcs1
      have hto : ∀ g' ∈ y.kids, ∃ g ∈ x.kids, Reord 2 g g' := fun g' hg' => by
        obtain ⟨g, hg, hr⟩ := all2_right ha _ hg'
        exact ⟨g, hp.mem_iff.1 hg, hr⟩
      have hfrom : ∀ g ∈ x.kids, ∃ g' ∈ y.kids, Reord 2 g g' := fun g hg => All2.mem_left ha g (hp.mem_iff.2 hg)
      obtain ⟨cs2, hcs2, h2⟩ := validateIgts_order (depth := depth) y.kids [] fun g' hg' => by
        obtain ⟨g, hg, hgr⟩ := hto g' hg'
        obtain ⟨r, hr⟩ := hi g hg
        obtain ⟨r', hr', -⟩ := validateIgt_sorted (hb g hg) hgr hr
        exact ⟨r', hr'⟩
      have e0 : conds [cond INFO (.ok (hasId y)), cond ERROR (.ok (idIsUnique seen y))] = .ok rs := by
        rw [← hrs]; simp only [hasId, idIsUnique, hd]
      refine ⟨.node rs cs2, by simp only [validateCorpus, opened, bind, Except.bind, e0, hcs2], fun lvl => ?_⟩
      have e2 : Dup [] y.kids ↔ Dup [] x.kids := dup_perm (by
        rw [idsOf_all2 (fun a b h => h.1) ha]; exact idsOf_perm hp)
      have e4 : (∃ g ∈ y.kids, ∃ r, validateIgt depth g = .ok r ∧ Problem lvl r) ↔ ∃ g ∈ x.kids, ∃ r, validateIgt depth g = .ok r ∧ Problem lvl r := by
        constructor
        · rintro ⟨g', hg', r2, hr2, hp2⟩
          obtain ⟨g, hg, hgr⟩ := hto g' hg'
          obtain ⟨r, hr⟩ := hi g hg
          obtain ⟨r3, hr3, hq⟩ := validateIgt_sorted (hb g hg) hgr hr
          rw [hr2] at hr3; cases hr3
          exact ⟨g, hg, r, hr, (hq lvl).1 hp2⟩
        · rintro ⟨g, hg, r, hr, hp2⟩
          obtain ⟨g', hg', hgr⟩ := hfrom g hg
          obtain ⟨r3, hr3, hq⟩ := validateIgt_sorted (hb g hg) hgr hr
          exact ⟨g', hg', r3, hr3, (hq lvl).2 hp2⟩
      rw [problem_node, problem_node, h1 lvl, h2 lvl, e2, e4]

/-- **C139** for `igt.sort_tiers()` -/
theorem C139_tiers_partial (n : Nat) (deps : List Str) (g : Obj) (hn : ByNames g) (ts : List Obj) (h : sortTiers n deps g.kids = some (.ok ts))
    (depth : Nat) (r : Report) (hr : validateIgt depth g = .ok r) :
    ∃ r', validateIgt depth (.mk g.data g.md ts) = .ok r' ∧ ∀ lvl, Problem lvl r' ↔ Problem lvl r :=
  validateIgt_sorted hn (depSort_reord (n := n) (deps := deps) 1 (by simp [depSort, h, Except.map])) hr

theorem nodup_of_dup {l : List Obj} (h : ¬ Dup [] l) (h0 : ∀ x ∈ l, x.data.id ≠ some []) : (idsOf l).Nodup := by
  have hc : ∀ s ∈ idsOf l, (idsOf l).count s < 2 := by
    intro s hs
    obtain ⟨x, hx, hi⟩ := List.mem_filterMap.1 hs
    have hne : s ≠ [] := fun he => h0 x hx (he ▸ hi)
    exact Nat.lt_of_not_le fun h2 => h ((dup_iff l []).2 ⟨s, hne, .inr h2⟩)
  generalize idsOf l = m at hc
  clear h h0
  induction m with
  | nil => exact List.nodup_nil
  | cons x m ih =>
    refine List.nodup_cons.2 ⟨fun hx => ?_, ih fun s hs => ?_⟩
    · have h1 := hc x (List.mem_cons_self ..)
      have h2 := List.count_pos_iff.2 hx
      rw [List.count_cons_self] at h1
      omega
    · have h1 := hc s (List.mem_cons_of_mem _ hs)
      rw [List.count_cons] at h1
      omega

/-- **C139**, what passes still passes: if the validator reports no error in a corpus in which tiers refer to tiers by name (and no
ID is empty, which the setter of IDs does not allow), it reports none in the sorted one. -/
theorem C139_passes_partial (c : XP.PCfg) (n : Nat) (a : Args) (x y : Obj) (h : Srt.run c n a x = some (.ok y))
    (h0 : ∀ g ∈ x.kids, ∀ t ∈ g.kids, t.data.id ≠ some [] ∧ ∀ i ∈ t.kids, i.data.id ≠ some [])
    (hb : ∀ g ∈ x.kids, ∀ t ∈ g.kids, ∀ ra ∈ refAttrs, ∀ v, Dict.get? t.data.attrs ra = some v → ByName g v)
    (depth : Nat) (seen : List Str) (r : Report) (hr : validateCorpus depth seen (opened x) = .ok r) (hp : ¬ Problem ERROR r) :
    ∃ r', validateCorpus depth seen (opened y) = .ok r' ∧ ¬ Problem ERROR r' := by
  have hbn : ∀ g ∈ x.kids, ByNames g := by
    have hr := hr
    simp only [validateCorpus, opened, bind, Except.bind] at hr
    split at hr
    · cases hr
    · rename_i rs hrs
      split at hr
      · cases hr
      · rename_i cs hcs
        cases hr
        intro g hg
        have hi := validateIgts_inv hcs
        obtain ⟨cs1, hcs1, h1⟩ := validateIgts_order x.kids [] hi
        rw [hcs] at hcs1
        cases hcs1
        rw [problem_node, h1] at hp
        obtain ⟨rg, hrg⟩ := hi g hg
        have hpg : ¬ Problem ERROR rg := fun h => hp (.inr (.inl ⟨g, hg, rg, hrg, h⟩))
        obtain ⟨g1, -, g3⟩ := (validateIgt_order (depth := depth)).2 rg hrg
        rw [g3] at hpg
        refine ⟨nodup_of_dup (fun h => hpg (.inr (.inr ⟨Nat.le_refl _, .inl h⟩))) fun t ht => (h0 g hg t ht).1, fun t ht => ?_, hb g hg⟩
        refine nodup_of_dup (fun h => ?_) (h0 g hg t ht).2
        obtain ⟨rt, hrt⟩ := g1 t ht
        obtain ⟨rs, -, -, t3, -⟩ := (validateTier_order (depth := depth)).2 rt hrt
        exact hpg (.inr (.inl ⟨t, ht, rt, hrt, (t3 ERROR).2 (.inr (.inr ⟨Nat.le_refl _, h⟩))⟩))
  obtain ⟨r', hr', he⟩ := C139_partial c n a x y h hbn depth seen r hr
  exact ⟨r', hr', fun h => hp ((he ERROR).1 h)⟩

end

section
attribute [local instance] asciiUni

/-- whether there is a problem of the level -/
def faulty (lvl : Nat) (x : Obj) : Option Bool :=
  match validateCorpus 9 [] (opened x) with
  | .ok r => some (filterEmpty lvl r).isTrue
  | .error _ => none

theorem faulty_some {lvl : Nat} {x : Obj} {b : Bool} (h : faulty lvl x = some b) :
    ∃ r, validateCorpus 9 [] (opened x) = .ok r ∧ (Problem lvl r ↔ b = true) := by
  unfold faulty at h
  split at h
  · rename_i r hr
    cases h
    exact ⟨r, hr, (filterEmpty_true ..).symm⟩
  · cases h

/-- C139 is false of tiers that are referred to by their place: `content="0"` is another tier after sorting, and the items of the
one that refers to it are not there. -/
theorem C139_refuted : ∃ (c : XP.PCfg) (a : Args) (x y : Obj) (r r' : Report), Srt.run c 10 a x = some (.ok y) ∧
    validateCorpus 9 [] (opened x) = .ok r ∧ validateCorpus 9 [] (opened y) = .ok r' ∧ ¬ Problem ERROR r ∧ Problem ERROR r' := by
  have h : (match Srt.run exCfg 10 { tierKey := [lit! "@id"] } (.mk { cls := .corpus } [] [numIgt (lit! "0")]) with
    | some (.ok y) => decide (faulty ERROR y = some true)
    | _ => false) = true := by decide +kernel
  split at h
  · rename_i y hy
    obtain ⟨r, hr, hf⟩ := faulty_some (lvl := ERROR) (x := .mk { cls := .corpus } [] [numIgt (lit! "0")]) (b := false) (by decide +kernel)
    obtain ⟨r', hr', hf'⟩ := faulty_some (of_decide_eq_true h)
    exact ⟨exCfg, _, _, y, r, r', hy, hr, hr', fun h => absurd (hf.1 h) (by decide), hf'.2 rfl⟩
  · cases h

/-- the hypotheses of `C139_partial` and `C139_passes_partial` are met by a corpus that is changed, and passes -/
example : ByNames (numIgt (lit! "b")) ∧ faulty ERROR (.mk { cls := .corpus } [] [numIgt (lit! "b")]) = some false ∧
    (∀ t ∈ (numIgt (lit! "b")).kids, t.data.id ≠ some [] ∧ ∀ i ∈ t.kids, i.data.id ≠ some []) ∧
    (match Srt.run exCfg 10 { tierKey := [lit! "@id"] } (.mk { cls := .corpus } [] [numIgt (lit! "b")]) with
    | some (.ok y) => decide ((y.kids.flatMap fun g => g.kids.map fun t => t.data.id) = [some (lit! "a"), some (lit! "b"), some (lit! "c")])
    | _ => false) = true := by
  refine ⟨⟨by decide +kernel, by decide +kernel, ?_⟩, by decide +kernel, by decide +kernel, by decide +kernel⟩
  intro t ht ra _ v hv
  simp only [numIgt, Obj.kids, List.mem_cons, List.not_mem_nil, or_false] at ht
  rcases ht with rfl | rfl | rfl
  · cases hv
  · cases hv
  · have : v = lit! "b" := by
      simp only [Obj.data, Dict.get?] at hv
      split at hv
      · cases hv; rfl
      · cases hv
    subst this
    exact .inl ⟨_, List.mem_cons_self .., rfl⟩

end
end Xigt.Vld
