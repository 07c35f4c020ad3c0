import Verif.Igt.SortModel
import Verif.Igt.AncProps
/-
Properties of `sort_tiers`: C30, C31.
-/

set_option linter.unusedSectionVars false
set_option linter.unusedSimpArgs false

namespace Xigt
section
variable [Uni]

/-! ### Specification -/

/-- tier `t` refers by its highest-priority reference attribute to the tier `u` -/
def PointsTo (refattrs : List Str) (ts : List Obj) (t u : Obj) : Prop :=
  ∃ ra, FirstAttr refattrs t ra ∧ u ∈ ts ∧ u.data.id = some (attr0 t ra)

/-- all tier references exist -/
def RefsExist (refattrs : List Str) (ts : List Obj) : Prop :=
  ∀ t ∈ ts, ∀ ra, FirstAttr refattrs t ra → ∃ u, PointsTo refattrs ts t u

/-- no tier refers to itself directly or indirectly -/
def AcyclicTiers (refattrs : List Str) (ts : List Obj) : Prop :=
  ∀ t j, ¬ Chain (PointsTo refattrs ts) (j + 1) t t

/-- `a` stands before `b` -/
def Before {α : Type} (l : List α) (a b : α) : Prop := ∃ p q r, l = p ++ a :: (q ++ b :: r)

/-! ### Keys -/

theorem keyLe_refl : ∀ k, keyLe k k = true := by
  intro k
  induction k with
  | nil => rfl
  | cons p k ih => obtain ⟨a, i⟩ := p; simp [keyLe, ih]

theorem keyLe_total : ∀ k l, keyLe k l = true ∨ keyLe l k = true := by
  intro k
  induction k with
  | nil => intro l; exact Or.inl (by simp [keyLe])
  | cons p k ih =>
    obtain ⟨a, i⟩ := p
    intro l
    cases l with
    | nil => exact Or.inr rfl
    | cons q l =>
      obtain ⟨b, j⟩ := q
      simp only [keyLe]
      have := ih l
      grind

theorem keyLe_trans : ∀ k l m, keyLe k l = true → keyLe l m = true → keyLe k m = true := by
  intro k
  induction k with
  | nil => intro l m _ _; simp [keyLe]
  | cons p k ih =>
    obtain ⟨a, i⟩ := p
    intro l m h1 h2
    cases l with
    | nil => simp [keyLe] at h1
    | cons q l =>
      obtain ⟨b, j⟩ := q
      cases m with
      | nil => simp [keyLe] at h2
      | cons r m =>
        obtain ⟨c, h⟩ := r
        simp only [keyLe] at h1 h2 ⊢
        have := ih l m
        grind

theorem keyLe_antisymm : ∀ k l, keyLe k l = true → keyLe l k = true → k = l := by
  intro k
  induction k with
  | nil => intro l _ h2; cases l with
    | nil => rfl
    | cons _ _ => simp [keyLe] at h2
  | cons p k ih =>
    obtain ⟨a, i⟩ := p
    intro l h1 h2
    cases l with
    | nil => simp [keyLe] at h1
    | cons q l =>
      obtain ⟨b, j⟩ := q
      simp only [keyLe] at h1 h2
      have := ih l
      grind

theorem keyLe_append (p : List (Nat × Nat)) : ∀ k l, keyLe (p ++ k) (p ++ l) = keyLe k l := by
  induction p with
  | nil => intro k l; rfl
  | cons q p ih => intro k l; obtain ⟨a, i⟩ := q; simp [keyLe, ih]

/-! ### The stable sort -/

theorem insertBy_sorted {α} {le : α → α → Bool} (ht : ∀ a b, le a b = true ∨ le b a = true)
    (htr : ∀ a b c, le a b = true → le b c = true → le a c = true) (x : α) :
    ∀ l, l.Pairwise (fun a b => le a b = true) → (insertBy le x l).Pairwise (fun a b => le a b = true) := by
  intro l
  induction l with
  | nil => intro _; simp [insertBy]
  | cons y ys ih =>
    intro h
    rw [insertBy]
    obtain ⟨h1, h2⟩ := List.pairwise_cons.1 h
    split
    · rename_i hxy
      refine List.pairwise_cons.2 ⟨?_, h⟩
      intro z hz
      rcases List.mem_cons.1 hz with rfl | hz
      · exact hxy
      · exact htr _ _ _ hxy (h1 z hz)
    · rename_i hxy
      refine List.pairwise_cons.2 ⟨?_, ih h2⟩
      intro z hz
      rcases List.mem_cons.1 ((insertBy_perm le x ys).mem_iff.1 hz) with rfl | hz
      · exact (ht y z).resolve_right hxy
      · exact h1 z hz

theorem sortBy_sorted {α} {le : α → α → Bool} (ht : ∀ a b, le a b = true ∨ le b a = true)
    (htr : ∀ a b c, le a b = true → le b c = true → le a c = true) :
    ∀ l, (sortBy le l).Pairwise (fun a b => le a b = true) := by
  intro l
  induction l with
  | nil => exact List.Pairwise.nil
  | cons x xs ih => rw [sortBy]; exact insertBy_sorted ht htr x _ ih

theorem sortBy_id {α} {le : α → α → Bool} : ∀ l, l.Pairwise (fun a b => le a b = true) → sortBy le l = l := by
  intro l
  induction l with
  | nil => intro _; rfl
  | cons x xs ih =>
    intro h
    obtain ⟨h1, h2⟩ := List.pairwise_cons.1 h
    rw [sortBy, ih h2]
    cases xs with
    | nil => rfl
    | cons y ys => rw [insertBy, if_pos (h1 y (by simp))]

theorem before_or {α} {l : List α} {a b : α} (ha : a ∈ l) (hb : b ∈ l) (hne : a ≠ b) :
    Before l a b ∨ Before l b a := by
  induction l with
  | nil => cases ha
  | cons x l ih =>
    rcases List.mem_cons.1 ha with rfl | ha'
    · rcases List.mem_cons.1 hb with rfl | hb'
      · exact absurd rfl hne
      · obtain ⟨q, r, rfl⟩ := List.append_of_mem hb'
        exact Or.inl ⟨[], q, r, rfl⟩
    · rcases List.mem_cons.1 hb with rfl | hb'
      · obtain ⟨q, r, rfl⟩ := List.append_of_mem ha'
        exact Or.inr ⟨[], q, r, rfl⟩
      · rcases ih ha' hb' with ⟨p, q, r, rfl⟩ | ⟨p, q, r, rfl⟩
        · exact Or.inl ⟨x :: p, q, r, rfl⟩
        · exact Or.inr ⟨x :: p, q, r, rfl⟩

theorem pairwise_before {α} {R : α → α → Prop} {l : List α} (h : l.Pairwise R) {a b} (hb : Before l a b) : R a b := by
  obtain ⟨p, q, r, rfl⟩ := hb
  exact (List.pairwise_cons.1 (List.pairwise_append.1 h).2.1).1 b (by simp)

theorem pairwise_of_before {α} {R : α → α → Prop} {l : List α} (h : ∀ a b, Before l a b → R a b) : l.Pairwise R := by
  induction l with
  | nil => exact List.Pairwise.nil
  | cons x l ih =>
    refine List.pairwise_cons.2 ⟨fun b hb => ?_, ih fun a b => ?_⟩
    · obtain ⟨q, r, rfl⟩ := List.append_of_mem hb
      exact h x b ⟨[], q, r, rfl⟩
    · rintro ⟨p, q, r, rfl⟩
      exact h a b ⟨x :: p, q, r, rfl⟩

/-! ### Stems: what precedes a tier in its key -/

/-- the path to a tier ID from its highest ancestor -/
inductive Stem (p : Str → Option (Str × Nat)) : Str → List (Str × Nat) → Prop
  | root {i} : p i = none → Stem p i []
  | step {i r k s} : p i = some (r, k) → Stem p r s → Stem p i (s ++ [(r, k)])

/-- a path with the numbers of the tiers for their IDs -/
def num (f : Str → Nat) (l : List (Str × Nat)) : List (Nat × Nat) := l.map fun q => (f q.1, q.2)

theorem num_append (f l m) : num f (l ++ m) = num f l ++ num f m := List.map_append ..

theorem stem_prefix {p : Str → Option (Str × Nat)} {i s} (h : Stem p i s) : ∀ k0 Q a k rest,
    s ++ [(i, k0)] = Q ++ (a, k) :: rest → Stem p a Q := by
  induction h with
  | root hn =>
    intro k0 Q a k rest he
    cases Q with
    | nil => simp only [List.nil_append, List.cons.injEq, Prod.mk.injEq] at he; obtain ⟨⟨rfl, _⟩, _⟩ := he; exact .root hn
    | cons q Q => simp at he
  | @step i r k s hp hs ih =>
    intro k0 Q a k1 rest he
    rcases List.eq_nil_or_concat rest with rfl | ⟨rest', x, rfl⟩
    · obtain ⟨h1, h2⟩ := List.append_inj' he rfl
      simp only [List.cons.injEq, Prod.mk.injEq] at h2
      obtain ⟨⟨rfl, _⟩, _⟩ := h2
      rw [← h1]; exact .step hp hs
    · rw [List.concat_eq_append, ← List.cons_append, ← List.append_assoc] at he
      obtain ⟨h1, _⟩ := List.append_inj' he rfl
      exact ih k Q a k1 rest' h1

/-- if the new numbers order siblings as the old keys do, new keys compare like old keys -/
theorem keyLe_renumber {p : Str → Option (Str × Nat)} {f f' : Str → Nat} {i j s s'} (hs : Stem p i s)
    (hs' : Stem p j s') {D : Str → Prop} (hD : ∀ q ∈ s ++ [(i, 0)], D q.1) (hD' : ∀ q ∈ s' ++ [(j, 0)], D q.1)
    (hinj : ∀ a b, D a → D b → f a = f b → a = b)
    (H : ∀ a b Q, D a → D b → Stem p a Q → Stem p b Q → f a < f b → f' a < f' b) :
    ∀ (l l' Q : List (Str × Nat)), s ++ [(i, 0)] = Q ++ l → s' ++ [(j, 0)] = Q ++ l' →
      keyLe (num f l) (num f l') = true → keyLe (num f' l) (num f' l') = true := by
  intro l
  induction l with
  | nil => intro l' Q _ _ _; simp [num, keyLe]
  | cons q l ih =>
    obtain ⟨a, k⟩ := q
    intro l' Q h1 h2 hle
    cases l' with
    | nil => simp [num, keyLe] at hle
    | cons q' l' =>
      obtain ⟨b, m⟩ := q'
      have ha := stem_prefix hs 0 Q a k l h1
      have hb := stem_prefix hs' 0 Q b m l' h2
      have hda : D a := hD (a, k) (by rw [h1]; simp)
      have hdb : D b := hD' (b, m) (by rw [h2]; simp)
      simp only [num, List.map_cons, keyLe] at hle ⊢
      by_cases hab : a = b
      · subst hab
        simp only [Nat.lt_irrefl, if_false] at hle ⊢
        by_cases hkm : k = m
        · subst hkm
          simp only [Nat.lt_irrefl, if_false] at hle ⊢
          exact ih l' (Q ++ [(a, k)]) (by simp [h1]) (by simp [h2]) hle
        · grind
      · have hne : f a ≠ f b := fun e => hab (hinj a b hda hdb e)
        have hlt : f a < f b := by grind
        rw [if_pos (H a b Q hda hdb ha hb hlt)]

/-! ### The dictionaries of sort_tiers on tiers with distinct IDs -/

theorem zipIdx_find {ts : List Obj} (hn : (ts.map fun t => t.data.id).Nodup) (m : Nat) {A B : List Obj} {t : Obj}
    (he : ts = A ++ t :: B) {i} (hi : t.data.id = i) :
    (ts.zipIdx m).reverse.find? (fun p => decide (p.1.data.id = i)) = some (t, m + A.length) := by
  subst he
  rw [List.zipIdx_append, List.zipIdx_cons, List.reverse_append, List.reverse_cons, List.find?_append,
    List.find?_append]
  have hB : (B.zipIdx (m + A.length + 1)).reverse.find? (fun p => decide (p.1.data.id = i)) = none := by
    rw [List.find?_eq_none]
    intro p hp
    have hp' := List.fst_mem_of_mem_zipIdx (List.mem_reverse.1 hp)
    simp only [decide_eq_true_eq]
    intro hpi
    rw [List.map_append, List.map_cons] at hn
    have := (List.nodup_cons.1 (List.nodup_append.1 hn).2.1).1
    exact this (List.mem_map.2 ⟨p.1, hp', by rw [hpi, hi]⟩)
  rw [hB]
  simp [List.find?, hi]

theorem get?_sortIdx {A B : List Obj} {t : Obj} (hn : ((A ++ t :: B).map fun t => t.data.id).Nodup) :
    Dict.get? (sortIdx (A ++ t :: B)) t.data.id = some (A.length + 1) := by
  rw [sortIdx, get?_foldl_set (fun p : Obj × Nat => p.1.data.id) (fun p => p.2), zipIdx_find hn 1 rfl rfl]
  simp [Nat.add_comm]

theorem get?_sortIdx_none {ts : List Obj} {i} (h : ∀ t ∈ ts, t.data.id ≠ i) : Dict.get? (sortIdx ts) i = none := by
  rw [sortIdx, get?_foldl_set (fun p : Obj × Nat => p.1.data.id) (fun p => p.2)]
  have : (ts.zipIdx 1).reverse.find? (fun p => decide (p.1.data.id = i)) = none := by
    rw [List.find?_eq_none]
    intro p hp
    simp only [decide_eq_true_eq]
    exact h p.1 (List.fst_mem_of_mem_zipIdx (List.mem_reverse.1 hp))
  rw [this]; rfl

theorem get?_sortIdx_mem {ts : List Obj} {t : Obj} (ht : t ∈ ts) {i} (hi : t.data.id = i) :
    ∃ x, Dict.get? (sortIdx ts) i = some x := by
  cases hx : Dict.get? (sortIdx ts) i with
  | some x => exact ⟨x, rfl⟩
  | none =>
    exfalso
    rw [sortIdx, get?_foldl_set (fun p : Obj × Nat => p.1.data.id) (fun p => p.2)] at hx
    split at hx
    · cases hx
    · rename_i hnone
      rw [List.find?_eq_none] at hnone
      obtain ⟨A, B, rfl⟩ := List.append_of_mem ht
      have := hnone (t, A.length + 1) (List.mem_reverse.2 (by
        rw [List.zipIdx_append, List.zipIdx_cons, Nat.add_comm 1]
        exact List.mem_append_right _ (List.mem_cons_self ..)))
      simp [hi] at this

theorem get?_sortPr_aux (refattrs : List Str) (i : Option Str) : ∀ (ts : List Obj) (d : Dict (Option Str) (Str × Nat)),
    Dict.get? (ts.foldl (prStep refattrs) d) i =
    match ts.reverse.find? (fun t => decide (t.data.id = i) && (firstRef refattrs t).isSome) with
    | some t => firstRef refattrs t
    | none => Dict.get? d i := by
  intro ts
  induction ts with
  | nil => intro d; rfl
  | cons t ts ih =>
    intro d
    rw [List.foldl_cons, ih, List.reverse_cons, List.find?_append]
    cases hf : ts.reverse.find? (fun t => decide (t.data.id = i) && (firstRef refattrs t).isSome) with
    | some u => rfl
    | none =>
      cases hr : firstRef refattrs t with
      | none => simp [List.find?, hr, prStep]
      | some p =>
        by_cases hi : t.data.id = i
        · subst hi; simp [List.find?, hr, Dict.get?_set, prStep]
        · simp [List.find?, hr, hi, Dict.get?_set, prStep]

theorem get?_sortPr_mem {refattrs : List Str} {ts : List Obj} {i p} (h : Dict.get? (sortPr refattrs ts) i = some p) :
    ∃ t ∈ ts, t.data.id = i ∧ firstRef refattrs t = some p := by
  rw [sortPr, get?_sortPr_aux] at h
  split at h
  · rename_i t ht
    have h1 := List.mem_of_find?_eq_some ht
    have h2 := List.find?_some ht
    simp only [Bool.and_eq_true, decide_eq_true_eq] at h2
    exact ⟨t, List.mem_reverse.1 h1, h2.1, h⟩
  · cases h

theorem nodup_ids_eq {ts : List Obj} (hn : (ts.filterMap fun t => t.data.id).Nodup) {t u : Obj} {i} (ht : t ∈ ts)
    (hu : u ∈ ts) (h : t.data.id = some i) (h' : u.data.id = some i) : t = u := by
  have h1 := find?_uniq (f := fun t : Obj => t.data.id) hn ht h
  have h2 := find?_uniq (f := fun t : Obj => t.data.id) hn hu h'
  rw [h1] at h2
  exact Option.some.inj h2

theorem get?_sortPr {refattrs : List Str} {ts : List Obj} (hn : (ts.filterMap fun t => t.data.id).Nodup) {t : Obj}
    (ht : t ∈ ts) {i} (hi : t.data.id = some i) : Dict.get? (sortPr refattrs ts) (some i) = firstRef refattrs t := by
  cases hf : firstRef refattrs t with
  | none =>
    cases hg : Dict.get? (sortPr refattrs ts) (some i) with
    | none => rfl
    | some p =>
      obtain ⟨u, hu, hui, hup⟩ := get?_sortPr_mem hg
      rw [nodup_ids_eq hn hu ht hui hi, hf] at hup
      cases hup
  | some p =>
    rw [sortPr, get?_sortPr_aux]
    split
    · rename_i u hu
      have h1 := List.mem_reverse.1 (List.mem_of_find?_eq_some hu)
      have h2 := List.find?_some hu
      simp only [Bool.and_eq_true, decide_eq_true_eq] at h2
      rw [nodup_ids_eq hn h1 ht h2.1 hi, hf]
    · rename_i hnone
      rw [List.find?_eq_none] at hnone
      have := hnone t (List.mem_reverse.2 ht)
      simp [hi, hf] at this

theorem firstRef_find : ∀ (refattrs : List Str) (t : Obj) (m : Nat),
    ((refattrs.zipIdx m).find? fun p => Dict.has t.data.attrs p.1).map (fun p => p.1) =
    refattrs.find? (fun ra => Dict.has t.data.attrs ra) := by
  intro refattrs t
  induction refattrs with
  | nil => intro m; rfl
  | cons a l ih =>
    intro m
    rw [List.zipIdx_cons, List.find?_cons, List.find?_cons]
    simp only
    cases Dict.has t.data.attrs a with
    | true => rfl
    | false => exact ih (m + 1)

theorem firstRef_iff {refattrs : List Str} {t : Obj} {r} :
    (∃ k, firstRef refattrs t = some (r, k)) ↔ ∃ ra, FirstAttr refattrs t ra ∧ r = attr0 t ra := by
  have h := firstRef_find refattrs t 0
  rw [firstRef]
  constructor
  · rintro ⟨k, hk⟩
    obtain ⟨p, hp, he⟩ := Option.map_eq_some_iff.1 hk
    refine ⟨p.1, firstAttr_iff.1 ?_, (Prod.mk.inj he).1.symm⟩
    rw [← h, hp]; rfl
  · rintro ⟨ra, hra, rfl⟩
    rw [← firstAttr_iff, ← h] at hra
    obtain ⟨p, hp, rfl⟩ := Option.map_eq_some_iff.1 hra
    exact ⟨p.2, by rw [hp]; rfl⟩

theorem pointsTo_iff {refattrs : List Str} {ts : List Obj} {t u : Obj} :
    PointsTo refattrs ts t u ↔ u ∈ ts ∧ ∃ r k, firstRef refattrs t = some (r, k) ∧ u.data.id = some r := by
  constructor
  · rintro ⟨ra, h1, h2, h3⟩
    obtain ⟨k, hk⟩ := firstRef_iff.2 ⟨ra, h1, rfl⟩
    exact ⟨h2, _, k, hk, h3⟩
  · rintro ⟨h2, r, k, hk, h3⟩
    obtain ⟨ra, h1, rfl⟩ := firstRef_iff.1 ⟨k, hk⟩
    exact ⟨ra, h1, h2, h3⟩

/-! ### C31 -/

/-- with enough iterations for the acyclic part, the loop only goes on along a chain -/
theorem keyLoop_running {refattrs : List Str} {ts : List Obj}
    (hn : (ts.filterMap fun t => t.data.id).Nodup) : ∀ (n : Nat) (t : Obj) (r : Str) (k : Nat),
    firstRef refattrs t = some (r, k) → keyLoop (sortIdx ts) (sortPr refattrs ts) n (some (r, k)) = none →
    ∃ z, Chain (PointsTo refattrs ts) n t z := by
  intro n
  induction n with
  | zero => intro t r k _ _; exact ⟨t, .zero t⟩
  | succ n ih =>
    intro t r k hf h
    rw [keyLoop] at h
    cases hx : Dict.get? (sortIdx ts) (some r) with
    | none => rw [hx] at h; cases h
    | some x =>
      rw [hx] at h
      simp only [Option.map_eq_none_iff] at h
      have hex : ∃ u ∈ ts, u.data.id = some r := by
        refine Decidable.byContradiction fun hno => ?_
        rw [get?_sortIdx_none (fun u hu he => hno ⟨u, hu, he⟩)] at hx
        cases hx
      obtain ⟨u, hu, hid⟩ := hex
      rw [get?_sortPr hn hu hid] at h
      have hpt : PointsTo refattrs ts t u := pointsTo_iff.2 ⟨hu, r, k, hf, hid⟩
      cases hfu : firstRef refattrs u with
      | none => rw [hfu, keyLoop] at h; cases h
      | some q =>
        obtain ⟨r', k'⟩ := q
        rw [hfu] at h
        obtain ⟨z, hz⟩ := ih u r' k' hfu h
        exact ⟨z, .step hpt hz⟩

theorem tierKeys_none {n idx pr} : ∀ (ts : List Obj) (d), tierKeys n idx pr ts d = none →
    ∃ t ∈ ts, tierKey n idx pr t = none := by
  intro ts
  induction ts with
  | nil => intro d h; cases h
  | cons t ts ih =>
    intro d h
    rw [tierKeys] at h
    cases hk : tierKey n idx pr t with
    | none => exact ⟨t, by simp, hk⟩
    | some r =>
      rw [hk] at h
      cases r with
      | error e => cases h
      | ok k =>
        obtain ⟨u, hu, h2⟩ := ih _ h
        exact ⟨u, by simp [hu], h2⟩

/-- C31, where it holds: without circular tier references `sort_tiers` ends (with a result or a
KeyError) after at most #tiers+1 iterations per tier.
Missing: circular references, on which it does not end (`C31_diverges`). -/
theorem C31_partial (refattrs : List Str) (ts : List Obj) (hn : (ts.filterMap fun t => t.data.id).Nodup)
    (hac : AcyclicTiers refattrs ts) (n : Nat) (hlen : ts.length < n) : sortTiers n refattrs ts ≠ none := by
  intro h
  rw [sortTiers] at h
  cases hk : tierKeys n (sortIdx ts) (sortPr refattrs ts) ts [] with
  | some r => rw [hk] at h; cases r <;> cases h
  | none =>
    obtain ⟨t, ht, hk⟩ := tierKeys_none _ _ hk
    rw [tierKey] at hk
    cases hx : Dict.get? (sortIdx ts) t.data.id with
    | none => rw [hx] at hk; cases hk
    | some x =>
      rw [hx] at hk
      simp only [Option.map_eq_none_iff] at hk
      cases hp : Dict.get? (sortPr refattrs ts) t.data.id with
      | none => rw [hp, keyLoop] at hk; cases hk
      | some q =>
        obtain ⟨r, k⟩ := q
        rw [hp] at hk
        obtain ⟨u, _, _, hu⟩ := get?_sortPr_mem hp
        obtain ⟨z, hz⟩ := keyLoop_running hn n u r k hu hk
        obtain ⟨y, _, j, _, hj⟩ := hz.cycle ts (fun w y hy => (pointsTo_iff.1 hy).1) hlen
        exact hac y j hj

theorem keyLoop_chain {refattrs : List Str} {ts : List Obj}
    (hn : (ts.filterMap fun t => t.data.id).Nodup) :
    ∀ (n : Nat) (t z : Obj), Chain (PointsTo refattrs ts) (n + 1) t z →
    keyLoop (sortIdx ts) (sortPr refattrs ts) n (firstRef refattrs t) = none := by
  intro n
  induction n with
  | zero =>
    intro t z h
    cases h with
    | step h _ =>
      obtain ⟨_, r, k, hf, _⟩ := pointsTo_iff.1 h
      rw [hf]; rfl
  | succ n ih =>
    intro t z h
    cases h with
    | step h h' =>
      obtain ⟨hu, r, k, hf, hur⟩ := pointsTo_iff.1 h
      obtain ⟨x, hx⟩ := get?_sortIdx_mem hu hur
      rw [hf, keyLoop, hx]
      simp only
      rw [get?_sortPr hn hu hur, ih _ z h']
      rfl

/-- the key computation of a tier never raises if all references exist -/
theorem keyLoop_ok {refattrs : List Str} {ts : List Obj}
    (hn : (ts.filterMap fun t => t.data.id).Nodup)
    (hex : RefsExist refattrs ts) : ∀ (n : Nat) (t : Obj) (e : PyErr), t ∈ ts →
    keyLoop (sortIdx ts) (sortPr refattrs ts) n (firstRef refattrs t) ≠ some (.error e) := by
  intro n
  induction n with
  | zero =>
    intro t e _ h
    cases hf : firstRef refattrs t with
    | none => rw [hf, keyLoop] at h; cases h
    | some q => rw [hf] at h; cases h
  | succ n ih =>
    intro t e ht h
    cases hf : firstRef refattrs t with
    | none => rw [hf, keyLoop] at h; cases h
    | some q =>
      obtain ⟨r, k⟩ := q
      rw [hf, keyLoop] at h
      obtain ⟨ra, hra, _⟩ := firstRef_iff.1 ⟨k, hf⟩
      obtain ⟨u, hu⟩ := hex t ht ra hra
      obtain ⟨hut, r', k', hf', hur⟩ := pointsTo_iff.1 hu
      rw [hf] at hf'; cases hf'
      obtain ⟨x, hx⟩ := get?_sortIdx_mem hut hur
      rw [hx] at h
      simp only [get?_sortPr hn hut hur] at h
      cases hk : keyLoop (sortIdx ts) (sortPr refattrs ts) n (firstRef refattrs u) with
      | none => rw [hk] at h; cases h
      | some y =>
        rw [hk] at h
        cases y with
        | error e' => exact ih u e' hut hk
        | ok l => cases h

theorem chain_mem {refattrs : List Str} {ts : List Obj} : ∀ m x z, Chain (PointsTo refattrs ts) (m + 1) x z → z ∈ ts := by
  intro m
  induction m with
  | zero => intro x z h; cases h with
    | step h h' => cases h'; exact (pointsTo_iff.1 h).1
  | succ m ih => intro x z h; cases h with
    | step h h' => exact ih _ _ h'

/-- C31 fails: if all tiers have IDs, all references exist, and some are circular, `sort_tiers` never ends. -/
theorem C31_diverges (refattrs : List Str) (ts : List Obj) (hn : (ts.filterMap fun t => t.data.id).Nodup)
    (hid : ∀ t ∈ ts, t.data.id ≠ none) (hex : RefsExist refattrs ts) (t : Obj) (j : Nat)
    (hc : Chain (PointsTo refattrs ts) (j + 1) t t) (n : Nat) : sortTiers n refattrs ts = none := by
  have ht : t ∈ ts := chain_mem j t t hc
  obtain ⟨i, hi⟩ := Option.ne_none_iff_exists'.1 (hid t ht)
  have hk : tierKey n (sortIdx ts) (sortPr refattrs ts) t = none := by
    obtain ⟨z, hz⟩ := (hc.repeat (n + 1)).prefix (n + 1) (Nat.le_mul_of_pos_right _ (by omega))
    obtain ⟨x, hx⟩ := get?_sortIdx_mem ht hi
    rw [tierKey, hi, hx, get?_sortPr hn ht hi, keyLoop_chain hn n t z hz]
    rfl
  have hnoerr : ∀ u ∈ ts, ∀ e, tierKey n (sortIdx ts) (sortPr refattrs ts) u ≠ some (.error e) := by
    intro u hu e h
    obtain ⟨iu, hiu⟩ := Option.ne_none_iff_exists'.1 (hid u hu)
    obtain ⟨x, hx⟩ := get?_sortIdx_mem hu hiu
    rw [tierKey, hiu, hx, get?_sortPr hn hu hiu] at h
    simp only at h
    cases hk' : keyLoop (sortIdx ts) (sortPr refattrs ts) n (firstRef refattrs u) with
    | none => rw [hk'] at h; cases h
    | some y =>
      rw [hk'] at h
      cases y with
      | error e' => exact keyLoop_ok hn hex n u e' hu hk'
      | ok l => cases h
  have : ∀ (us : List Obj) d, t ∈ us → (∀ u ∈ us, u ∈ ts) → tierKeys n (sortIdx ts) (sortPr refattrs ts) us d = none := by
    intro us
    induction us with
    | nil => intro d h _; cases h
    | cons u us ih =>
      intro d h hus
      rw [tierKeys]
      cases hku : tierKey n (sortIdx ts) (sortPr refattrs ts) u with
      | none => rfl
      | some y =>
        cases y with
        | error e => exact absurd hku (hnoerr u (hus u (by simp)) e)
        | ok k =>
          simp only
          refine ih _ ?_ fun v hv => hus v (by simp [hv])
          rcases List.mem_cons.1 h with rfl | h
          · rw [hk] at hku; cases hku
          · exact h
  rw [sortTiers, this ts [] ht fun _ h => h]

/-! ### C30 -/

/-- the conditions of C30 for tiers that have IDs -/
structure SortOK (refattrs : List Str) (ts : List Obj) : Prop where
  unique : (ts.filterMap fun t => t.data.id).Nodup
  ids : ∀ t ∈ ts, t.data.id ≠ none
  exist : RefsExist refattrs ts
  acyclic : AcyclicTiers refattrs ts

/-- the referent of a tier ID -/
def refOf (refattrs : List Str) (ts : List Obj) (i : Str) : Option (Str × Nat) :=
  Dict.get? (sortPr refattrs ts) (some i)
/-- the number of a tier ID -/
def numOf (ts : List Obj) (i : Str) : Nat := (Dict.get? (sortIdx ts) (some i)).getD 0

theorem stem_exists {refattrs : List Str} {ts : List Obj} (h : SortOK refattrs ts) {t : Obj} (ht : t ∈ ts) {i}
    (hi : t.data.id = some i) : ∃ s, Stem (refOf refattrs ts) i s ∧ s.length ≤ ts.length := by
  have aux : ∀ n t i, t ∈ ts → t.data.id = some i →
      (∃ s, Stem (refOf refattrs ts) i s ∧ s.length ≤ n) ∨ ∃ z, Chain (PointsTo refattrs ts) (n + 1) t z := by
    intro n
    induction n with
    | zero =>
      intro t i ht hi
      cases hf : firstRef refattrs t with
      | none => exact Or.inl ⟨[], .root (by rw [refOf, get?_sortPr h.unique ht hi, hf]), by simp⟩
      | some q =>
        obtain ⟨r, k⟩ := q
        obtain ⟨ra, hra, _⟩ := firstRef_iff.1 ⟨k, hf⟩
        obtain ⟨u, hu⟩ := h.exist t ht ra hra
        exact Or.inr ⟨u, .step hu (.zero u)⟩
    | succ n ih =>
      intro t i ht hi
      cases hf : firstRef refattrs t with
      | none => exact Or.inl ⟨[], .root (by rw [refOf, get?_sortPr h.unique ht hi, hf]), by simp⟩
      | some q =>
        obtain ⟨r, k⟩ := q
        obtain ⟨ra, hra, _⟩ := firstRef_iff.1 ⟨k, hf⟩
        obtain ⟨u, hu⟩ := h.exist t ht ra hra
        obtain ⟨hut, r', k', hf', hur⟩ := pointsTo_iff.1 hu
        rw [hf] at hf'; cases hf'
        rcases ih u r hut hur with ⟨s, hs, hl⟩ | ⟨z, hz⟩
        · exact Or.inl ⟨s ++ [(r, k)], .step (by rw [refOf, get?_sortPr h.unique ht hi, hf]) hs, by simp; omega⟩
        · exact Or.inr ⟨z, .step hu hz⟩
  rcases aux ts.length t i ht hi with h1 | ⟨z, hz⟩
  · exact h1
  · obtain ⟨y, _, j, _, hj⟩ := hz.cycle ts (fun w y hy => (pointsTo_iff.1 hy).1) (by omega)
    exact absurd hj (h.acyclic y j)

theorem keyLoop_stem {refattrs : List Str} {ts : List Obj} (h : SortOK refattrs ts) {i s}
    (hs : Stem (refOf refattrs ts) i s) : ∀ n, s.length ≤ n →
    keyLoop (sortIdx ts) (sortPr refattrs ts) n (refOf refattrs ts i) = some (.ok (num (numOf ts) s).reverse) := by
  induction hs with
  | root hp => intro n _; rw [hp, keyLoop]; rfl
  | @step i r k s hp _ ih =>
    intro n hn
    cases n with
    | zero => simp at hn
    | succ n =>
      rw [hp, keyLoop]
      obtain ⟨t, ht, hi, hf⟩ := get?_sortPr_mem hp
      obtain ⟨ra, hra, _⟩ := firstRef_iff.1 ⟨k, hf⟩
      obtain ⟨u, hu⟩ := h.exist t ht ra hra
      obtain ⟨hut, r', k', hf', hur⟩ := pointsTo_iff.1 hu
      rw [hf] at hf'; cases hf'
      obtain ⟨x, hx⟩ := get?_sortIdx_mem hut hur
      have := ih n (by simp at hn; omega)
      rw [refOf] at this
      rw [hx]
      simp only [this, Option.map_some, num_append, List.reverse_append]
      simp [Except.map, num, numOf, hx]

theorem tierKeys_all {n idx pr} (K : Obj → List (Nat × Nat)) : ∀ (us : List Obj) d,
    (∀ t ∈ us, tierKey n idx pr t = some (.ok (K t))) →
    tierKeys n idx pr us d = some (.ok (us.foldl (fun d t => Dict.set d t.data.id (K t)) d)) := by
  intro us
  induction us with
  | nil => intro d _; rfl
  | cons t us ih =>
    intro d h
    rw [tierKeys, h t (by simp)]
    simp only
    rw [ih _ fun u hu => h u (by simp [hu])]
    rfl

theorem sortTiers_keys {refattrs : List Str} {ts : List Obj} (h : SortOK refattrs ts) {n : Nat} (hlen : ts.length ≤ n) :
    ∃ key : Obj → List (Nat × Nat),
      sortTiers n refattrs ts = some (.ok (sortBy (fun a b => keyLe (key a) (key b)) ts)) ∧
      ∀ t ∈ ts, ∀ i, t.data.id = some i → ∃ s, Stem (refOf refattrs ts) i s ∧
        key t = num (numOf ts) (s ++ [(i, 0)]) := by
  have hk : ∀ t ∈ ts, ∃ k, tierKey n (sortIdx ts) (sortPr refattrs ts) t = some (.ok k) ∧
      ∀ i, t.data.id = some i → ∃ s, Stem (refOf refattrs ts) i s ∧ k = num (numOf ts) (s ++ [(i, 0)]) := by
    intro t ht
    obtain ⟨i, hi⟩ := Option.ne_none_iff_exists'.1 (h.ids t ht)
    obtain ⟨s, hs, hl⟩ := stem_exists h ht hi
    obtain ⟨x, hx⟩ := get?_sortIdx_mem ht hi
    refine ⟨num (numOf ts) (s ++ [(i, 0)]), ?_, ?_⟩
    · have := keyLoop_stem h hs n (by omega)
      rw [refOf] at this
      rw [tierKey, hi, hx]
      simp only [this, Option.map_some, Except.map, num_append]
      simp [num, numOf, hx]
    · intro j hj
      rw [hi] at hj; cases hj
      exact ⟨s, hs, rfl⟩
  let K : Obj → List (Nat × Nat) := fun t => match tierKey n (sortIdx ts) (sortPr refattrs ts) t with
    | some (.ok k) => k
    | _ => []
  have hK : ∀ t ∈ ts, tierKey n (sortIdx ts) (sortPr refattrs ts) t = some (.ok (K t)) := by
    intro t ht
    obtain ⟨k, hk, _⟩ := hk t ht
    simp only [K, hk]
  have hd := tierKeys_all K ts [] hK
  refine ⟨fun t => (Dict.get? (ts.foldl (fun d t => Dict.set d t.data.id (K t)) []) t.data.id).getD [], ?_, ?_⟩
  · rw [sortTiers, hd]
  · intro t ht i hi
    obtain ⟨k, hk1, hk2⟩ := hk t ht
    obtain ⟨s, hs, hks⟩ := hk2 i hi
    refine ⟨s, hs, ?_⟩
    rw [← hks]
    have := hK t ht
    rw [hk1] at this
    cases this
    simp only
    rw [get?_foldl_set (fun t : Obj => t.data.id) K]
    split
    · rename_i u hu
      have h1 := List.mem_reverse.1 (List.mem_of_find?_eq_some hu)
      have h2 := List.find?_some hu
      simp only [decide_eq_true_eq] at h2
      rw [nodup_ids_eq h.unique h1 ht (h2.trans hi) hi]
      rfl
    · rename_i hnone
      rw [List.find?_eq_none] at hnone
      have := hnone t (List.mem_reverse.2 ht)
      simp at this

theorem map_id_nodup {ts : List Obj} (hn : (ts.filterMap fun t => t.data.id).Nodup) (hid : ∀ t ∈ ts, t.data.id ≠ none) :
    (ts.map fun t => t.data.id).Nodup := by
  have : ∀ l : List Obj, (∀ t ∈ l, t.data.id ≠ none) →
      l.map (fun t => t.data.id) = (l.filterMap fun t => t.data.id).map some := by
    intro l
    induction l with
    | nil => intro _; rfl
    | cons t l ih =>
      intro h
      have := ih fun u hu => h u (by simp [hu])
      cases hi : t.data.id with
      | none => exact absurd hi (h t (by simp))
      | some i => simp [hi, this]
  rw [this ts hid]
  exact List.pairwise_map.2 (hn.imp fun h e => h (Option.some.inj e))

theorem numOf_before {ts : List Obj} (hn : (ts.map fun t => t.data.id).Nodup) {t u : Obj} {i j}
    (hi : t.data.id = some i) (hj : u.data.id = some j) (hb : Before ts t u) : numOf ts i < numOf ts j := by
  obtain ⟨p, q, r, rfl⟩ := hb
  have h1 := get?_sortIdx hn
  have e : p ++ t :: (q ++ u :: r) = (p ++ t :: q) ++ u :: r := by simp
  have h2 := get?_sortIdx (A := p ++ t :: q) (t := u) (B := r) (by rw [← e]; exact hn)
  rw [← e] at h2
  rw [numOf, numOf, ← hi, ← hj, h1, h2]
  simp only [Option.getD_some, List.length_append, List.length_cons]
  omega

theorem numOf_inj {ts : List Obj} (hn : (ts.map fun t => t.data.id).Nodup) {t u : Obj} {i j} (ht : t ∈ ts)
    (hu : u ∈ ts) (hi : t.data.id = some i) (hj : u.data.id = some j) (he : numOf ts i = numOf ts j) : t = u := by
  refine Classical.byContradiction fun hne => ?_
  rcases before_or ht hu hne with h | h
  · have := numOf_before hn hi hj h; omega
  · have := numOf_before hn hj hi h; omega

theorem refOf_perm {refattrs : List Str} {ts ts' : List Obj} (hn : (ts.filterMap fun t => t.data.id).Nodup)
    (hp : ts'.Perm ts) : refOf refattrs ts' = refOf refattrs ts := by
  have hn' : (ts'.filterMap fun t => t.data.id).Nodup := (hp.filterMap _).nodup_iff.2 hn
  funext i
  rw [refOf, refOf]
  by_cases hex : ∃ t ∈ ts, t.data.id = some i
  · obtain ⟨t, ht, hi⟩ := hex
    rw [get?_sortPr hn ht hi, get?_sortPr hn' (hp.mem_iff.2 ht) hi]
  · cases h1 : Dict.get? (sortPr refattrs ts) (some i) with
    | some p => obtain ⟨t, ht, hi, _⟩ := get?_sortPr_mem h1; exact absurd ⟨t, ht, hi⟩ hex
    | none => cases h2 : Dict.get? (sortPr refattrs ts') (some i) with
      | some p => obtain ⟨t, ht, hi, _⟩ := get?_sortPr_mem h2; exact absurd ⟨t, hp.mem_iff.1 ht, hi⟩ hex
      | none => rfl

theorem sortOK_perm {refattrs : List Str} {ts ts' : List Obj} (h : SortOK refattrs ts) (hp : ts'.Perm ts) :
    SortOK refattrs ts' := by
  have hpt : ∀ t u, PointsTo refattrs ts' t u ↔ PointsTo refattrs ts t u := by
    intro t u; simp only [PointsTo, hp.mem_iff]
  have hpt' : PointsTo refattrs ts' = PointsTo refattrs ts := by
    funext t u; exact propext (hpt t u)
  refine ⟨(hp.filterMap _).nodup_iff.2 h.unique, fun t ht => h.ids t (hp.mem_iff.1 ht), ?_, ?_⟩
  · intro t ht ra hra
    rw [hpt']; exact h.exist t (hp.mem_iff.1 ht) ra hra
  · intro t j; rw [hpt']; exact h.acyclic t j

theorem stem_unique {p i s s'} (h : Stem p i s) (h' : Stem p i s') : s = s' := by
  induction h generalizing s' with
  | root hp => cases h' with
    | root _ => rfl
    | step hp' _ => rw [hp] at hp'; cases hp'
  | step hp _ ih => cases h' with
    | root hp' => rw [hp] at hp'; cases hp'
    | step hp' hs' => rw [hp] at hp'; cases hp'; rw [ih hs']

theorem stem_mem {refattrs : List Str} {ts : List Obj} (h : RefsExist refattrs ts) {i s}
    (hs : Stem (refOf refattrs ts) i s) : ∀ q ∈ s, ∃ t ∈ ts, t.data.id = some q.1 := by
  induction hs with
  | root _ => intro q hq; cases hq
  | @step i r k s hp _ ih =>
    intro q hq
    rcases List.mem_append.1 hq with hq | hq
    · exact ih q hq
    · simp only [List.mem_singleton] at hq
      subst hq
      obtain ⟨t, ht, hi, hf⟩ := get?_sortPr_mem hp
      obtain ⟨ra, hra, _⟩ := firstRef_iff.1 ⟨k, hf⟩
      obtain ⟨u, hu⟩ := h t ht ra hra
      obtain ⟨hut, r', k', hf', hur⟩ := pointsTo_iff.1 hu
      rw [hf] at hf'; cases hf'
      exact ⟨u, hut, hur⟩

/-- C30 for igts whose tiers all have IDs: with existing, non-circular tier references `sort_tiers`
permutes the tiers so that each stands after the one its highest-priority reference attribute points
to, and sorting again changes nothing.
Missing: tiers without IDs, for which it fails (`C30_refuted`). -/
theorem C30_partial (refattrs : List Str) (ts : List Obj) (h : SortOK refattrs ts) (n : Nat) (hlen : ts.length ≤ n) :
    ∃ ts', sortTiers n refattrs ts = some (.ok ts') ∧ ts'.Perm ts ∧
      (∀ t ∈ ts, ∀ u, PointsTo refattrs ts t u → Before ts' u t) ∧
      sortTiers n refattrs ts' = some (.ok ts') := by
  obtain ⟨key, hs, hkey⟩ := sortTiers_keys h hlen
  refine ⟨_, hs, sortBy_perm _ _, ?_⟩
  generalize hts' : sortBy (fun a b => keyLe (key a) (key b)) ts = ts'
  have hp : ts'.Perm ts := hts' ▸ sortBy_perm _ _
  have hsorted : ts'.Pairwise fun a b => keyLe (key a) (key b) = true :=
    hts' ▸ sortBy_sorted (le := fun a b => keyLe (key a) (key b)) (fun a b => keyLe_total _ _)
      (fun a b c => keyLe_trans _ _ _) ts
  have hmid := map_id_nodup h.unique h.ids
  have hmid' : (ts'.map fun t => t.data.id).Nodup := (hp.map _).nodup_iff.2 hmid
  -- keys are distinct
  have hinj : ∀ a ∈ ts, ∀ b ∈ ts, key a = key b → a = b := by
    intro a ha b hb he
    obtain ⟨i, hi⟩ := Option.ne_none_iff_exists'.1 (h.ids a ha)
    obtain ⟨j, hj⟩ := Option.ne_none_iff_exists'.1 (h.ids b hb)
    obtain ⟨s, _, h1⟩ := hkey a ha i hi
    obtain ⟨s', _, h2⟩ := hkey b hb j hj
    rw [h1, h2, num_append, num_append] at he
    have := (List.append_inj' he rfl).2
    simp only [num, List.map_cons, List.map_nil, List.cons.injEq, Prod.mk.injEq] at this
    exact numOf_inj hmid ha hb hi hj this.1.1
  -- smaller keys stand before
  have hbef : ∀ a ∈ ts, ∀ b ∈ ts, a ≠ b → keyLe (key a) (key b) = true → Before ts' a b := by
    intro a ha b hb hne hle
    rcases before_or (hp.mem_iff.2 ha) (hp.mem_iff.2 hb) hne with h1 | h1
    · exact h1
    · exact absurd (hinj a ha b hb (keyLe_antisymm _ _ hle (pairwise_before hsorted h1))) hne
  constructor
  · intro t ht u hu
    obtain ⟨hut, r, k, hf, hur⟩ := pointsTo_iff.1 hu
    obtain ⟨i, hi⟩ := Option.ne_none_iff_exists'.1 (h.ids t ht)
    obtain ⟨s, hst, h1⟩ := hkey t ht i hi
    obtain ⟨s', hst', h2⟩ := hkey u hut r hur
    have hne : u ≠ t := by rintro rfl; exact h.acyclic u 0 (.step hu (.zero u))
    refine hbef u hut t ht hne ?_
    have hs' : s = s' ++ [(r, k)] :=
      stem_unique hst (.step (by rw [refOf, get?_sortPr h.unique ht hi, hf]) hst')
    rw [h1, h2, hs', num_append, num_append, num_append, List.append_assoc, keyLe_append]
    simp only [num, List.map_cons, List.map_nil, List.singleton_append, keyLe]
    cases k <;> simp
  · have h' := sortOK_perm h hp
    obtain ⟨key', hs', hkey'⟩ := sortTiers_keys h' (n := n) (by rw [hp.length_eq]; exact hlen)
    rw [hs', sortBy_id]
    refine pairwise_of_before fun a b hab => ?_
    have ha' : a ∈ ts' := by obtain ⟨p, q, r, rfl⟩ := hab; simp
    have hb' : b ∈ ts' := by obtain ⟨p, q, r, rfl⟩ := hab; simp
    obtain ⟨i, hi⟩ := Option.ne_none_iff_exists'.1 (h'.ids a ha')
    obtain ⟨j, hj⟩ := Option.ne_none_iff_exists'.1 (h'.ids b hb')
    obtain ⟨s, hsa, h1⟩ := hkey a (hp.mem_iff.1 ha') i hi
    obtain ⟨s', hsb, h2⟩ := hkey b (hp.mem_iff.1 hb') j hj
    obtain ⟨s1, hsa', h3⟩ := hkey' a ha' i hi
    obtain ⟨s2, hsb', h4⟩ := hkey' b hb' j hj
    rw [refOf_perm h.unique hp] at hsa' hsb'
    rw [stem_unique hsa' hsa] at h3
    rw [stem_unique hsb' hsb] at h4
    have hle := pairwise_before hsorted hab
    rw [h1, h2] at hle
    rw [h3, h4]
    have hD : ∀ {i s} {a : Obj}, a ∈ ts → a.data.id = some i → Stem (refOf refattrs ts) i s →
        ∀ q ∈ s ++ [(i, 0)], ∃ t ∈ ts, t.data.id = some q.1 := by
      intro i s a ha hi hs q hq
      rcases List.mem_append.1 hq with hq | hq
      · exact stem_mem h.exist hs q hq
      · simp only [List.mem_singleton] at hq; subst hq; exact ⟨a, ha, hi⟩
    refine keyLe_renumber (D := fun i => ∃ t ∈ ts, t.data.id = some i) hsa hsb (hD (hp.mem_iff.1 ha') hi hsa)
      (hD (hp.mem_iff.1 hb') hj hsb) ?_ ?_ _ _ [] rfl rfl hle
    · rintro x y ⟨t, ht, hx⟩ ⟨u, hu, hy⟩ he
      have := numOf_inj hmid ht hu hx hy he
      rw [this, hy] at hx
      exact (Option.some.inj hx).symm
    · rintro x y Q ⟨t, ht, hx⟩ ⟨u, hu, hy⟩ hQx hQy hlt
      refine numOf_before hmid' hx hy (hbef t ht u hu ?_ ?_)
      · rintro rfl
        rw [hx] at hy; cases hy; omega
      · obtain ⟨s1, hs1, e1⟩ := hkey t ht x hx
        obtain ⟨s2, hs2, e2⟩ := hkey u hu y hy
        rw [e1, e2, stem_unique hs1 hQx, stem_unique hs2 hQy, num_append, num_append, keyLe_append]
        simp [num, keyLe, hlt]
end

/-! ### Refutations and examples -/

section
attribute [local instance] asciiUni

def defaultRefattrs : List Str := [SEGMENTATION, ALIGNMENT, CONTENT]

/-- a tier without ID -/
def anonTier (attrs : List (String × String)) : Obj :=
  .mk { cls := .tier, attrs := attrs.map fun p => (p.1.toList, p.2.toList) } [] []

/-- C30 fails for tiers without ID: the first refers to `w`, is sorted by the reference of the second,
and stands before `w`. -/
theorem C30_refuted : ∃ (ts : List Obj) (t u : Obj), (ts.filterMap fun t => t.data.id).Nodup ∧
    RefsExist defaultRefattrs ts ∧ t ∈ ts ∧ PointsTo defaultRefattrs ts t u ∧
    ∃ a b c, sortTiers 10 defaultRefattrs ts = some (.ok (a ++ t :: (b ++ u :: c))) := by
  have hp1 : ∀ ts, mkTier "w" [] [] ∈ ts →
      PointsTo defaultRefattrs ts (anonTier [("segmentation", "w")]) (mkTier "w" [] []) := fun ts h =>
    pointsTo_iff.2 ⟨h, ['w'], 0, by decide +kernel, rfl⟩
  have hp2 : ∀ ts, mkTier "x" [] [] ∈ ts →
      PointsTo defaultRefattrs ts (anonTier [("segmentation", "x")]) (mkTier "x" [] []) := fun ts h =>
    pointsTo_iff.2 ⟨h, ['x'], 0, by decide +kernel, rfl⟩
  refine ⟨[mkTier "x" [] [], anonTier [("segmentation", "w")], anonTier [("segmentation", "x")], mkTier "w" [] []],
    anonTier [("segmentation", "w")], mkTier "w" [] [], by decide +kernel, ?_, List.mem_cons_of_mem _ (List.mem_cons_self ..),
    hp1 _ (by simp), [mkTier "x" [] []], [anonTier [("segmentation", "x")]], [], rfl⟩
  intro t ht ra hra
  simp only [List.mem_cons, List.not_mem_nil, or_false] at ht
  rcases ht with rfl | rfl | rfl | rfl
  · obtain ⟨_, _, _, ⟨v, hv⟩, _⟩ := hra; simp [mkTier] at hv
  · exact ⟨_, hp1 _ (by simp)⟩
  · exact ⟨_, hp2 _ (by simp)⟩
  · obtain ⟨_, _, _, ⟨v, hv⟩, _⟩ := hra; simp [mkTier] at hv

/-- C31 is false: two tiers that refer to each other. -/
theorem C31_refuted : ∃ ts : List Obj, ∀ n, sortTiers n defaultRefattrs ts = none := by
  have hp : ∀ a b : String, ∀ ts, mkTier b [("segmentation", a)] [] ∈ ts →
      firstRef defaultRefattrs (mkTier a [("segmentation", b)] []) = some (b.toList, 0) →
      PointsTo defaultRefattrs ts (mkTier a [("segmentation", b)] []) (mkTier b [("segmentation", a)] []) :=
    fun a b ts h hf => pointsTo_iff.2 ⟨h, b.toList, 0, hf, rfl⟩
  refine ⟨[mkTier "a" [("segmentation", "b")] [], mkTier "b" [("segmentation", "a")] []], fun n => ?_⟩
  refine C31_diverges _ _ (by decide +kernel) ?_ ?_ (mkTier "a" [("segmentation", "b")] []) 1
    (.step (hp "a" "b" _ (by simp) (by decide +kernel)) (.step (hp "b" "a" _ (by simp) (by decide +kernel)) (.zero _))) n
  · intro t ht
    simp only [List.mem_cons, List.not_mem_nil, or_false] at ht
    rcases ht with rfl | rfl <;> simp [mkTier]
  · intro t ht ra _
    simp only [List.mem_cons, List.not_mem_nil, or_false] at ht
    rcases ht with rfl | rfl
    · exact ⟨_, hp "a" "b" _ (by simp) (by decide +kernel)⟩
    · exact ⟨_, hp "b" "a" _ (by simp) (by decide +kernel)⟩

/-- a missing referent raises KeyError -/
example : sortTiers 10 defaultRefattrs [mkTier "a" [("segmentation", "zz")] []] = some (.error .keyError) := rfl

def exSortTiers : List Obj := [mkTier "g" [("alignment", "m")] [], mkTier "m" [("segmentation", "w")] [],
  mkTier "x" [] [], mkTier "w" [] []]

example : (sortTiers 10 defaultRefattrs exSortTiers).map (Except.map fun ts => ts.map fun t => t.data.id) =
    some (.ok [some ['x'], some ['w'], some ['m'], some ['g']]) := by decide +kernel

/-- the hypotheses of `C30_partial` are met by `exSortTiers` -/
example : SortOK defaultRefattrs exSortTiers := by
  have key : ∀ t u, PointsTo defaultRefattrs exSortTiers t u → t ∈ exSortTiers →
      (t.data.id = some ['g'] ∧ u.data.id = some ['m']) ∨ (t.data.id = some ['m'] ∧ u.data.id = some ['w']) := by
    intro t u h ht
    obtain ⟨_, r, k, hf, hu⟩ := pointsTo_iff.1 h
    simp only [exSortTiers, List.mem_cons, List.not_mem_nil, or_false] at ht
    rcases ht with rfl | rfl | rfl | rfl
    · have : firstRef defaultRefattrs (mkTier "g" [("alignment", "m")] []) = some (['m'], 1) := by decide +kernel
      rw [this] at hf; cases hf; exact Or.inl ⟨rfl, hu⟩
    · have : firstRef defaultRefattrs (mkTier "m" [("segmentation", "w")] []) = some (['w'], 0) := by decide +kernel
      rw [this] at hf; cases hf; exact Or.inr ⟨rfl, hu⟩
    · have : firstRef defaultRefattrs (mkTier "x" [] []) = none := by decide +kernel
      rw [this] at hf; cases hf
    · have : firstRef defaultRefattrs (mkTier "w" [] []) = none := by decide +kernel
      rw [this] at hf; cases hf
  refine ⟨by decide +kernel, ?_, ?_, ?_⟩
  · intro t ht
    simp only [exSortTiers, List.mem_cons, List.not_mem_nil, or_false] at ht
    rcases ht with rfl | rfl | rfl | rfl <;> simp [mkTier]
  · intro t ht ra hra
    simp only [exSortTiers, List.mem_cons, List.not_mem_nil, or_false] at ht
    rcases ht with rfl | rfl | rfl | rfl
    · exact ⟨mkTier "m" [("segmentation", "w")] [], pointsTo_iff.2 ⟨by simp [exSortTiers], ['m'], 1, by decide +kernel, rfl⟩⟩
    · exact ⟨mkTier "w" [] [], pointsTo_iff.2 ⟨by simp [exSortTiers], ['w'], 0, by decide +kernel, rfl⟩⟩
    · obtain ⟨_, _, _, ⟨v, hv⟩, _⟩ := hra; simp [mkTier] at hv
    · obtain ⟨_, _, _, ⟨v, hv⟩, _⟩ := hra; simp [mkTier] at hv
  · -- chains go g → m → w only
    have hch : ∀ n t z, Chain (PointsTo defaultRefattrs exSortTiers) n t z → t ∈ exSortTiers →
        (t.data.id = some ['w'] → n = 0) ∧ (t.data.id = some ['m'] → n ≤ 1) ∧ n ≤ 2 := by
      intro n t z h
      induction h with
      | zero => intro _; simp
      | @step n x y z hxy h ih =>
        intro hx
        have hy := ih (pointsTo_iff.1 hxy).1
        rcases key x y hxy hx with ⟨h1, h2⟩ | ⟨h1, h2⟩
        · have := hy.2.1 h2
          rw [h1]; simp; omega
        · have := hy.1 h2
          rw [h1]; simp; omega
    intro t j hc
    have hr := hc.repeat 3
    have := (hch _ t t hr (chain_mem j t t hc)).2.2
    omega
end
end Xigt
