import Verif.Export.LatexModel
/-
C60: the grid shows every item once; C78: items stand in the columns of what they refer to.
-/
set_option linter.unusedSectionVars false

namespace Xigt.Ltx

/-! ### Specification -/

section
variable [Uni]

/-- the IDs an item refers to: those of its alignment, or, if that is missing or empty, of its
segmentation -/
def Refers (x : Obj) (l : List Str) : Prop :=
  (∃ s, Dict.get? x.data.attrs ALIGNMENT = some s ∧ s ≠ [] ∧ l = ids s) ∨
  ((∀ s, Dict.get? x.data.attrs ALIGNMENT = some s → s = []) ∧ ∃ s, Dict.get? x.data.attrs SEGMENTATION = some s ∧ l = ids s)

/-- `x` refers to items of `P`, the first at `a` and the last at `b` -/
def Spans (P : List Obj) (x : Obj) (a b : Nat) : Prop :=
  ∃ l i j p q, Refers x l ∧ l.head? = some i ∧ l.getLast? = some j ∧ P[a]? = some p ∧ p.data.id = some i ∧
    P[b]? = some q ∧ q.data.id = some j ∧ a ≤ b

/-- the items refer to items of `P`, in order (not before `lo`) -/
inductive InOrder (P : List Obj) : Nat → List Obj → Prop
  | nil {lo} : InOrder P lo []
  | cons {lo a b x xs} : Spans P x a b → lo ≤ a → InOrder P a xs → InOrder P lo (x :: xs)

/-- each tier refers to the one before it, in order -/
inductive Chain : List Obj → Prop
  | one {t} : Chain [t]
  | cons {t u ts} : InOrder t.kids 0 u.kids → Chain (u :: ts) → Chain (t :: u :: ts)

/-- the `j`-th row of the grid -/
def rowOf (T : Trellis) (j : Nat) : List Obj := T.flatMap fun c => c.getD j []

/-! ### Rows of the operations -/

/-- columns only become larger -/
def Grows (T T' : Trellis) : Prop := ∀ c ∈ T, ∃ c' ∈ T', ∀ j : Nat, ∀ x ∈ c.getD j [], x ∈ c'.getD j []

theorem Grows.refl (T : Trellis) : Grows T T := fun c hc => ⟨c, hc, fun _ _ h => h⟩
theorem Grows.trans {A B C : Trellis} (h : Grows A B) (g : Grows B C) : Grows A C := by
  intro c hc
  obtain ⟨c', hc', e⟩ := h c hc
  obtain ⟨c'', hc'', e'⟩ := g c' hc'
  exact ⟨c'', hc'', fun j x hx => e' j x (e j x hx)⟩

theorem getD_snoc_nil (c : Col) (j : Nat) : (c ++ [[]]).getD j [] = c.getD j [] := by
  simp only [List.getD_eq_getElem?_getD]
  by_cases h : j < c.length
  · rw [List.getElem?_append_left h]
  · rw [List.getElem?_append_right (by omega)]
    have : c[j]? = none := List.getElem?_eq_none (by omega)
    rw [this]
    by_cases h2 : j - c.length = 0
    · simp [h2]
    · have : ([[]] : List (List Obj))[j - c.length]? = none := List.getElem?_eq_none (by simp; omega)
      rw [this]

/-- adding empty rows to some columns -/
def pad (f : Nat → Bool) (T : Trellis) : Trellis := T.zipIdx.map fun p => if f p.2 then p.1 ++ [[]] else p.1

theorem pad_row (f : Nat → Bool) (T : Trellis) (j : Nat) : rowOf (pad f T) j = rowOf T j := by
  unfold rowOf pad
  rw [List.flatMap_map]
  have : (fun p : Col × Nat => (if f p.2 then p.1 ++ [[]] else p.1).getD j []) = fun p : Col × Nat => p.1.getD j [] := by
    funext p
    split
    · exact getD_snoc_nil _ _
    · rfl
  rw [this]
  have h : T.zipIdx.flatMap (fun p : Col × Nat => p.1.getD j []) = (T.zipIdx.map Prod.fst).flatMap fun c => c.getD j [] := by
    rw [List.flatMap_map]
  rw [h, List.zipIdx_map_fst]

theorem pad_get (f : Nat → Bool) (T : Trellis) (k : Nat) :
    (pad f T)[k]? = T[k]?.map fun c => if f k then c ++ [[]] else c := by
  unfold pad
  rw [List.getElem?_map, List.getElem?_zipIdx]
  cases T[k]? <;> simp

theorem pad_length (f : Nat → Bool) (T : Trellis) : (pad f T).length = T.length := by simp [pad]

theorem pad_grows (f : Nat → Bool) (T : Trellis) : Grows T (pad f T) := by
  intro c hc
  obtain ⟨k, hk⟩ := List.mem_iff_getElem?.1 hc
  have h := pad_get f T k
  rw [hk] at h
  refine ⟨_, List.mem_of_getElem? h, ?_⟩
  intro j x hx
  split
  · rw [getD_snoc_nil]; exact hx
  · exact hx

theorem advance_pad (next start : Nat) (T : Trellis) :
    advance next start T = pad (fun k => decide (next ≤ k ∧ k ≤ start)) T := by
  unfold advance pad
  simp

theorem foldr_max_le {l : List Nat} {n : Nat} (h : n ∈ l) : n ≤ l.foldr max 0 := by
  induction l with
  | nil => cases h
  | cons m l ih =>
    rw [List.foldr_cons]
    rcases List.mem_cons.1 h with rfl | h
    · exact Nat.le_max_left _ _
    · exact Nat.le_trans (ih h) (Nat.le_max_right _ _)

theorem foldr_max_eq {l : List Nat} {n : Nat} (h : n ∈ l) (hb : ∀ m ∈ l, m ≤ n) : l.foldr max 0 = n := by
  have h1 := foldr_max_le h
  have h2 : l.foldr max 0 ≤ n := by
    clear h h1
    induction l with
    | nil => exact Nat.zero_le _
    | cons m l ih =>
      rw [List.foldr_cons]
      exact Nat.max_le.2 ⟨hb m (by simp), ih (fun k hk => hb k (by simp [hk]))⟩
  omega

theorem mergeCols_getD (cs : Trellis) (j : Nat) : (mergeCols cs).getD j [] = rowOf cs j := by
  unfold mergeCols rowOf
  simp only [List.getD_eq_getElem?_getD, List.getElem?_map]
  by_cases h : j < (cs.map List.length).foldr max 0
  · rw [List.getElem?_range h]
    rfl
  · rw [List.getElem?_eq_none (by simpa using h)]
    simp only [Option.map_none, Option.getD_none]
    symm
    rw [List.flatMap_eq_nil_iff]
    intro c hc
    have : c.length ≤ (cs.map List.length).foldr max 0 := foldr_max_le (List.mem_map_of_mem hc)
    rw [List.getElem?_eq_none (by omega)]
    rfl

theorem rowOf_append (A B : Trellis) (j : Nat) : rowOf (A ++ B) j = rowOf A j ++ rowOf B j := by simp [rowOf]

theorem split_seg (T : Trellis) {s e : Nat} (h : s ≤ e) : T = T.take s ++ ((T.drop s).take (e - s) ++ T.drop e) := by
  have h1 : T.drop e = (T.drop s).drop (e - s) := by
    rw [List.drop_drop]
    congr 1
    omega
  rw [h1, List.take_append_drop, List.take_append_drop]

theorem merge_row (T : Trellis) {s e : Nat} (h : s ≤ e) (j : Nat) : rowOf (mergeColumns T s e) j = rowOf T j := by
  have h1 : rowOf T j = rowOf (T.take s ++ ((T.drop s).take (e - s) ++ T.drop e)) j := by rw [← split_seg T h]
  rw [h1]
  unfold mergeColumns
  rw [rowOf_append, rowOf_append, rowOf_append, rowOf_append, List.append_assoc]
  have : rowOf [mergeCols ((T.drop s).take (e - s))] j = rowOf ((T.drop s).take (e - s)) j := by
    have : rowOf [mergeCols ((T.drop s).take (e - s))] j = (mergeCols ((T.drop s).take (e - s))).getD j [] ++ [] := by
      simp [rowOf]
    rw [this, mergeCols_getD, List.append_nil]
  rw [this]

theorem merge_grows (T : Trellis) {s e : Nat} (h : s ≤ e) : Grows T (mergeColumns T s e) := by
  intro c hc
  rw [split_seg T h] at hc
  rcases List.mem_append.1 hc with hc | hc
  · exact ⟨c, by unfold mergeColumns; simp [hc], fun _ _ hx => hx⟩
  rcases List.mem_append.1 hc with hc | hc
  · refine ⟨mergeCols ((T.drop s).take (e - s)), by unfold mergeColumns; simp, ?_⟩
    intro j x hx
    rw [mergeCols_getD]
    exact List.mem_flatMap.2 ⟨c, hc, hx⟩
  · exact ⟨c, by unfold mergeColumns; simp [hc], fun _ _ hx => hx⟩

/-! ### The index map -/

theorem idxmap_ok {D : Nat} : ∀ {T : Trellis} (i : Nat), (∀ c ∈ T, D < c.length) → ∃ m, idxmap D i T = .ok m := by
  intro T
  induction T with
  | nil => intro i _; exact ⟨[], rfl⟩
  | cons c T ih =>
    intro i h
    obtain ⟨m, hm⟩ := ih (i + 1) (fun c hc => h c (by simp [hc]))
    have hc := h c (by simp)
    unfold idxmap
    rw [List.getElem?_eq_getElem hc]
    simp only [hm, bind, Except.bind]
    exact ⟨_, rfl⟩

theorem idxmap_spec {D : Nat} : ∀ {T : Trellis} {i : Nat} {m : List (Option Str × Nat)}, idxmap D i T = .ok m →
    m.map Prod.fst = (rowOf T D).map (fun x => x.data.id) ∧ m.Pairwise (fun p q => p.2 ≤ q.2) ∧ (∀ p ∈ m, i ≤ p.2) ∧
    ∀ (a : Nat) (x : Obj) (p : Option Str × Nat), (rowOf T D)[a]? = some x → m[a]? = some p →
      ∃ c, T[p.2 - i]? = some c ∧ x ∈ c.getD D [] := by
  intro T
  induction T with
  | nil => intro i m h; cases h; simp [rowOf]
  | cons c T ih =>
    intro i m h
    unfold idxmap at h
    split at h
    · cases h
    rename_i row hrow
    simp only [bind, Except.bind] at h
    split at h
    · cases h
    rename_i m' hm'
    cases h
    obtain ⟨h1, h2, h3, h4⟩ := ih hm'
    have hr : c.getD D [] = row := by rw [List.getD_eq_getElem?_getD, hrow]; rfl
    have hrow' : rowOf (c :: T) D = row ++ rowOf T D := by
      unfold rowOf; rw [List.flatMap_cons, hr]
    refine ⟨?_, ?_, ?_, ?_⟩
    · rw [hrow', List.map_append, List.map_append, h1, List.map_map]; rfl
    · rw [List.pairwise_append]
      refine ⟨?_, h2, ?_⟩
      · rw [List.pairwise_map]
        exact List.pairwise_of_forall (fun _ _ => Nat.le_refl _)
      · intro p hp q hq
        obtain ⟨x, _, rfl⟩ := List.mem_map.1 hp
        have := h3 q hq
        simp only
        omega
    · intro p hp
      rcases List.mem_append.1 hp with hp | hp
      · obtain ⟨x, _, rfl⟩ := List.mem_map.1 hp
        exact Nat.le_refl _
      · have := h3 p hp; omega
    · intro a x p hx hp
      rw [hrow'] at hx
      by_cases ha : a < row.length
      · rw [List.getElem?_append_left ha] at hx
        rw [List.getElem?_append_left (by simpa using ha), List.getElem?_map, hx] at hp
        cases hp
        refine ⟨c, by simp, ?_⟩
        rw [hr]; exact List.mem_of_getElem? hx
      · rw [List.getElem?_append_right (by omega)] at hx
        rw [List.getElem?_append_right (by simp; omega), List.length_map] at hp
        obtain ⟨c', hc', hx'⟩ := h4 _ x p hx hp
        have := h3 p (List.mem_of_getElem? hp)
        refine ⟨c', ?_, hx'⟩
        rw [show p.2 - i = (p.2 - (i + 1)) + 1 by omega, List.getElem?_cons_succ]
        exact hc'

theorem look_ok {m : List (Option Str × Nat)} {i : Str} {a k : Nat} (hd : (m.map Prod.fst).Nodup)
    (h : m[a]? = some (some i, k)) : look m i = .ok k := by
  unfold look
  cases hf : m.reverse.find? (fun p => decide (p.1 = some i)) with
  | none =>
    rw [List.find?_eq_none] at hf
    have := hf (some i, k) (by simpa using List.mem_of_getElem? h)
    simp at this
  | some p =>
    have hp1 : p.1 = some i := by simpa using List.find?_some hf
    have hp2 : p ∈ m := by simpa using List.mem_of_find?_eq_some hf
    obtain ⟨b, hb⟩ := List.mem_iff_getElem?.1 hp2
    have e1 : (m.map Prod.fst)[a]? = some (some i) := by rw [List.getElem?_map, h]; rfl
    have e2 : (m.map Prod.fst)[b]? = some (some i) := by rw [List.getElem?_map, hb]; simp [hp1]
    have hlt : a < (m.map Prod.fst).length := (List.getElem?_eq_some_iff.1 e1).1
    have hab : a = b := (List.getElem?_inj hlt hd).1 (by rw [e1, e2])
    subst hab
    rw [h] at hb
    cases hb
    rfl

theorem shown_ok {T : Trellis} (h1 : ∀ c ∈ T, c ≠ []) (h2 : ∀ j : Nat, ∀ x ∈ rowOf T j, x.data.id.isSome = true) :
    shown T = .ok () := by
  have rows : ∀ rs : List (List Obj), (∀ r ∈ rs, ∀ x ∈ r, x.data.id.isSome = true) → rowsShown rs = .ok () := by
    intro rs
    induction rs with
    | nil => intro _; rfl
    | cons r rs ih =>
      intro h
      have : rowShown r = .ok () := by
        unfold rowShown
        rw [if_pos (List.all_eq_true.2 (h r (by simp)))]
      simp only [rowsShown, this, bind, Except.bind]
      exact ih (fun r hr => h r (by simp [hr]))
  induction T with
  | nil => rfl
  | cons c T ih =>
    have hc : rowsShown c = .ok () := by
      apply rows
      intro r hr x hx
      obtain ⟨j, hj⟩ := List.mem_iff_getElem?.1 hr
      refine h2 j x (List.mem_flatMap.2 ⟨c, by simp, ?_⟩)
      rw [List.getD_eq_getElem?_getD, hj]
      exact hx
    simp only [shown, hc, bind, Except.bind, if_neg (h1 c (by simp))]
    refine ih (fun c hc => h1 c (by simp [hc])) ?_
    intro j x hx
    refine h2 j x ?_
    have : rowOf (c :: T) j = c.getD j [] ++ rowOf T j := by simp [rowOf]
    rw [this]
    simp [hx]

/-! ### The agenda -/

theorem refIds_iff (x : Obj) (l : List Str) : refIds x = .ok l ↔ Refers x l := by
  unfold refIds Refers
  cases ha : Dict.get? x.data.attrs ALIGNMENT with
  | none =>
    cases hs : Dict.get? x.data.attrs SEGMENTATION with
    | none => simp
    | some s => simp [eq_comm]
  | some a =>
    cases a with
    | nil =>
      cases hs : Dict.get? x.data.attrs SEGMENTATION with
      | none => simp
      | some s => simp [eq_comm]
    | cons c cs => simp [eq_comm]

theorem refers_unique {x : Obj} {l l' : List Str} (h : Refers x l) (h' : Refers x l') : l = l' := by
  have := (refIds_iff x l).2 h
  rw [(refIds_iff x l').2 h'] at this
  cases this; rfl

/-- the groups refer to items of `P`, in order -/
inductive Groups (P : List Obj) : Nat → List Agendum → Prop
  | nil {lo} : Groups P lo []
  | cons {lo a b l xs gs} : (∀ x ∈ xs, Spans P x a b ∧ Refers x l) → xs ≠ [] → lo ≤ a → Groups P a gs → Groups P lo ((l, xs) :: gs)

theorem nodup_get {P : List Obj} (hd : (P.map fun x => x.data.id).Nodup) {a b : Nat} {p q : Obj} (hp : P[a]? = some p)
    (hq : P[b]? = some q) (e : p.data.id = q.data.id) : a = b := by
  have e1 : (P.map fun x => x.data.id)[a]? = some p.data.id := by rw [List.getElem?_map, hp]; rfl
  have e2 : (P.map fun x => x.data.id)[b]? = some p.data.id := by rw [List.getElem?_map, hq, e]; rfl
  have hlt := (List.getElem?_eq_some_iff.1 e1).1
  exact (List.getElem?_inj hlt hd).1 (by rw [e1, e2])

theorem spans_unique {P : List Obj} (hd : (P.map fun x => x.data.id).Nodup) {x y : Obj} {l : List Str} {a b a' b' : Nat}
    (h : Spans P x a b) (h' : Spans P y a' b') (hx : Refers x l) (hy : Refers y l) : a = a' ∧ b = b' := by
  obtain ⟨l1, i, j, p, q, r1, e1, e2, e3, e4, e5, e6, _⟩ := h
  obtain ⟨l2, i', j', p', q', r2, f1, f2, f3, f4, f5, f6, _⟩ := h'
  have := refers_unique r1 hx
  have := refers_unique r2 hy
  subst l1 l2
  rw [e1] at f1
  rw [e2] at f2
  cases f1
  cases f2
  exact ⟨nodup_get hd e3 f3 (by rw [e4, f4]), nodup_get hd e5 f5 (by rw [e6, f6])⟩

theorem agenda_groups {P : List Obj} (hd : (P.map fun x => x.data.id).Nodup) : ∀ (xs : List Obj) (lo : Nat), InOrder P lo xs →
    ∃ ps, pairs xs = .ok ps ∧ Groups P lo (group ps) ∧ (group ps).flatMap Prod.snd = xs := by
  intro xs
  induction xs with
  | nil => intro lo _; exact ⟨[], rfl, .nil, rfl⟩
  | cons x xs ih =>
    intro lo h
    cases h with
    | cons hs hlo ht =>
      rename_i a b
      obtain ⟨ps, hps, hg, hf⟩ := ih a ht
      obtain ⟨l, hl⟩ : ∃ l, Refers x l := by
        obtain ⟨l, _, _, _, _, hl, _⟩ := hs
        exact ⟨l, hl⟩
      refine ⟨(l, x) :: ps, ?_, ?_, ?_⟩
      · simp only [pairs, (refIds_iff x l).2 hl, hps, bind, Except.bind]
      · unfold group
        cases hgr : group ps with
        | nil =>
          simp only
          exact .cons (by intro y hy; cases List.mem_singleton.1 hy; exact ⟨hs, hl⟩) (by simp) hlo .nil
        | cons g gs =>
          obtain ⟨j, ys⟩ := g
          rw [hgr] at hg
          simp only
          split
          · rename_i e
            subst e
            cases hg with
            | cons k1 k2 k3 k4 =>
              rename_i a' b'
              obtain ⟨y, ys', rfl⟩ := List.exists_cons_of_ne_nil k2
              obtain ⟨e1, e2⟩ := spans_unique hd hs (k1 y (by simp)).1 hl (k1 y (by simp)).2
              subst e1 e2
              refine .cons (b := b) ?_ (by simp) hlo k4
              intro z hz
              rcases List.mem_cons.1 hz with rfl | hz
              · exact ⟨hs, hl⟩
              · exact k1 z hz
          · exact .cons (by intro y hy; cases List.mem_singleton.1 hy; exact ⟨hs, hl⟩) (by simp) hlo hg
      · rw [← hf]
        simp only [group]
        cases hgr : group ps with
        | nil => simp
        | cons g gs =>
          obtain ⟨j, ys⟩ := g
          simp only
          split <;> simp


/-! ### One group -/

theorem idxmap_congr {D : Nat} : ∀ {T T' : Trellis} (i : Nat), T.map (fun c => c[D]?) = T'.map (fun c => c[D]?) →
    idxmap D i T = idxmap D i T' := by
  intro T
  induction T with
  | nil =>
    intro T' i h
    cases T' with
    | nil => rfl
    | cons c T' => simp at h
  | cons c T ih =>
    intro T' i h
    cases T' with
    | nil => simp at h
    | cons c' T' =>
      simp only [List.map_cons, List.cons.injEq] at h
      unfold idxmap
      rw [h.1, ih (i + 1) h.2]

theorem col_unique {T : Trellis} {D : Nat} (hd : ((rowOf T D).map fun x => x.data.id).Nodup) {k k' : Nat} {c c' : Col} {p : Obj}
    (h : T[k]? = some c) (h' : T[k']? = some c') (hp : p ∈ c.getD D []) (hp' : p ∈ c'.getD D []) : k = k' := by
  have hd2 : (rowOf T D).Pairwise (fun x y => x.data.id ≠ y.data.id) := List.pairwise_map.1 hd
  have hd3 := (List.pairwise_flatMap.1 hd2).2
  rw [List.pairwise_iff_getElem] at hd3
  obtain ⟨b1, e1⟩ := List.getElem?_eq_some_iff.1 h
  obtain ⟨b2, e2⟩ := List.getElem?_eq_some_iff.1 h'
  rcases Nat.lt_trichotomy k k' with hk | hk | hk
  · exact absurd rfl (hd3 k k' b1 b2 hk p (by rw [e1]; exact hp) p (by rw [e2]; exact hp'))
  · exact hk
  · exact absurd rfl (hd3 k' k b2 b1 hk p (by rw [e2]; exact hp') p (by rw [e1]; exact hp))

/-- the state of the loop: the first `next` columns have the new row, the others not yet -/
structure Inv (d : Nat) (R : Nat → List Obj) (lo : Nat) (s : St) (done : List Obj) : Prop where
  hd : 0 < d
  delay : s.delay = []
  next_le : s.next ≤ s.t.length
  len : ∀ (k : Nat) (c : Col), s.t[k]? = some c → c.length = if k < s.next then d + 1 else d
  rows : ∀ j, j < d → rowOf s.t j = R j
  cur : rowOf s.t d = done
  map : idxmap (d - 1) 0 s.t = .ok s.map
  cursor : s.next = 0 ∨ ∃ p, s.map[lo]? = some (p, s.next - 1)

/-- what the items of a group find: columns up to `k` have the new row -/
structure Ready (d : Nat) (T T' : Trellis) (k a b : Nat) (P : List Obj) : Prop where
  lt : k < T'.length
  len : ∀ (n : Nat) (c : Col), T'[n]? = some c → c.length = if n ≤ k then d + 1 else d
  rows : ∀ j : Nat, rowOf T' j = rowOf T j
  grows : Grows T T'
  holds : ∃ c, T'[k]? = some c ∧ ∀ m : Nat, a ≤ m → m ≤ b → ∃ p, P[m]? = some p ∧ p ∈ c.getD (d - 1) []

theorem seg_get (T : Trellis) {s e k : Nat} (h1 : s ≤ k) (h2 : k < e) {c : Col} (h : T[k]? = some c) : c ∈ (T.drop s).take (e - s) := by
  refine List.mem_of_getElem? (i := k - s) ?_
  rw [List.getElem?_take, if_pos (by omega), List.getElem?_drop]
  rw [show s + (k - s) = k by omega]
  exact h

theorem seg_mem (T : Trellis) {s e : Nat} {c : Col} (h : c ∈ (T.drop s).take (e - s)) : ∃ k, s ≤ k ∧ k < e ∧ T[k]? = some c := by
  obtain ⟨n, hn⟩ := List.mem_iff_getElem?.1 h
  rw [List.getElem?_take] at hn
  split at hn
  · rw [List.getElem?_drop] at hn
    exact ⟨s + n, by omega, by omega, hn⟩
  · cases hn

theorem merge_get (T : Trellis) {s e : Nat} (h : s < e) (he : e ≤ T.length) (k : Nat) :
    (mergeColumns T s e)[k]? = if k < s then T[k]? else if k = s then some (mergeCols ((T.drop s).take (e - s))) else T[k + (e - s - 1)]? := by
  unfold mergeColumns
  have hs : (T.take s).length = s := by rw [List.length_take]; omega
  rw [List.append_assoc]
  by_cases h1 : k < s
  · rw [List.getElem?_append_left (by omega), if_pos h1, List.getElem?_take, if_pos h1]
  rw [List.getElem?_append_right (by omega), if_neg h1, hs]
  by_cases h2 : k = s
  · subst h2
    simp
  rw [if_neg h2, show k - s = (k - s - 1) + 1 by omega, List.singleton_append, List.getElem?_cons_succ, List.getElem?_drop]
  congr 1
  omega

theorem merge_ready {d ka kb a b : Nat} {T : Trellis} {P : List Obj} (hd : 0 < d) (hle : ka ≤ kb) (hb : kb < T.length)
    (hlen : ∀ (n : Nat) (c : Col), T[n]? = some c → c.length = if n ≤ ka then d + 1 else d)
    (hid : ∀ j : Nat, ∀ x ∈ rowOf T j, x.data.id.isSome = true)
    (hP : ∀ m : Nat, a ≤ m → m ≤ b → ∃ p, P[m]? = some p ∧ ∃ (k : Nat) (c : Col), ka ≤ k ∧ k ≤ kb ∧ T[k]? = some c ∧ p ∈ c.getD (d - 1) []) :
    ∃ T', merge ka kb d T = .ok T' ∧ Ready d T T' ka a b P := by
  unfold merge
  split
  · rename_i e
    subst e
    refine ⟨T, rfl, hb, hlen, fun _ => rfl, Grows.refl _, T[ka], List.getElem?_eq_getElem hb, ?_⟩
    intro m h1 h2
    obtain ⟨p, hp, k, c, k1, k2, k3, k4⟩ := hP m h1 h2
    have : k = ka := by omega
    subst this
    rw [List.getElem?_eq_getElem hb] at k3
    cases k3
    exact ⟨p, hp, k4⟩
  · rename_i hne
    have hlt : ka < kb + 1 := by omega
    have hget := merge_get T hlt (by omega)
    have hlen2 : ∀ (n : Nat) (c : Col), (mergeColumns T ka (kb + 1))[n]? = some c → c.length = if n ≤ ka then d + 1 else d := by
      intro n c hc
      rw [hget] at hc
      split at hc
      · exact hlen n c hc
      · split at hc
        · rename_i e
          subst e
          cases hc
          rw [if_pos (Nat.le_refl _)]
          unfold mergeCols
          rw [List.length_map, List.length_range]
          have h0 : T[n]? = some T[n] := List.getElem?_eq_getElem (by omega)
          apply foldr_max_eq
          · refine List.mem_map.2 ⟨T[n], seg_get T (Nat.le_refl _) hlt h0, ?_⟩
            rw [hlen _ _ h0, if_pos (Nat.le_refl _)]
          · intro q hq
            obtain ⟨c, hc, rfl⟩ := List.mem_map.1 hq
            obtain ⟨k, _, _, hk⟩ := seg_mem T hc
            rw [hlen k c hk]
            split <;> omega
        · rw [hlen _ _ hc, if_neg (by omega), if_neg (by omega)]
    have hpos : ∀ c ∈ mergeColumns T ka (kb + 1), d ≤ c.length := by
      intro c hc
      obtain ⟨n, hn⟩ := List.mem_iff_getElem?.1 hc
      rw [hlen2 n c hn]
      split <;> omega
    obtain ⟨m, hm⟩ := idxmap_ok (D := d - 1) (T := mergeColumns T ka (kb + 1)) 0 (fun c hc => by have := hpos c hc; omega)
    have hsh : shown (mergeColumns T ka (kb + 1)) = .ok () := by
      apply shown_ok
      · intro c hc e
        have := hpos c hc
        rw [e] at this
        simp at this
        omega
      · intro j x hx
        rw [merge_row T (by omega)] at hx
        exact hid j x hx
    simp only [hm, hsh, bind, Except.bind]
    refine ⟨_, rfl, ?_, hlen2, fun j => merge_row T (by omega) j, merge_grows T (by omega), mergeCols ((T.drop ka).take (kb + 1 - ka)), ?_, ?_⟩
    · unfold mergeColumns
      simp
      omega
    · rw [hget, if_neg (by omega), if_pos rfl]
    · intro m h1 h2
      obtain ⟨p, hp, k, c, k1, k2, k3, k4⟩ := hP m h1 h2
      refine ⟨p, hp, ?_⟩
      rw [mergeCols_getD]
      exact List.mem_flatMap.2 ⟨c, seg_get T k1 (by omega) k3, k4⟩

theorem set_split {T : Trellis} {k : Nat} (h : k < T.length) (c : Col) : T.set k c = T.take k ++ c :: T.drop (k + 1) := by
  rw [List.set_eq_take_append_cons_drop, if_pos h]

theorem getD_set (col : Col) (d j : Nat) (r : List Obj) (h : d < col.length) : (col.set d r).getD j [] = if j = d then r else col.getD j [] := by
  simp only [List.getD_eq_getElem?_getD, List.getElem?_set]
  by_cases e : d = j
  · subst e
    simp [h]
  · rw [if_neg e, if_neg (fun h => e h.symm)]

theorem extend_ok {d k : Nat} {T : Trellis} (items : List Obj) (hk : k < T.length)
    (hlen : ∀ (n : Nat) (c : Col), T[n]? = some c → c.length = if n ≤ k then d + 1 else d) :
    ∃ T', extend T k d items = .ok T' ∧ T'.length = T.length ∧ (∀ (n : Nat) (c : Col), T'[n]? = some c → c.length = if n ≤ k then d + 1 else d) ∧
      (∀ j : Nat, j ≠ d → rowOf T' j = rowOf T j) ∧ rowOf T' d = rowOf T d ++ items ∧ Grows T T' ∧
      (∀ D : Nat, D < d → idxmap D 0 T' = idxmap D 0 T) ∧
      ∀ c, T[k]? = some c → ∃ c', T'[k]? = some c' ∧ (∀ x ∈ items, x ∈ c'.getD d []) ∧ ∀ j : Nat, j < d → c'.getD j [] = c.getD j [] := by
  have hc : T[k]? = some T[k] := List.getElem?_eq_getElem hk
  generalize hcol : T[k] = col at hc
  have hl : col.length = d + 1 := by rw [hlen k col hc, if_pos (Nat.le_refl _)]
  have hr : col[d]? = some (col.getD d []) := by
    rw [List.getD_eq_getElem?_getD, List.getElem?_eq_getElem (by omega)]
    rfl
  have hsplit : T = T.take k ++ col :: T.drop (k + 1) := by
    rw [← hcol, List.getElem_cons_drop, List.take_append_drop]
  have hget : ∀ n : Nat, (T.set k (col.set d (col.getD d [] ++ items)))[n]? = if k = n then some (col.set d (col.getD d [] ++ items)) else T[n]? := by
    intro n
    rw [List.getElem?_set]
    split
    · simp [hk]
    · rfl
  refine ⟨T.set k (col.set d (col.getD d [] ++ items)), ?_, by simp, ?_, ?_, ?_, ?_, ?_, ?_⟩
  · simp only [extend, hc, hr]
  · intro n c h
    rw [hget] at h
    split at h
    · cases h
      rename_i e
      rw [List.length_set, hl, if_pos (by omega)]
    · exact hlen n c h
  · intro j hj
    have e1 : rowOf T j = rowOf (T.take k ++ col :: T.drop (k + 1)) j := by rw [← hsplit]
    rw [set_split hk, e1, rowOf_append, rowOf_append]
    congr 1
    simp only [rowOf, List.flatMap_cons]
    rw [getD_set _ _ _ _ (by omega), if_neg hj]
  · have e1 : rowOf T d = rowOf (T.take k ++ col :: T.drop (k + 1)) d := by rw [← hsplit]
    have e2 : rowOf (T.drop (k + 1)) d = [] := by
      unfold rowOf
      rw [List.flatMap_eq_nil_iff]
      intro c h
      obtain ⟨n, hn⟩ := List.mem_iff_getElem?.1 h
      rw [List.getElem?_drop] at hn
      have := hlen _ _ hn
      rw [if_neg (by omega)] at this
      rw [List.getD_eq_getElem?_getD, List.getElem?_eq_none (by omega)]
      rfl
    have e3 : ∀ c : Col, rowOf (c :: T.drop (k + 1)) d = c.getD d [] := by
      intro c
      have : rowOf (c :: T.drop (k + 1)) d = c.getD d [] ++ rowOf (T.drop (k + 1)) d := by simp [rowOf]
      rw [this, e2, List.append_nil]
    rw [set_split hk, e1, rowOf_append, rowOf_append, e3, e3, getD_set _ _ _ _ (by omega), if_pos rfl, List.append_assoc]
  · intro c h
    obtain ⟨n, hn⟩ := List.mem_iff_getElem?.1 h
    by_cases e : k = n
    · subst e
      rw [hc] at hn
      cases hn
      refine ⟨_, List.mem_of_getElem? (i := k) (by rw [hget, if_pos rfl]), ?_⟩
      intro j x hx
      rw [getD_set _ _ _ _ (by omega)]
      split
      · rename_i e; subst e; exact List.mem_append_left _ hx
      · exact hx
    · exact ⟨c, List.mem_of_getElem? (i := n) (by rw [hget, if_neg e, hn]), fun _ _ hx => hx⟩
  · intro D hD
    apply idxmap_congr
    apply List.ext_getElem?
    intro n
    rw [List.getElem?_map, List.getElem?_map, hget]
    split
    · rename_i e
      subst e
      rw [hc]
      simp only [Option.map_some, Option.some.injEq]
      rw [List.getElem?_set, if_neg (by omega)]
    · rfl
  · intro c h
    rw [hc] at h
    cases h
    refine ⟨_, by rw [hget, if_pos rfl], ?_, ?_⟩
    · intro x hx
      rw [getD_set _ _ _ _ (by omega), if_pos rfl]
      simp [hx]
    · intro j hj
      rw [getD_set _ _ _ _ (by omega), if_neg (by omega)]

theorem place_ok {d : Nat} {R : Nat → List Obj} {lo : Nat} {s : St} {done items : List Obj} (hI : Inv d R lo s done)
    (hn : ((R (d - 1)).map fun x => x.data.id).Nodup) (hid : ∀ j : Nat, ∀ x ∈ rowOf s.t j, x.data.id.isSome = true)
    {i : Str} {is : List Str} {a b : Nat} (hlo : lo ≤ a) (hab : a ≤ b) {p q : Obj} (hp : (R (d - 1))[a]? = some p) (hpi : p.data.id = some i)
    (hq : (R (d - 1))[b]? = some q) (hqj : q.data.id = (i :: is).getLast?) :
    ∃ s', place d s i is items = .ok s' ∧ Inv d R a s' (done ++ items) ∧ Grows s.t s'.t ∧
      ∃ c ∈ s'.t, (∀ x ∈ items, x ∈ c.getD d []) ∧ ∀ m : Nat, a ≤ m → m ≤ b → ∃ p, (R (d - 1))[m]? = some p ∧ p ∈ c.getD (d - 1) [] := by
  have hd := hI.hd
  have hrow : rowOf s.t (d - 1) = R (d - 1) := hI.rows _ (by omega)
  obtain ⟨m1, m2, _, m4⟩ := idxmap_spec hI.map
  rw [hrow] at m1 m4
  have hk : ∀ (n : Nat) (x : Obj), (R (d - 1))[n]? = some x → ∃ k c, s.map[n]? = some (x.data.id, k) ∧ s.t[k]? = some c ∧ x ∈ c.getD (d - 1) [] := by
    intro n x hx
    have e : (s.map.map Prod.fst)[n]? = some x.data.id := by rw [m1, List.getElem?_map, hx]; rfl
    rw [List.getElem?_map] at e
    cases hm : s.map[n]? with
    | none => rw [hm] at e; cases e
    | some r =>
      rw [hm] at e
      obtain ⟨c, h1, h2⟩ := m4 n x r hx hm
      simp only [Option.map_some, Option.some.injEq] at e
      exact ⟨r.2, c, by rw [← e], by simpa using h1, h2⟩
  have hmono : ∀ (n n' : Nat) r r', n ≤ n' → s.map[n]? = some r → s.map[n']? = some r' → r.2 ≤ r'.2 := by
    intro n n' r r' hle h h'
    rcases Nat.eq_or_lt_of_le hle with e | hlt
    · subst e
      rw [h] at h'
      cases h'
      exact Nat.le_refl _
    · obtain ⟨b1, e1⟩ := List.getElem?_eq_some_iff.1 h
      obtain ⟨b2, e2⟩ := List.getElem?_eq_some_iff.1 h'
      have := List.pairwise_iff_getElem.1 m2 n n' b1 b2 hlt
      rw [e1, e2] at this
      exact this
  obtain ⟨ka, ca, ka1, ka2, ka3⟩ := hk a p hp
  obtain ⟨kb, cb, kb1, kb2, kb3⟩ := hk b q hq
  have hnm : (s.map.map Prod.fst).Nodup := by rw [m1]; exact hn
  have hla : look s.map i = .ok ka := look_ok hnm (by rw [ka1, hpi])
  have hlb : look s.map ((i :: is).getLast (by simp)) = .ok kb := by
    refine look_ok hnm (a := b) ?_
    rw [kb1, hqj, List.getLast?_eq_some_getLast (by simp)]
  have hle : ka ≤ kb := hmono a b _ _ hab ka1 kb1
  have hlta : ka < s.t.length := (List.getElem?_eq_some_iff.1 ka2).1
  have hltb : kb < s.t.length := (List.getElem?_eq_some_iff.1 kb2).1
  have hnext : s.next ≤ ka + 1 := by
    rcases hI.cursor with h | ⟨r, h⟩
    · omega
    · have := hmono lo a _ _ hlo h ka1
      simp only at this
      omega
  have hmax : max s.next (ka + 1) = ka + 1 := Nat.max_eq_right hnext
  -- the columns up to the first
  have hT1 := advance_pad s.next ka s.t
  have hlen1 : ∀ (n : Nat) (c : Col), (advance s.next ka s.t)[n]? = some c → c.length = if n ≤ ka then d + 1 else d := by
    intro n c h
    rw [hT1, pad_get] at h
    cases hc : s.t[n]? with
    | none => rw [hc] at h; cases h
    | some c0 =>
      rw [hc] at h
      have hl := hI.len n c0 hc
      simp only [Option.map_some, Option.some.injEq, decide_eq_true_eq] at h
      subst h
      split
      · rename_i h
        rw [List.length_append, hl, if_neg (by omega), if_pos h.2]
        rfl
      · rename_i h
        rw [hl]
        split <;> split <;> omega
  have hrow1 : ∀ j, rowOf (advance s.next ka s.t) j = rowOf s.t j := by intro j; rw [hT1, pad_row]
  have hget1 : ∀ (n : Nat) (c : Col), s.t[n]? = some c → ∃ c', (advance s.next ka s.t)[n]? = some c' ∧ ∀ j : Nat, c'.getD j [] = c.getD j [] := by
    intro n c h
    rw [hT1, pad_get, h]
    refine ⟨_, rfl, ?_⟩
    intro j
    split
    · exact getD_snoc_nil _ _
    · rfl
  have hP1 : ∀ m : Nat, a ≤ m → m ≤ b → ∃ p, (R (d - 1))[m]? = some p ∧
      ∃ (k : Nat) (c : Col), ka ≤ k ∧ k ≤ kb ∧ (advance s.next ka s.t)[k]? = some c ∧ p ∈ c.getD (d - 1) [] := by
    intro m h1 h2
    have hb : b < (R (d - 1)).length := (List.getElem?_eq_some_iff.1 hq).1
    have hm : (R (d - 1))[m]? = some (R (d - 1))[m] := List.getElem?_eq_getElem (by omega)
    obtain ⟨k, c, e1, e2, e3⟩ := hk m _ hm
    obtain ⟨c', f1, f2⟩ := hget1 k c e2
    exact ⟨_, hm, k, c', hmono a m _ _ h1 ka1 e1, hmono m b _ _ h2 e1 kb1, f1, by rw [f2]; exact e3⟩
  have hl1 : (advance s.next ka s.t).length = s.t.length := by rw [hT1, pad_length]
  obtain ⟨T2, hT2, hR⟩ := merge_ready (a := a) (b := b) (P := R (d - 1)) hd hle (by rw [hl1]; exact hltb) hlen1
    (by intro j x hx; rw [hrow1] at hx; exact hid j x hx) hP1
  obtain ⟨m, hm⟩ := idxmap_ok (D := d - 1) (T := T2) 0 (by
    intro c hc
    obtain ⟨n, hn⟩ := List.mem_iff_getElem?.1 hc
    rw [hR.len n c hn]
    split <;> omega)
  obtain ⟨T3, hT3, l3, len3, row3, rowd3, grow3, map3, hold3⟩ := extend_ok (d := d) items hR.lt hR.len
  have hg1 : Grows s.t (advance s.next ka s.t) := by rw [hT1]; exact pad_grows _ _
  obtain ⟨c2, hc2, hc2P⟩ := hR.holds
  obtain ⟨c3, hc3, hc3i, hc3r⟩ := hold3 c2 hc2
  have hrow2 : ∀ j : Nat, rowOf T2 j = rowOf s.t j := fun j => by rw [hR.rows, hrow1]
  refine ⟨⟨T3, [], ka + 1, m⟩, ?_, ?_, ?_, ?_⟩
  · simp only [place, hla, hlb, bind, Except.bind, fill, hI.delay, if_true, hT2, hm, hmax, Nat.add_sub_cancel, hT3]
  · refine ⟨hd, rfl, ?_, ?_, ?_, ?_, ?_, ?_⟩
    · show ka + 1 ≤ T3.length
      rw [l3]
      exact hR.lt
    · intro k c h
      rw [len3 k c h]
      show _ = if k < ka + 1 then d + 1 else d
      split <;> split <;> omega
    · intro j hj
      show rowOf T3 j = R j
      rw [row3 j (by omega), hrow2, hI.rows j hj]
    · show rowOf T3 d = done ++ items
      rw [rowd3, hrow2, hI.cur]
    · show idxmap (d - 1) 0 T3 = .ok m
      rw [map3 _ (by omega), hm]
    · right
      show ∃ r, m[a]? = some (r, ka + 1 - 1)
      have hrow2' : rowOf T2 (d - 1) = R (d - 1) := by rw [hrow2, hrow]
      obtain ⟨n1, _, _, n4⟩ := idxmap_spec hm
      rw [hrow2'] at n1 n4
      have e : (m.map Prod.fst)[a]? = some p.data.id := by rw [n1, List.getElem?_map, hp]; rfl
      rw [List.getElem?_map] at e
      cases hma : m[a]? with
      | none => rw [hma] at e; cases e
      | some r =>
        obtain ⟨c, h1, h2⟩ := n4 a p r hp hma
        obtain ⟨p', hp', hp2⟩ := hc2P a (Nat.le_refl _) hab
        rw [hp] at hp'
        cases hp'
        have : r.2 = ka := col_unique (D := d - 1) (by rw [hrow2']; exact hn) (by simpa using h1) hc2 h2 hp2
        exact ⟨r.1, by simp [← this]⟩
  · exact (hg1.trans hR.grows).trans grow3
  · refine ⟨c3, List.mem_of_getElem? hc3, hc3i, ?_⟩
    intro n h1 h2
    obtain ⟨p, e1, e2⟩ := hc2P n h1 h2
    exact ⟨p, e1, by rw [hc3r _ (by omega)]; exact e2⟩


/-! ### One tier -/

theorem run_ok {d : Nat} {R : Nat → List Obj} (hn : ((R (d - 1)).map fun x => x.data.id).Nodup)
    (hR : ∀ j : Nat, j < d → ∀ x ∈ R j, x.data.id.isSome = true) : ∀ {gs : List Agendum} {lo : Nat} {s : St} {done : List Obj},
    Inv d R lo s done → (∀ x ∈ done, x.data.id.isSome = true) → (∀ x ∈ gs.flatMap Prod.snd, x.data.id.isSome = true) → Groups (R (d - 1)) lo gs →
    ∃ s' lo', run d s gs = .ok s' ∧ Inv d R lo' s' (done ++ gs.flatMap Prod.snd) ∧ Grows s.t s'.t ∧
      ∀ g ∈ gs, ∀ x ∈ g.2, ∃ c ∈ s'.t, ∃ a b, Spans (R (d - 1)) x a b ∧ x ∈ c.getD d [] ∧
        ∀ m : Nat, a ≤ m → m ≤ b → ∃ p, (R (d - 1))[m]? = some p ∧ p ∈ c.getD (d - 1) [] := by
  intro gs
  induction gs with
  | nil =>
    intro lo s done hI _ _ _
    exact ⟨s, lo, rfl, by simpa using hI, Grows.refl _, by simp⟩
  | cons g gs ih =>
    intro lo s done hI hdone hgs hG
    cases hG with
    | cons k1 k2 k3 k4 =>
      rename_i a b l xs
      obtain ⟨y, ys, hxs⟩ := List.exists_cons_of_ne_nil k2
      obtain ⟨hsp, hre⟩ := k1 y (by simp [hxs])
      obtain ⟨l', i, j, p, q, r1, e1, e2, e3, e4, e5, e6, e7⟩ := hsp
      have := refers_unique r1 hre
      subst this
      cases l' with
      | nil => cases e1
      | cons i' is =>
        cases e1
        have hid : ∀ j : Nat, ∀ x ∈ rowOf s.t j, x.data.id.isSome = true := by
          intro j x hx
          by_cases hj : j < d
          · rw [hI.rows j hj] at hx
            exact hR j hj x hx
          · by_cases hj2 : j = d
            · subst hj2
              rw [hI.cur] at hx
              exact hdone x hx
            · exfalso
              obtain ⟨c, hc, hx⟩ := List.mem_flatMap.1 hx
              obtain ⟨n, hn⟩ := List.mem_iff_getElem?.1 hc
              have hl := hI.len n c hn
              have : c.length ≤ j := by
                rw [hl]
                split <;> omega
              rw [List.getD_eq_getElem?_getD, List.getElem?_eq_none this] at hx
              simp at hx
        obtain ⟨s1, h1, h2, h3, c1, hc1, h4, h5⟩ := place_ok (items := xs) hI hn hid k3 e7 e3 e4 e5 (by rw [e6, e2])
        have hsh : shown s.t = .ok () := by
          refine shown_ok ?_ hid
          intro c hc e
          obtain ⟨n, hn⟩ := List.mem_iff_getElem?.1 hc
          have hl := hI.len n c hn
          have := hI.hd
          rw [e] at hl
          simp only [List.length_nil] at hl
          split at hl <;> omega
        obtain ⟨s2, lo2, g1, g2, g3, g4⟩ := ih h2 (by
          intro x hx
          rcases List.mem_append.1 hx with hx | hx
          · exact hdone x hx
          · exact hgs x (by simp [hx])) (fun x hx => hgs x (by rw [List.flatMap_cons]; exact List.mem_append_right _ hx)) k4
        refine ⟨s2, lo2, ?_, ?_, h3.trans g3, ?_⟩
        · simp only [run, step, hsh, h1, bind, Except.bind]
          exact g1
        · rw [List.flatMap_cons, ← List.append_assoc]
          exact g2
        · intro g hg x hx
          rcases List.mem_cons.1 hg with rfl | hg
          · obtain ⟨c2, hc2, hsub⟩ := g3 c1 hc1
            refine ⟨c2, hc2, a, b, (k1 x hx).1, hsub _ _ (h4 x hx), ?_⟩
            intro m m1 m2
            obtain ⟨p, p1, p2⟩ := h5 m m1 m2
            exact ⟨p, p1, hsub _ _ p2⟩
          · exact g4 g hg x hx

/-- an item of a tier and the items it refers to are in one column -/
def Aligned (T : Trellis) (d : Nat) (P xs : List Obj) : Prop :=
  ∀ x ∈ xs, ∀ a b, Spans P x a b → ∃ c ∈ T, x ∈ c.getD d [] ∧
    ∀ m : Nat, a ≤ m → m ≤ b → ∃ p, P[m]? = some p ∧ p ∈ c.getD (d - 1) []

theorem Aligned.grows {T T' : Trellis} {d : Nat} {P xs : List Obj} (h : Aligned T d P xs) (g : Grows T T') : Aligned T' d P xs := by
  intro x hx a b hs
  obtain ⟨c, hc, h1, h2⟩ := h x hx a b hs
  obtain ⟨c', hc', hsub⟩ := g c hc
  refine ⟨c', hc', hsub _ _ h1, ?_⟩
  intro m m1 m2
  obtain ⟨p, p1, p2⟩ := h2 m m1 m2
  exact ⟨p, p1, hsub _ _ p2⟩

theorem alignTier_ok {T : Trellis} {tier : Obj} {d : Nat} (hT : T ≠ []) (hd : 0 < d) (hlen : ∀ c ∈ T, c.length = d)
    (hid : ∀ j : Nat, j < d → ∀ x ∈ rowOf T j, x.data.id.isSome = true) (htid : ∀ x ∈ tier.kids, x.data.id.isSome = true)
    (hn : ((rowOf T (d - 1)).map fun x => x.data.id).Nodup) (ho : InOrder (rowOf T (d - 1)) 0 tier.kids) :
    ∃ T', alignTier T tier = .ok T' ∧ T' ≠ [] ∧ (∀ c ∈ T', c.length = d + 1) ∧ (∀ j, j < d → rowOf T' j = rowOf T j) ∧
      rowOf T' d = tier.kids ∧ Grows T T' ∧ Aligned T' d (rowOf T (d - 1)) tier.kids := by
  obtain ⟨c, cs, rfl⟩ := List.exists_cons_of_ne_nil hT
  have hc : c.length = d := hlen c (by simp)
  obtain ⟨ps, hps, hG, hf⟩ := agenda_groups hn tier.kids 0 ho
  obtain ⟨m, hm⟩ := idxmap_ok (D := d - 1) (T := c :: cs) 0 (fun c hc => by rw [hlen c hc]; omega)
  have hI : Inv d (rowOf (c :: cs)) 0 ⟨c :: cs, [], 0, m⟩ [] := by
    refine ⟨hd, rfl, Nat.zero_le _, ?_, fun _ _ => rfl, ?_, hm, .inl rfl⟩
    · intro k c' h
      rw [if_neg (by simp)]
      exact hlen c' (List.mem_of_getElem? h)
    · show rowOf (c :: cs) d = []
      unfold rowOf
      rw [List.flatMap_eq_nil_iff]
      intro c' h
      rw [List.getD_eq_getElem?_getD, List.getElem?_eq_none (by rw [hlen c' h]; exact Nat.le_refl _)]
      rfl
  obtain ⟨s, lo, h1, h2, h3, h4⟩ := run_ok hn hid hI (by simp) (by rw [hf]; exact htid) hG
  rw [hf, List.nil_append] at h2
  have hag : agenda tier = .ok (group ps) := by
    unfold agenda
    rw [hps]
    rfl
  have hfin : finish d s = pad (fun k => decide (s.next ≤ k)) s.t := by
    unfold finish pad
    rw [h2.delay]
    simp [addDelayed]
  refine ⟨finish d s, ?_, ?_, ?_, ?_, ?_, ?_, ?_⟩
  · simp only [alignTier, hag, hc, hm, h1, bind, Except.bind]
  · rw [hfin]
    intro e
    have hl := pad_length (fun k => decide (s.next ≤ k)) s.t
    rw [e] at hl
    obtain ⟨c', hc', _⟩ := h3 c (by simp)
    have := List.length_pos_of_mem hc'
    simp at hl
    omega
  · intro c' hc'
    rw [hfin] at hc'
    obtain ⟨n, hn⟩ := List.mem_iff_getElem?.1 hc'
    rw [pad_get] at hn
    cases hg : s.t[n]? with
    | none => rw [hg] at hn; cases hn
    | some c0 =>
      rw [hg] at hn
      have hl := h2.len n c0 hg
      simp only [Option.map_some, Option.some.injEq, decide_eq_true_eq] at hn
      subst hn
      split
      · rw [List.length_append, hl, if_neg (by omega)]
        rfl
      · rw [hl, if_pos (by omega)]
  · intro j hj
    rw [hfin, pad_row, h2.rows j hj]
  · rw [hfin, pad_row, h2.cur]
  · rw [hfin]
    exact h3.trans (pad_grows _ _)
  · have : Aligned s.t d (rowOf (c :: cs) (d - 1)) tier.kids := by
      intro x hx a b hs
      rw [← hf] at hx
      obtain ⟨g, hg, hx⟩ := List.mem_flatMap.1 hx
      obtain ⟨c', hc', a', b', k1, k2, k3⟩ := h4 g hg x hx
      obtain ⟨l, hl⟩ : ∃ l, Refers x l := by
        obtain ⟨l, _, _, _, _, hl, _⟩ := hs
        exact ⟨l, hl⟩
      obtain ⟨e1, e2⟩ := spans_unique hn hs k1 hl hl
      subst e1 e2
      exact ⟨c', hc', k2, k3⟩
    rw [hfin]
    exact this.grows (pad_grows _ _)

/-! ### The whole grid -/

theorem alignTiers_ok : ∀ {ts : List Obj} {T : Trellis} {d : Nat} {t : Obj}, T ≠ [] → 0 < d → (∀ c ∈ T, c.length = d) →
    (∀ j : Nat, j < d → ∀ x ∈ rowOf T j, x.data.id.isSome = true) → rowOf T (d - 1) = t.kids → Chain (t :: ts) →
    (∀ u ∈ t :: ts, (u.kids.map fun x => x.data.id).Nodup) → (∀ u ∈ ts, ∀ x ∈ u.kids, x.data.id.isSome = true) →
    ∃ T', alignTiers T ts = .ok T' ∧ T' ≠ [] ∧ (∀ c ∈ T', c.length = d + ts.length) ∧ (∀ j, j < d → rowOf T' j = rowOf T j) ∧
      (∀ (j : Nat) (u : Obj), ts[j]? = some u → rowOf T' (d + j) = u.kids) ∧ Grows T T' ∧
      (∀ (j : Nat) (u v : Obj), (t :: ts)[j]? = some u → ts[j]? = some v → Aligned T' (d + j) u.kids v.kids) := by
  intro ts
  induction ts with
  | nil =>
    intro T d t hT hd hlen hid hrow hC hn hk
    exact ⟨T, rfl, hT, by simpa using hlen, fun _ _ => rfl, by simp, Grows.refl _, by simp⟩
  | cons u ts ih =>
    intro T d t hT hd hlen hid hrow hC hn hk
    cases hC with
    | cons ho hC =>
      obtain ⟨T1, a1, a2, a3, a4, a5, a6, a7⟩ := alignTier_ok (tier := u) hT hd hlen hid (hk u (by simp))
        (by rw [hrow]; exact hn t (by simp)) (by rw [hrow]; exact ho)
      obtain ⟨T2, b1, b2, b3, b4, b5, b6, b7⟩ := ih (t := u) (d := d + 1) a2 (by omega) a3 (by
        intro j hj x hx
        by_cases e : j = d
        · subst e
          rw [a5] at hx
          exact hk u (by simp) x hx
        · rw [a4 j (by omega)] at hx
          exact hid j (by omega) x hx) (by simpa using a5) hC (fun v hv => hn v (List.mem_cons_of_mem _ hv)) (fun v hv => hk v (List.mem_cons_of_mem _ hv))
      refine ⟨T2, ?_, b2, ?_, ?_, ?_, a6.trans b6, ?_⟩
      · simp only [alignTiers, a1, bind, Except.bind]
        exact b1
      · intro c hc
        rw [b3 c hc, List.length_cons]
        omega
      · intro j hj
        rw [b4 j (by omega), a4 j hj]
      · intro j v hv
        cases j with
        | zero =>
          cases hv
          rw [Nat.add_zero, b4 d (by omega), a5]
        | succ j =>
          rw [List.getElem?_cons_succ] at hv
          rw [show d + (j + 1) = d + 1 + j by omega]
          exact b5 j v hv
      · intro j v w hv hw
        cases j with
        | zero =>
          cases hv
          cases hw
          rw [hrow] at a7
          exact a7.grows b6
        | succ j =>
          rw [List.getElem?_cons_succ] at hv hw
          rw [show d + (j + 1) = d + 1 + j by omega]
          exact b7 j v w hv hw

/-- what is needed of the tiers: the first is not empty, all items have IDs, different in each tier, and each
tier refers to the one before it, in order -/
structure Fit (ts : List Obj) : Prop where
  chain : Chain ts
  first : ∀ t, ts[0]? = some t → t.kids ≠ []
  named : ∀ t ∈ ts, ∀ x ∈ t.kids, x.data.id.isSome = true
  distinct : ∀ t ∈ ts, (t.kids.map fun x => x.data.id).Nodup

theorem grid {ts : List Obj} (h : Fit ts) : ∃ T, groupAlignments ts = .ok T ∧ (∀ c ∈ T, c.length = ts.length) ∧
    (∀ (j : Nat) (t : Obj), ts[j]? = some t → rowOf T j = t.kids) ∧
    ∀ (j : Nat) (t u : Obj), ts[j]? = some t → ts[j + 1]? = some u → Aligned T (j + 1) t.kids u.kids := by
  cases ts with
  | nil => exact nomatch h.chain
  | cons t ts =>
    have hrow : rowOf (t.kids.map fun i => [[i]]) 0 = t.kids := by
      unfold rowOf
      rw [List.flatMap_map]
      simp
    obtain ⟨T, h1, h2, h3, h4, h5, _, h7⟩ := alignTiers_ok (ts := ts) (T := t.kids.map fun i => [[i]]) (d := 1) (t := t)
      (by have := h.first t rfl; simpa using this) (by omega) (by
        intro c hc
        obtain ⟨x, _, rfl⟩ := List.mem_map.1 hc
        rfl) (by
        intro j hj x hx
        cases Nat.lt_one_iff.1 hj
        rw [hrow] at hx
        exact h.named t (by simp) x hx) hrow h.chain h.distinct (fun u hu => h.named u (List.mem_cons_of_mem _ hu))
    refine ⟨T, h1, ?_, ?_, ?_⟩
    · intro c hc
      rw [h3 c hc, List.length_cons]
      omega
    · intro j u hu
      cases j with
      | zero =>
        cases hu
        rw [h4 0 (by omega), hrow]
      | succ j =>
        rw [List.getElem?_cons_succ] at hu
        rw [show j + 1 = 1 + j by omega]
        exact h5 j u hu
    · intro j u v hu hv
      rw [List.getElem?_cons_succ] at hv
      rw [show j + 1 = 1 + j by omega]
      exact h7 j u v hu hv

/-- **C60** (partial: for tiers that refer to the one before in order): the grid has one row for each tier and each
row shows all items of its tier, in order, each once.  What is missing: items without alignment -/
theorem C60_partial {ts : List Obj} (h : Fit ts) : ∃ T, groupAlignments ts = .ok T ∧ (∀ c ∈ T, c.length = ts.length) ∧
    ∀ (j : Nat) (t : Obj), ts[j]? = some t → rowOf T j = t.kids := by
  obtain ⟨T, h1, h2, h3, _⟩ := grid h
  exact ⟨T, h1, h2, h3⟩

/-- **C78** (partial: as `C60_partial`): an item is in the same column as all items from the first to the last it refers to -/
theorem C78_partial {ts : List Obj} (h : Fit ts) {T : Trellis} (hT : groupAlignments ts = .ok T) {j : Nat} {t u : Obj}
    (ht : ts[j]? = some t) (hu : ts[j + 1]? = some u) {x : Obj} (hx : x ∈ u.kids) {a b : Nat} (hs : Spans t.kids x a b) :
    ∃ c ∈ T, x ∈ c.getD (j + 1) [] ∧ ∀ m : Nat, a ≤ m → m ≤ b → ∃ p, t.kids[m]? = some p ∧ p ∈ c.getD j [] := by
  obtain ⟨T', h1, _, _, h4⟩ := grid h
  rw [hT] at h1
  cases h1
  exact h4 j t u ht hu x hx a b hs

end

end Xigt.Ltx
