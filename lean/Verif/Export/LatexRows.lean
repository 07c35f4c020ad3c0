import Verif.Export.LatexGrid
/-
What holds of every grid that is made, whatever the alignments are: the first column has a row for each tier (or more),
and as long as it has one for each, the j-th row holds items of the j-th tier only.
-/
set_option linter.unusedSectionVars false

namespace Xigt.Ltx

section
variable [Uni]

/-- there is a first column, of at least `n` rows -/
def HeadGe (n : Nat) (T : Trellis) : Prop := ∃ c, T[0]? = some c ∧ n ≤ c.length

/-- the rows hold no other items -/
def RowsIn (R : Nat → List Obj) (T : Trellis) : Prop := ∀ c ∈ T, ∀ j, ∀ x ∈ c.getD j [], x ∈ R j

theorem HeadGe.mono {n m : Nat} {T : Trellis} (h : HeadGe n T) (hm : m ≤ n) : HeadGe m T := by
  obtain ⟨c, h1, h2⟩ := h
  exact ⟨c, h1, by omega⟩

theorem HeadGe.pad {n : Nat} {T : Trellis} (h : HeadGe n T) (f : Nat → Bool) : HeadGe n (pad f T) := by
  obtain ⟨c, h1, h2⟩ := h
  refine ⟨if f 0 then c ++ [[]] else c, ?_, ?_⟩
  · rw [pad_get, h1]; rfl
  · split
    · simp; omega
    · exact h2

theorem HeadGe.pad_true {n : Nat} {T : Trellis} (h : HeadGe n T) {f : Nat → Bool} (hf : f 0 = true) : HeadGe (n + 1) (Ltx.pad f T) := by
  obtain ⟨c, h1, h2⟩ := h
  refine ⟨c ++ [[]], ?_, by simp; omega⟩
  rw [pad_get, h1]
  simp [hf]

theorem RowsIn.pad {R : Nat → List Obj} {T : Trellis} (h : RowsIn R T) (f : Nat → Bool) : RowsIn R (pad f T) := by
  intro c hc j x hx
  obtain ⟨⟨d, k⟩, hd, rfl⟩ := List.mem_map.1 hc
  have hd' : d ∈ T := by
    have := List.mem_zipIdx hd
    rw [this.2.2]
    exact List.getElem_mem _
  simp only at hx
  split at hx
  · rw [getD_snoc_nil] at hx
    exact h d hd' j x hx
  · exact h d hd' j x hx

theorem addDelayed_head {n d : Nat} (pos : Nat) (hn : n ≤ d + 1) : ∀ (as : List Agendum) {T : Trellis}, HeadGe n T → HeadGe n (addDelayed pos d as T) := by
  intro as
  induction as with
  | nil => intro T h; exact h
  | cons a as ih =>
    intro T h
    refine ih ?_
    obtain ⟨c, h1, h2⟩ := h
    cases pos with
    | zero => exact ⟨List.replicate d [] ++ [a.2], by simp, by simp; omega⟩
    | succ k =>
      cases T with
      | nil => cases h1
      | cons b T =>
        cases h1
        exact ⟨c, by simp, h2⟩

theorem getD_delayed {d j : Nat} {items : List Obj} {x : Obj} (h : x ∈ (List.replicate d [] ++ [items]).getD j []) : j = d ∧ x ∈ items := by
  rw [List.getD_eq_getElem?_getD] at h
  by_cases hj : j < d
  · rw [List.getElem?_append_left (by simpa using hj), List.getElem?_replicate_of_lt hj] at h
    simp at h
  · rw [List.getElem?_append_right (by simpa using hj), List.length_replicate] at h
    by_cases e : j = d
    · subst e
      simp at h
      exact ⟨rfl, h⟩
    · rw [List.getElem?_eq_none (by simp; omega)] at h
      simp at h

theorem addDelayed_rows {R : Nat → List Obj} {d : Nat} (pos : Nat) : ∀ (as : List Agendum) {T : Trellis}, RowsIn R T →
    (∀ a ∈ as, ∀ x ∈ a.2, x ∈ R d) → RowsIn R (addDelayed pos d as T) := by
  intro as
  induction as with
  | nil => intro T h _; exact h
  | cons a as ih =>
    intro T h ha
    refine ih ?_ (fun b hb => ha b (List.mem_cons_of_mem _ hb))
    intro c hc j x hx
    simp only [List.mem_append, List.mem_singleton] at hc
    rcases hc with (hc | rfl) | hc
    · exact h c (List.mem_of_mem_take hc) j x hx
    · obtain ⟨rfl, hx'⟩ := getD_delayed hx
      exact ha a (by simp) x hx'
    · exact h c (List.mem_of_mem_drop hc) j x hx

theorem merge_head {n s e : Nat} {T : Trellis} (h : HeadGe n T) : HeadGe n (mergeColumns T s (e + 1)) := by
  obtain ⟨c, h1, h2⟩ := h
  cases T with
  | nil => cases h1
  | cons b T =>
    cases h1
    cases s with
    | succ s => exact ⟨c, by simp [mergeColumns], h2⟩
    | zero =>
      refine ⟨mergeCols (((c :: T).drop 0).take (e + 1 - 0)), by simp [mergeColumns], ?_⟩
      simp only [mergeCols, List.length_map, List.length_range]
      exact Nat.le_trans h2 (foldr_max_le (by simp))

theorem merge_rows {R : Nat → List Obj} {s e : Nat} {T : Trellis} (h : RowsIn R T) : RowsIn R (mergeColumns T s e) := by
  intro c hc j x hx
  simp only [mergeColumns, List.mem_append, List.mem_singleton] at hc
  rcases hc with (hc | rfl) | hc
  · exact h c (List.mem_of_mem_take hc) j x hx
  · rw [mergeCols_getD] at hx
    obtain ⟨d, hd, hx⟩ := List.mem_flatMap.1 hx
    exact h d (List.mem_of_mem_drop (List.mem_of_mem_take hd)) j x hx
  · exact h c (List.mem_of_mem_drop hc) j x hx

theorem extend_inv {T T' : Trellis} {idx d : Nat} {items : List Obj} (h : extend T idx d items = .ok T') :
    ∃ col row, T[idx]? = some col ∧ col[d]? = some row ∧ T' = T.set idx (col.set d (row ++ items)) := by
  unfold extend at h
  cases hc : T[idx]? with
  | none => rw [hc] at h; cases h
  | some col =>
    rw [hc] at h
    simp only at h
    cases hr : col[d]? with
    | none => rw [hr] at h; cases h
    | some row =>
      rw [hr] at h
      cases h
      exact ⟨col, row, rfl, hr, rfl⟩

theorem extend_head {n idx d : Nat} {items : List Obj} {T T' : Trellis} (h : HeadGe n T) (he : extend T idx d items = .ok T') : HeadGe n T' := by
  obtain ⟨col, row, h1, h2, rfl⟩ := extend_inv he
  obtain ⟨c, h3, h4⟩ := h
  cases idx with
  | succ k => exact ⟨c, by rw [List.getElem?_set_ne (by omega)]; exact h3, h4⟩
  | zero =>
    rw [h1] at h3
    cases h3
    refine ⟨_, List.getElem?_set_self (List.getElem?_eq_some_iff.1 h1).1, by simpa using h4⟩

theorem extend_rows {R : Nat → List Obj} {idx d : Nat} {items : List Obj} {T T' : Trellis} (h : RowsIn R T) (hi : ∀ x ∈ items, x ∈ R d)
    (he : extend T idx d items = .ok T') : RowsIn R T' := by
  obtain ⟨col, row, h1, h2, rfl⟩ := extend_inv he
  intro c hc j x hx
  rcases List.mem_or_eq_of_mem_set hc with hc | rfl
  · exact h c hc j x hx
  · rw [getD_set _ _ _ _ (List.getElem?_eq_some_iff.1 h2).1] at hx
    have hcol := List.mem_of_getElem? h1
    split at hx
    · rename_i e
      subst e
      rcases List.mem_append.1 hx with hx | hx
      · exact h col hcol j x (by rw [List.getD_eq_getElem?_getD, h2]; exact hx)
      · exact hi x hx
    · exact h col hcol j x hx

/-- the invariant of the loop -/
structure Any (R : Nat → List Obj) (d : Nat) (s : St) : Prop where
  head : HeadGe (if s.next = 0 then d else d + 1) s.t
  rows : RowsIn R s.t
  delay : ∀ a ∈ s.delay, ∀ x ∈ a.2, x ∈ R d

theorem place_any {R : Nat → List Obj} {d : Nat} {s s' : St} {i : Str} {is : List Str} {items : List Obj} (h : Any R d s)
    (hi : ∀ x ∈ items, x ∈ R d) (hp : place d s i is items = .ok s') : Any R d s' := by
  unfold place at hp
  simp only [bind, Except.bind] at hp
  split at hp
  · cases hp
  rename_i start _
  split at hp
  · cases hp
  rename_i stop _
  split at hp
  · cases hp
  rename_i r hr
  split at hp
  · cases hp
  rename_i t ht
  split at hp
  · cases hp
  split at hp
  · cases hp
  rename_i t' ht'
  cases hp
  have h1 : HeadGe (d + 1) (advance s.next start s.t) := by
    rw [advance_pad]
    have := h.head
    split at this
    · rename_i e
      exact this.pad_true (by simp [e])
    · exact this.pad _
  have h1' : RowsIn R (advance s.next start s.t) := by
    rw [advance_pad]; exact h.rows.pad _
  have h2 : HeadGe (d + 1) r.1 ∧ RowsIn R r.1 ∧ 0 < r.2.1 := by
    unfold fill at hr
    split at hr
    · cases hr
      exact ⟨h1, h1', by simp; omega⟩
    · simp only [bind, Except.bind] at hr
      split at hr
      · cases hr
      · cases hr
        exact ⟨addDelayed_head _ (Nat.le_refl _) _ h1, addDelayed_rows _ _ h1' h.delay, by simp; omega⟩
  have h3 : HeadGe (d + 1) t ∧ RowsIn R t := by
    unfold merge at ht
    split at ht
    · cases ht
      exact ⟨h2.1, h2.2.1⟩
    · simp only [bind, Except.bind] at ht
      split at ht
      · cases ht
      · split at ht
        · cases ht
        · cases ht
          exact ⟨merge_head h2.1, merge_rows h2.2.1⟩
  exact ⟨by simp only [if_neg (Nat.pos_iff_ne_zero.1 h2.2.2)]; exact extend_head h3.1 ht', extend_rows h3.2 hi ht', by simp⟩

theorem run_any {R : Nat → List Obj} {d : Nat} : ∀ {as : List Agendum} {s s' : St}, Any R d s → (∀ a ∈ as, ∀ x ∈ a.2, x ∈ R d) →
    run d s as = .ok s' → Any R d s' := by
  intro as
  induction as with
  | nil => intro s s' h _ hr; cases hr; exact h
  | cons a as ih =>
    intro s s' h ha hr
    simp only [run, bind, Except.bind] at hr
    split at hr
    · cases hr
    rename_i s1 h1
    refine ih ?_ (fun b hb => ha b (List.mem_cons_of_mem _ hb)) hr
    simp only [step, bind, Except.bind] at h1
    split at h1
    · cases h1
    split at h1
    · cases h1
      refine ⟨h.head, h.rows, ?_⟩
      intro b hb
      rcases List.mem_append.1 hb with hb | hb
      · exact h.delay b hb
      · rw [List.mem_singleton.1 hb]; exact ha a (by simp)
    · exact place_any h (ha a (by simp)) h1

theorem group_mem : ∀ (ps : List (List Str × Obj)), ∀ a ∈ group ps, ∀ x ∈ a.2, ∃ i, (i, x) ∈ ps := by
  intro ps
  induction ps with
  | nil => intro a ha; cases ha
  | cons p ps ih =>
    obtain ⟨i, y⟩ := p
    intro a ha x hx
    have old : ∀ a ∈ group ps, ∀ x ∈ a.2, ∃ j, (j, x) ∈ (i, y) :: ps := by
      intro a ha x hx
      obtain ⟨j, hj⟩ := ih a ha x hx
      exact ⟨j, List.mem_cons_of_mem _ hj⟩
    simp only [group] at ha
    split at ha
    · rename_i j ys gs hg
      split at ha
      · rcases List.mem_cons.1 ha with rfl | ha
        · rcases List.mem_cons.1 hx with rfl | hx
          · exact ⟨i, by simp⟩
          · exact old (j, ys) (by rw [hg]; simp) x hx
        · exact old a (by rw [hg]; exact List.mem_cons_of_mem _ ha) x hx
      · rcases List.mem_cons.1 ha with rfl | ha
        · rw [List.mem_singleton.1 hx]; exact ⟨i, by simp⟩
        · exact old a (by rw [hg]; exact ha) x hx
    · rw [List.mem_singleton.1 ha] at hx
      rw [List.mem_singleton.1 hx]
      exact ⟨i, by simp⟩

theorem pairs_mem : ∀ {xs : List Obj} {ps : List (List Str × Obj)}, pairs xs = .ok ps → ∀ p ∈ ps, p.2 ∈ xs := by
  intro xs
  induction xs with
  | nil => intro ps h; cases h; simp
  | cons x xs ih =>
    intro ps h
    simp only [pairs, bind, Except.bind] at h
    split at h
    · cases h
    split at h
    · cases h
    rename_i qs hq
    cases h
    intro p hp
    rcases List.mem_cons.1 hp with rfl | hp
    · simp
    · exact List.mem_cons_of_mem _ (ih hq p hp)

theorem agenda_mem {t : Obj} {as : List Agendum} (h : agenda t = .ok as) : ∀ a ∈ as, ∀ x ∈ a.2, x ∈ t.kids := by
  unfold agenda at h
  cases hp : pairs t.kids with
  | error e => rw [hp] at h; cases h
  | ok ps =>
    rw [hp] at h
    cases h
    intro a ha x hx
    obtain ⟨i, hi⟩ := group_mem ps a ha x hx
    exact pairs_mem hp _ hi

/-- one tier: one row more (or several) -/
theorem alignTier_any {T T' : Trellis} {t : Obj} (h : alignTier T t = .ok T') : ∃ c, T[0]? = some c ∧ HeadGe (c.length + 1) T' ∧
    ∀ R, RowsIn R T → (∀ x ∈ t.kids, x ∈ R c.length) → RowsIn R T' := by
  cases T with
  | nil => cases h
  | cons c T =>
    simp only [alignTier, bind, Except.bind] at h
    split at h
    · cases h
    rename_i as has
    split at h
    · cases h
    rename_i m _
    split at h
    · cases h
    rename_i s hs
    cases h
    have key : ∀ R, RowsIn R (c :: T) → (∀ x ∈ t.kids, x ∈ R c.length) → Any R c.length s := by
      intro R hR ht
      exact run_any (s := ⟨c :: T, [], 0, m⟩) ⟨⟨c, rfl, by simp⟩, hR, by simp⟩ (fun a ha x hx => ht x (agenda_mem has a ha x hx)) hs
    refine ⟨c, rfl, ?_, ?_⟩
    · have hall : ∀ (d : Col), ∀ j, ∀ x ∈ d.getD j [], x ∈ (c :: T).flatten.flatten ++ t.kids ∨ d ∉ c :: T := by
        intro d j x hx
        by_cases hd : d ∈ c :: T
        · left
          refine List.mem_append_left _ (List.mem_flatten.2 ⟨d.getD j [], List.mem_flatten.2 ⟨d, hd, ?_⟩, hx⟩)
          rw [List.getD_eq_getElem?_getD] at hx ⊢
          cases hj : d[j]? with
          | none => rw [hj] at hx; simp at hx
          | some r => exact List.mem_of_getElem? hj
        · exact .inr hd
      have a := key (fun _ => (c :: T).flatten.flatten ++ t.kids) (fun d hd j x hx => by
        rcases hall d j x hx with h | h
        · exact h
        · exact absurd hd h) (fun x hx => List.mem_append_right _ hx)
      have h1 := a.head
      have h2 : HeadGe (c.length + 1) (pad (fun k => decide (s.next ≤ k)) (addDelayed s.t.length c.length s.delay s.t)) := by
        split at h1
        · rename_i e
          exact (addDelayed_head _ (by omega) _ h1).pad_true (by simp [e])
        · exact (addDelayed_head _ (by omega) _ h1).pad _
      simpa [finish, pad] using h2
    · intro R hR ht
      have a := key R hR ht
      have h2 : RowsIn R (pad (fun k => decide (s.next ≤ k)) (addDelayed s.t.length c.length s.delay s.t)) :=
        (addDelayed_rows _ _ a.rows a.delay).pad _
      simpa [finish, pad] using h2

theorem alignTiers_any : ∀ {ts : List Obj} {T T' : Trellis}, alignTiers T ts = .ok T' → T ≠ [] → ∃ c c', T[0]? = some c ∧ T'[0]? = some c' ∧
    c.length + ts.length ≤ c'.length ∧ (c'.length ≤ c.length + ts.length → ∀ R, RowsIn R T →
      (∀ (k : Nat) (t : Obj), ts[k]? = some t → ∀ x ∈ t.kids, x ∈ R (c.length + k)) → RowsIn R T') := by
  intro ts
  induction ts with
  | nil =>
    intro T T' h hT
    cases h
    obtain ⟨c, cs, rfl⟩ := List.exists_cons_of_ne_nil hT
    exact ⟨c, c, rfl, rfl, by simp, fun _ R hR _ => hR⟩
  | cons t ts ih =>
    intro T T' h hT
    simp only [alignTiers, bind, Except.bind] at h
    split at h
    · cases h
    rename_i U hU
    obtain ⟨c, hc, ⟨d, hd, hlen⟩, hrows⟩ := alignTier_any hU
    obtain ⟨d', e, hd', he, hle, hr⟩ := ih h (by rintro rfl; cases hd)
    rw [hd] at hd'
    cases hd'
    refine ⟨c, e, hc, he, by simp; omega, ?_⟩
    intro hb R hR ht
    simp only [List.length_cons] at hb
    have hcd : d.length = c.length + 1 := by omega
    refine hr (by omega) R (hrows R hR (fun x hx => ht 0 t rfl x hx)) ?_
    intro k u hu x hx
    have := ht (k + 1) u (by simpa using hu) x hx
    rw [hcd]
    rwa [show c.length + (k + 1) = c.length + 1 + k by omega] at this

/-- every grid: the first column has a row for each tier, or more; if it has no more, the rows hold the items of their tiers -/
theorem grid_any {ts : List Obj} {T : Trellis} {c : Col} {T' : Trellis} (h : groupAlignments ts = .ok T) (hT : T = c :: T') :
    ts.length ≤ c.length ∧ (c.length ≤ ts.length → ∀ (j : Nat) (t : Obj), ts[j]? = some t → ∀ d ∈ T, ∀ x ∈ d.getD j [], x ∈ t.kids) := by
  cases ts with
  | nil => cases h
  | cons t ts =>
    simp only [groupAlignments] at h
    by_cases hk : t.kids = []
    · rw [hk] at h
      cases ts with
      | nil => cases h; cases hT
      | cons u us => cases h
    · obtain ⟨a, b, ha, hb, h1, h2⟩ := alignTiers_any h (by simpa using hk)
      rw [hT] at hb
      cases hb
      have ha1 : a.length = 1 := by
        rw [List.getElem?_map] at ha
        cases hx : t.kids[0]? with
        | none => rw [hx] at ha; cases ha
        | some x => rw [hx] at ha; cases ha; rfl
      rw [ha1] at h1 h2
      refine ⟨by simp; omega, ?_⟩
      intro hle j u hu d hd x hx
      simp only [List.length_cons] at hle
      have := h2 (by omega) (fun k => match (t :: ts)[k]? with | some u => u.kids | none => []) (by
        intro d hd k y hy
        obtain ⟨z, hz, rfl⟩ := List.mem_map.1 hd
        cases k with
        | zero => simp at hy; rw [hy]; exact hz
        | succ k => simp at hy) (by
        intro k u hu y hy
        rw [show 1 + k = k + 1 by omega, List.getElem?_cons_succ, hu]
        exact hy) d hd j x hx
      simp only [hu] at this
      exact this

end

end Xigt.Ltx
