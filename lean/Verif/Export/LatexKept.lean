import Verif.Export.LatexDoc
import Verif.Export.LatexExamples
/-
C60 and C79 for every IGT that can be exported, whatever the alignments are.
-/
set_option linter.unusedSectionVars false

namespace Xigt.Ltx

section
variable [Uni]

/-! ### Counting the items of a row -/

/-- how many items of a row of the grid have a property -/
abbrev cnt (p : Obj → Bool) (T : Trellis) (j : Nat) : Nat := (rowOf T j).countP p

theorem cnt_pad (p : Obj → Bool) (f : Nat → Bool) (T : Trellis) (j : Nat) : cnt p (pad f T) j = cnt p T j := by
  rw [cnt, pad_row]

theorem getD_waiting (d j : Nat) (items : List Obj) : (List.replicate d [] ++ [items]).getD j [] = if j = d then items else [] := by
  rw [List.getD_eq_getElem?_getD, List.getElem?_append]
  simp only [List.length_replicate]
  split
  · rw [if_neg (by omega), List.getElem?_replicate]
    split <;> rfl
  · by_cases h : j = d
    · subst h; simp
    · rw [if_neg h, List.getElem?_eq_none (by simp; omega)]; rfl

theorem cnt_delayed (p : Obj → Bool) (pos d j : Nat) : ∀ (as : List Agendum) (T : Trellis), cnt p (addDelayed pos d as T) j =
    cnt p T j + if j = d then (as.flatMap Prod.snd).countP p else 0 := by
  intro as
  induction as with
  | nil => intro T; simp [addDelayed]
  | cons a as ih =>
    intro T
    rw [addDelayed, ih]
    have h1 : cnt p (T.take pos ++ [List.replicate d [] ++ [a.2]] ++ T.drop pos) j = cnt p T j + if j = d then a.2.countP p else 0 := by
      have hT : rowOf T j = rowOf (T.take pos) j ++ rowOf (T.drop pos) j := by rw [← rowOf_append, List.take_append_drop]
      have h2 : rowOf [List.replicate d [] ++ [a.2]] j = if j = d then a.2 else [] := by
        rw [← getD_waiting d j a.2]; simp [rowOf]
      simp only [cnt, rowOf_append, hT, h2, List.countP_append]
      by_cases hj : j = d
      · simp only [if_pos hj]; omega
      · simp only [if_neg hj, List.countP_nil]; omega
    rw [h1, List.flatMap_cons, List.countP_append]
    split <;> omega

theorem idxmap_rows {D : Nat} : ∀ {T : Trellis} {i : Nat} {m}, idxmap D i T = .ok m → ∀ c ∈ T, D < c.length := by
  intro T
  induction T with
  | nil => intro i m _ c hc; cases hc
  | cons c T ih =>
    intro i m h d hd
    simp only [idxmap] at h
    split at h
    · cases h
    rename_i row hrow
    simp only [bind, Except.bind] at h
    split at h
    · cases h
    rename_i m' hm'
    rcases List.mem_cons.1 hd with rfl | hd
    · exact (List.getElem?_eq_some_iff.1 hrow).1
    · exact ih hm' d hd

theorem cnt_merge {p : Obj → Bool} {start stop d : Nat} {T T' : Trellis} (h : merge start stop d T = .ok T') (j : Nat) :
    cnt p T' j = cnt p T j := by
  unfold merge at h
  split at h
  · cases h; rfl
  · rename_i hne
    simp only [bind, Except.bind] at h
    split at h
    · cases h
    rename_i m hm
    split at h
    · cases h
    cases h
    have hle : start ≤ stop + 1 := by
      rcases Nat.lt_or_ge (stop + 1) start with h | h
      · have hz : stop + 1 - start = 0 := by omega
        have := idxmap_rows hm [] (by
          rw [mergeColumns, hz, List.take_zero]
          simp [mergeCols])
        simp at this
      · exact h
    rw [cnt, merge_row T hle]

theorem cnt_set {p : Obj → Bool} {T : Trellis} {idx d : Nat} {col : Col} {row items : List Obj} (h1 : T[idx]? = some col) (h2 : col[d]? = some row)
    (j : Nat) : cnt p (T.set idx (col.set d (row ++ items))) j = cnt p T j + if j = d then items.countP p else 0 := by
  have hl := (List.getElem?_eq_some_iff.1 h1).1
  have hd := (List.getElem?_eq_some_iff.1 h2).1
  have hT : T = T.take idx ++ col :: T.drop (idx + 1) := by
    have := set_split hl col
    rw [← this, ← (List.getElem?_eq_some_iff.1 h1).2, List.set_getElem_self]
  have hr : rowOf T j = rowOf (T.take idx) j ++ (col.getD j [] ++ rowOf (T.drop (idx + 1)) j) := by
    conv => lhs; rw [hT]
    rw [rowOf_append]; simp [rowOf]
  have hc : col.getD d [] = row := by rw [List.getD_eq_getElem?_getD, h2]; rfl
  have hs : rowOf (T.take idx ++ col.set d (row ++ items) :: T.drop (idx + 1)) j =
      rowOf (T.take idx) j ++ ((col.set d (row ++ items)).getD j [] ++ rowOf (T.drop (idx + 1)) j) := by
    rw [rowOf_append]; simp [rowOf]
  rw [set_split hl, cnt, cnt, hs, hr, getD_set _ _ _ _ hd]
  by_cases hj : j = d
  · subst hj
    simp only [if_true, List.countP_append, hc]
    omega
  · simp only [if_neg hj, List.countP_append]; omega

theorem cnt_extend {p : Obj → Bool} {T T' : Trellis} {idx d : Nat} {items : List Obj} (h : extend T idx d items = .ok T') (j : Nat) :
    cnt p T' j = cnt p T j + if j = d then items.countP p else 0 := by
  obtain ⟨col, row, h1, h2, rfl⟩ := extend_inv h
  exact cnt_set h1 h2 j

/-- what is in a row or waits for it -/
def held (p : Obj → Bool) (d : Nat) (s : St) (j : Nat) : Nat := cnt p s.t j + if j = d then (s.delay.flatMap Prod.snd).countP p else 0

theorem place_kept {p : Obj → Bool} {d : Nat} {s s' : St} {i : Str} {is : List Str} {items : List Obj}
    (hp : place d s i is items = .ok s') (j : Nat) : held p d s' j = held p d s j + if j = d then items.countP p else 0 := by
  unfold place at hp
  simp only [bind, Except.bind] at hp
  split at hp
  · cases hp
  rename_i start _
  split at hp
  · cases hp
  rename_i stop _
  split at hp
  · cases hp
  rename_i r hr
  split at hp
  · cases hp
  rename_i t ht
  split at hp
  · cases hp
  split at hp
  · cases hp
  rename_i t' ht'
  cases hp
  have h1 : cnt p r.1 j = held p d s j := by
    unfold fill at hr
    rw [advance_pad] at hr
    split at hr
    · rename_i he
      cases hr
      simp [held, cnt_pad, he]
    · simp only [bind, Except.bind] at hr
      split at hr
      · cases hr
      · cases hr
        simp only [held, cnt_delayed, cnt_pad]
  simp only [held, List.flatMap_nil, List.countP_nil, ite_self, Nat.add_zero]
  rw [cnt_extend ht', cnt_merge ht, h1, held]

theorem run_kept {p : Obj → Bool} {d : Nat} : ∀ {as : List Agendum} {s s' : St}, run d s as = .ok s' → ∀ j,
    held p d s' j = held p d s j + if j = d then (as.flatMap Prod.snd).countP p else 0 := by
  intro as
  induction as with
  | nil => intro s s' h j; cases h; simp
  | cons a as ih =>
    intro s s' h j
    simp only [run, bind, Except.bind] at h
    split at h
    · cases h
    rename_i s1 h1
    rw [ih h j, List.flatMap_cons, List.countP_append]
    simp only [step, bind, Except.bind] at h1
    split at h1
    · cases h1
    split at h1
    · cases h1
      simp only [held, List.flatMap_append, List.flatMap_cons, List.flatMap_nil, List.append_nil, List.countP_append]
      split <;> omega
    · rw [place_kept h1 j]
      split <;> omega

theorem group_all : ∀ ps : List (List Str × Obj), (group ps).flatMap Prod.snd = ps.map Prod.snd := by
  intro ps
  induction ps with
  | nil => rfl
  | cons q ps ih =>
    obtain ⟨i, x⟩ := q
    unfold group
    split
    · rename_i j ys gs hg
      rw [hg, List.flatMap_cons] at ih
      split
      · simp only [List.flatMap_cons, List.map_cons, List.cons_append]
        rw [← ih]
      · simp only [List.flatMap_cons, List.map_cons, List.cons_append, List.nil_append]
        rw [← ih]
    · rename_i hg
      rw [hg] at ih
      simp only [List.flatMap_nil] at ih
      simp [← ih]

theorem pairs_all : ∀ {xs : List Obj} {ps}, pairs xs = .ok ps → ps.map Prod.snd = xs := by
  intro xs
  induction xs with
  | nil => intro ps h; cases h; rfl
  | cons x xs ih =>
    intro ps h
    simp only [pairs, bind, Except.bind] at h
    split at h
    · cases h
    split at h
    · cases h
    rename_i ps' h'
    cases h
    rw [List.map_cons, ih h']

theorem agenda_all {t : Obj} {as : List Agendum} (h : agenda t = .ok as) : as.flatMap Prod.snd = t.kids := by
  unfold agenda at h
  cases hp : pairs t.kids with
  | error e => rw [hp] at h; cases h
  | ok ps =>
    rw [hp] at h
    cases h
    rw [group_all, pairs_all hp]

/-- one tier: its items are added to the row after the last -/
theorem alignTier_kept {p : Obj → Bool} {T T' : Trellis} {t : Obj} (h : alignTier T t = .ok T') : ∃ c, T[0]? = some c ∧
    ∀ j, cnt p T' j = cnt p T j + if j = c.length then t.kids.countP p else 0 := by
  cases T with
  | nil => cases h
  | cons c T =>
    simp only [alignTier, bind, Except.bind] at h
    split at h
    · cases h
    rename_i as has
    split at h
    · cases h
    rename_i m _
    split at h
    · cases h
    rename_i s hs
    cases h
    refine ⟨c, rfl, fun j => ?_⟩
    have h1 := run_kept (p := p) hs j
    have h2 : cnt p (finish c.length s) j = held p c.length s j := by
      have : finish c.length s = pad (fun k => decide (s.next ≤ k)) (addDelayed s.t.length c.length s.delay s.t) := by
        simp [finish, pad]
      rw [this, cnt_pad, cnt_delayed, held]
    rw [h2, h1, agenda_all has]
    simp [held]

theorem alignTiers_kept {p : Obj → Bool} : ∀ {ts : List Obj} {T T' : Trellis} {c c' : Col}, alignTiers T ts = .ok T' → T[0]? = some c → T'[0]? = some c' →
    c'.length = c.length + ts.length → ∀ j, cnt p T' j = cnt p T j + if c.length ≤ j then
      ((ts[j - c.length]?.map fun t => t.kids.countP p).getD 0) else 0 := by
  intro ts
  induction ts with
  | nil =>
    intro T T' c c' h hc hc' _ j
    cases h
    simp
  | cons t ts ih =>
    intro T T' c c' h hc hc' hl j
    have h0 := h
    simp only [alignTiers, bind, Except.bind] at h
    split at h
    · cases h
    rename_i U hU
    obtain ⟨d, hd, ⟨e, he, hlen⟩, _⟩ := alignTier_any hU
    rw [hc] at hd
    cases hd
    obtain ⟨d', e', hd', he', hle, _⟩ := alignTiers_any h (by rintro rfl; cases he)
    rw [he] at hd'
    cases hd'
    rw [hc'] at he'
    cases he'
    simp only [List.length_cons] at hl
    have hec : e.length = c.length + 1 := by omega
    obtain ⟨d'', hd'', hk⟩ := alignTier_kept (p := p) hU
    rw [hc] at hd''
    cases hd''
    rw [ih h he hc' (by omega) j, hk j, hec]
    rcases Nat.lt_trichotomy j c.length with hj | hj | hj
    · rw [if_neg (by omega), if_neg (by omega), if_neg (by omega)]
    · rw [if_pos hj, if_neg (by omega), if_pos (by omega), show j - c.length = 0 by omega, List.getElem?_cons_zero]
      rfl
    · rw [if_neg (by omega), if_pos (by omega), if_pos (by omega), show j - c.length = (j - (c.length + 1)) + 1 by omega, List.getElem?_cons_succ]
      rfl

/-- **C60** for all tiers: whenever a grid is made whose first column has one row for each tier, the j-th row holds every
item of the j-th tier exactly once (not always in order, `C60_refuted_order`), and there are no other items. -/
theorem C60_kept {ts : List Obj} {T : Trellis} {c : Col} (h : groupAlignments ts = .ok T) (hc : T[0]? = some c) (hl : c.length = ts.length) :
    (∀ (j : Nat) (t : Obj), ts[j]? = some t → (rowOf T j).Perm t.kids) ∧ ∀ j, ts.length ≤ j → rowOf T j = [] := by
  have key : ∀ p : Obj → Bool, ∀ j, cnt p T j = ((ts[j]?.map fun t => t.kids.countP p).getD 0) := by
    intro p j
    cases ts with
    | nil => cases h
    | cons t ts =>
      simp only [groupAlignments] at h
      cases hk : t.kids with
      | nil =>
        rw [hk] at h
        cases ts with
        | nil => cases h; cases hc
        | cons u us => cases h
      | cons x xs =>
        have h0 : (t.kids.map fun i => ([[i]] : Col))[0]? = some [[x]] := by rw [hk]; rfl
        have := alignTiers_kept (p := p) h h0 hc (by simpa [Nat.add_comm] using hl) j
        rw [this]
        have hrow : rowOf (t.kids.map fun i => ([[i]] : Col)) j = if j = 0 then t.kids else [] := by
          have : ∀ l : List Obj, rowOf (l.map fun i => ([[i]] : Col)) j = if j = 0 then l else [] := by
            intro l
            induction l with
            | nil => simp [rowOf]
            | cons y l ih =>
              rw [List.map_cons, ← List.singleton_append, rowOf_append, ih]
              cases j <;> simp [rowOf]
          exact this _
        rw [cnt, hrow]
        cases j with
        | zero => simp
        | succ j => simp
  refine ⟨?_, ?_⟩
  · intro j t ht
    have hd : DecidableEq Obj := Classical.typeDecidableEq Obj
    rw [List.perm_iff_count]
    intro a
    have := key (fun x => x == a) j
    rw [ht] at this
    exact this
  · intro j hj
    have := key (fun _ => true) j
    rw [List.getElem?_eq_none hj] at this
    exact List.eq_nil_iff_forall_not_mem.2 (by simpa using this)

/-! ### The lines -/

theorem rowTexts_inv {cfg : Cfg} {fuel : Nat} {igt tier : Obj} : ∀ {xs : List Obj} {ts : List Str}, rowTexts cfg fuel igt tier xs = .ok ts →
    ∀ x ∈ xs, ∃ v, value fuel (some igt) (some tier) x = .ok v := by
  intro xs
  induction xs with
  | nil => intro _ _ x hx; cases hx
  | cons y xs ih =>
    intro ts h x hx
    simp only [rowTexts, bind, Except.bind] at h
    cases hv : value fuel (some igt) (some tier) y with
    | error e => rw [hv] at h; cases h
    | ok v =>
      rw [hv] at h
      cases hr : rowTexts cfg fuel igt tier xs with
      | error e => rw [hr] at h; cases h
      | ok us =>
        rcases List.mem_cons.1 hx with rfl | hx
        · exact ⟨v, hv⟩
        · exact ih hr x hx

theorem cells_inv {cfg : Cfg} {fuel : Nat} {igt tier : Obj} {i : Nat} : ∀ {T : Trellis} {cs : List Str}, cells cfg fuel igt tier i T = .ok cs →
    (∀ c ∈ T, i < c.length) ∧ ∀ x ∈ rowOf T i, ∃ v, value fuel (some igt) (some tier) x = .ok v := by
  intro T
  induction T with
  | nil => intro _ _; exact ⟨by simp, by simp [rowOf]⟩
  | cons c T ih =>
    intro cs h
    simp only [cells, cell, bind, Except.bind] at h
    cases hc : c[i]? with
    | none => rw [hc] at h; cases h
    | some row =>
      rw [hc] at h
      simp only at h
      cases hr : rowTexts cfg fuel igt tier row with
      | error e => rw [hr] at h; cases h
      | ok ts =>
        rw [hr] at h
        simp only at h
        cases hcs : cells cfg fuel igt tier i T with
        | error e => rw [hcs] at h; cases h
        | ok cs' =>
          obtain ⟨k1, k2⟩ := ih hcs
          have hrow : row = c.getD i [] := by rw [List.getD_eq_getElem?_getD, hc]; rfl
          have hT : rowOf (c :: T) i = c.getD i [] ++ rowOf T i := by simp [rowOf]
          refine ⟨?_, ?_⟩
          · intro d hd
            rcases List.mem_cons.1 hd with rfl | hd
            · exact (List.getElem?_eq_some_iff.1 hc).1
            · exact k1 d hd
          · intro x hx
            rw [hT, ← hrow] at hx
            rcases List.mem_append.1 hx with hx | hx
            · exact rowTexts_inv hr x hx
            · exact k2 x hx

theorem rowLines_inv {cfg : Cfg} (hp : cfg.Plain) {fuel : Nat} {igt : Obj} {tiers : List Obj} {T : Trellis} (hT : T ≠ []) :
    ∀ (n i : Nat) (rows : List Str), rowLines cfg fuel igt tiers T n i = .ok rows → rows.length = n ∧
      ∀ (j : Nat) (t : Obj) (row : Str), tiers[i + j]? = some t → rows[j]? = some row → Reads row (T.map (part fuel igt t (i + j))) := by
  intro n
  induction n with
  | zero => intro i rows h; cases h; exact ⟨rfl, by simp⟩
  | succ n ih =>
    intro i rows h
    simp only [rowLines] at h
    cases ht : tiers[i]? with
    | none => rw [ht] at h; cases h
    | some t =>
      rw [ht] at h
      simp only [bind, Except.bind] at h
      split at h
      · cases h
      rename_i cs hcs
      split at h
      · cases h
      rename_i ls hr
      cases h
      obtain ⟨k1, k2⟩ := ih _ _ hr
      obtain ⟨c1, c2⟩ := cells_inv hcs
      obtain ⟨d1, d2⟩ := cells_ok hp c1 c2
      rw [hcs] at d1
      cases d1
      refine ⟨by simp [k1], ?_⟩
      intro j u row hu hrow
      cases j with
      | zero =>
        rw [Nat.add_zero, ht] at hu
        cases hu
        cases hrow
        rw [hp.2]
        exact d2 hT
      | succ j =>
        rw [List.getElem?_cons_succ] at hrow
        rw [show i + (j + 1) = i + 1 + j by omega] at hu ⊢
        exact k2 j u row hu hrow

theorem transLines_inv {cfg : Cfg} {fuel : Nat} {igt : Obj} : ∀ {ts : List Obj} {ls : List Str}, transLines cfg fuel igt ts = .ok ls →
    ∀ t ∈ ts, t.data.type = some (lit! "translations") → ∀ x, t.kids.head? = some x → ∃ v, value fuel (some igt) (some t) x = .ok v := by
  intro ts
  induction ts with
  | nil => intro _ _ t ht; cases ht
  | cons t ts ih =>
    intro ls h u hu hty x hx
    unfold transLines at h
    split at h
    · rename_i y _ hty' hk
      simp only [bind, Except.bind] at h
      cases hv : value fuel (some igt) (some t) y with
      | error e => rw [hv] at h; cases h
      | ok v =>
        rw [hv] at h
        cases hr : transLines cfg fuel igt ts with
        | error e => rw [hr] at h; cases h
        | ok us =>
          rcases List.mem_cons.1 hu with rfl | hu
          · rw [hk] at hx
            cases hx
            exact ⟨v, hv⟩
          · exact ih hr u hu hty x hx
    · rename_i hno
      rcases List.mem_cons.1 hu with rfl | hu
      · cases hk : u.kids with
        | nil => rw [hk] at hx; cases hx
        | cons y ys => exact absurd hk (hno y ys (decide_eq_true hty))
      · exact ih h u hu hty x hx

/-- **C79** for every IGT that is exported, whatever its alignments are (without substitutions): the block has a line for each tier of
the wanted types; the groups of a line are the parts of its tier in the columns of one grid, and the row of the grid holds each item of the
tier exactly once; then follow the first items of the translations.  (What `C79_partial` says besides is that certain IGTs are
exported, and keeps the order of the items.) -/
theorem C79_any {cfg : Cfg} (hp : cfg.Plain) {fuel : Nat} {igt : Obj} (h2 : 2 ≤ (igt.kids.filter (wanted cfg)).length) {b : Str}
    (h : exportIgt cfg fuel igt = .ok b) :
    ∃ T rows, groupAlignments (igt.kids.filter (wanted cfg)) = .ok T ∧ rows.length = (igt.kids.filter (wanted cfg)).length ∧
      b = join ['\n'] ([lit! "\\begin{exe}\\small", lit! "\\ex\\g" ++ List.replicate rows.length 'l'] ++ rows ++
        transSpec fuel igt ++ [lit! "\\end{exe}"]) ∧
      ∀ (j : Nat) (t : Obj) (row : Str), (igt.kids.filter (wanted cfg))[j]? = some t → rows[j]? = some row →
        (rowOf T j).Perm t.kids ∧ Reads row (T.map fun c => join [' '] ((c.getD j []).map (shownAs fuel igt t))) := by
  unfold exportIgt at h
  rw [if_neg (by omega)] at h
  split at h
  · simp only [bind, Except.bind] at h
    split at h
    · cases h
    rename_i T hT
    split at h
    · cases h
    rename_i ls hls
    simp only [Except.ok.injEq] at h
    subst h
    cases T with
    | nil => cases hls
    | cons c T =>
      simp only [block, bind, Except.bind] at hls
      split at hls
      · cases hls
      rename_i rows hrows
      split at hls
      · cases hls
      rename_i trans htrans
      simp only [Except.ok.injEq] at hls
      subst hls
      obtain ⟨g1, g2⟩ := grid_any hT rfl
      have hc : c.length = (igt.kids.filter (wanted cfg)).length := by
        rcases rowLines_length _ _ _ hrows with h | h <;> omega
      obtain ⟨r1, r2⟩ := rowLines_inv hp (by simp) _ _ _ hrows
      have ht := transLines_ok hp (transLines_inv htrans)
      rw [htrans] at ht
      cases ht
      refine ⟨c :: T, rows, hT, by omega, ?_, ?_⟩
      · rw [r1, hc]; rfl
      · intro j t row ht hrow
        have := r2 j t row (by rw [Nat.zero_add]; exact ht) hrow
        rw [Nat.zero_add] at this
        exact ⟨(C60_kept hT rfl hc).1 j t ht, this⟩
  · cases h

end

/-! ### Examples -/
section
attribute [local instance] asciiUni

/-- the items that `C60_partial` does not speak of: the second waits for the third -/
example : ∃ T c, groupAlignments [exW, badOrder] = .ok T ∧ T[0]? = some c ∧ c.length = [exW, badOrder].length :=
  ⟨_, _, rfl, rfl, by decide +kernel⟩

example : 2 ≤ ((Obj.mk igtData [] [exW, badOrder]).kids.filter (wanted exCfg)).length := by decide +kernel

example : ∃ b, exportIgt exCfg 1 (.mk igtData [] [exW, badOrder]) = .ok b := by
  have h : (exportIgt exCfg 1 (.mk igtData [] [exW, badOrder])).toOption.isSome = true := by decide +kernel
  cases hb : exportIgt exCfg 1 (.mk igtData [] [exW, badOrder]) with
  | error e => rw [hb] at h; cases h
  | ok b => exact ⟨b, rfl⟩

end
end Xigt.Ltx
