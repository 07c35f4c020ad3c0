import Verif.Scripts.SortTwice
import Verif.Igt.SortProps
/-
C110 by tier dependencies: sorting again changes nothing.
-/
set_option linter.unusedSectionVars false

namespace Xigt.Srt
section
variable [Uni]

theorem tierKeys_ok {n : Nat} {idx : Dict (Option Str) Nat} {pr : Dict (Option Str) (Str × Nat)} : ∀ (ts : List Obj) {d r},
    tierKeys n idx pr ts d = some (.ok r) → ∀ t ∈ ts, ∃ k, Xigt.tierKey n idx pr t = some (.ok k) := by
  intro ts
  induction ts with
  | nil => intro d r _ t ht; cases ht
  | cons x ts ih =>
    intro d r h t ht
    rw [tierKeys] at h
    split at h
    · cases h
    · cases h
    · rename_i k hk
      rcases List.mem_cons.1 ht with rfl | ht
      · exact ⟨k, hk⟩
      · exact ih h t ht

/-- tiers with IDs that can be sorted have no missing and no circular references -/
theorem sortTiers_inv {n : Nat} {refattrs : List Str} {ts ts' : List Obj} (hu : (ts.filterMap fun t => t.data.id).Nodup)
    (hi : ∀ t ∈ ts, t.data.id ≠ none) (h : sortTiers n refattrs ts = some (.ok ts')) : SortOK refattrs ts := by
  have hex : RefsExist refattrs ts := by
    intro t ht ra hra
    rw [sortTiers] at h
    split at h
    · cases h
    · cases h
    rename_i dfi hk
    obtain ⟨k, hk⟩ := tierKeys_ok ts hk t ht
    obtain ⟨i, hti⟩ := Option.ne_none_iff_exists'.1 (hi t ht)
    rw [Xigt.tierKey, hti, get?_sortPr hu ht hti] at hk
    obtain ⟨m, hf⟩ := firstRef_iff.2 ⟨ra, hra, rfl⟩
    rw [hf] at hk
    split at hk
    · cases hk
    · cases n with
      | zero => cases hk
      | succ n =>
        rw [keyLoop] at hk
        split at hk
        · cases hk
        · rename_i j hj
          refine Classical.byContradiction fun hno => ?_
          rw [get?_sortIdx_none (i := some (attr0 t ra))] at hj
          · cases hj
          · intro u hu' he
            exact hno ⟨u, pointsTo_iff.2 ⟨hu', _, _, hf, he⟩⟩
  refine ⟨hu, hi, hex, fun t j hc => ?_⟩
  rw [C31_diverges refattrs ts hu hi hex t j hc n] at h
  cases h

theorem sortIdx_same {ts us : List Obj} (h : SameData ts us) : sortIdx us = sortIdx ts := by
  have : ∀ ts : List Obj, sortIdx ts = ((ts.map Obj.data).zipIdx 1).foldl (fun d p => Dict.set d p.1.id p.2) [] := by
    intro ts
    rw [sortIdx, List.zipIdx_map, List.foldl_map]
    rfl
  rw [this, this, show us.map Obj.data = ts.map Obj.data from h.symm]

theorem same_ind {P : List Obj → List Obj → Prop} (h0 : P [] []) (h1 : ∀ t u ts us, t.data = u.data → SameData ts us → P ts us → P (t :: ts) (u :: us)) :
    ∀ {ts us}, SameData ts us → P ts us := by
  intro ts
  induction ts with
  | nil => intro us h; cases us with
    | nil => exact h0
    | cons u us => cases h
  | cons t ts ih =>
    intro us h
    cases us with
    | nil => cases h
    | cons u us =>
      have h : t.data :: ts.map Obj.data = u.data :: us.map Obj.data := h
      exact h1 _ _ _ _ (List.cons.inj h).1 (List.cons.inj h).2 (ih (List.cons.inj h).2)

theorem firstRef_same {refattrs : List Str} {t u : Obj} (h : t.data = u.data) : firstRef refattrs t = firstRef refattrs u := by
  simp only [firstRef, attr0, h]

theorem sortPr_same {refattrs : List Str} {ts us : List Obj} (h : SameData ts us) : sortPr refattrs us = sortPr refattrs ts := by
  have : ∀ d, us.foldl (prStep refattrs) d = ts.foldl (prStep refattrs) d := by
    refine same_ind (P := fun ts us => ∀ d, us.foldl (prStep refattrs) d = ts.foldl (prStep refattrs) d) (fun _ => rfl) ?_ h
    intro t u ts us htu _ ih d
    simp only [List.foldl_cons]
    rw [ih]
    simp only [prStep, firstRef_same htu, htu]
  exact this []

theorem tierKeys_same {n : Nat} {idx : Dict (Option Str) Nat} {pr : Dict (Option Str) (Str × Nat)} {ts us : List Obj} (h : SameData ts us) :
    ∀ d, tierKeys n idx pr us d = tierKeys n idx pr ts d := by
  refine same_ind (P := fun ts us => ∀ d, tierKeys n idx pr us d = tierKeys n idx pr ts d) (fun _ => rfl) ?_ h
  intro t u ts us htu _ ih d
  simp only [tierKeys, Xigt.tierKey, htu, ih]

/-- tiers with the same data as tiers that are sorted are sorted -/
theorem sortTiers_same {n : Nat} {refattrs : List Str} {ts us : List Obj} (h : SameData ts us) (hs : sortTiers n refattrs ts = some (.ok ts)) :
    sortTiers n refattrs us = some (.ok us) := by
  rw [sortTiers] at hs ⊢
  rw [sortIdx_same h, sortPr_same h, tierKeys_same h]
  split at hs
  · cases hs
  · cases hs
  · rename_i dfi hk
    simp only at hs ⊢
    have he : sortBy (fun a b : Obj => keyLe ((Dict.get? dfi a.data.id).getD []) ((Dict.get? dfi b.data.id).getD [])) ts = ts := by
      injection hs with hs
      injection hs
    have hp : ts.Pairwise fun a b => keyLe ((Dict.get? dfi a.data.id).getD []) ((Dict.get? dfi b.data.id).getD []) = true := by
      have := sortBy_sorted (le := fun a b : Obj => keyLe ((Dict.get? dfi a.data.id).getD []) ((Dict.get? dfi b.data.id).getD []))
        (fun a b => keyLe_total _ _) (fun a b c => keyLe_trans _ _ _) ts
      rwa [he] at this
    have hq : us.Pairwise fun a b => keyLe ((Dict.get? dfi a.data.id).getD []) ((Dict.get? dfi b.data.id).getD []) = true := by
      have h1 : (ts.map Obj.data).Pairwise fun a b => keyLe ((Dict.get? dfi a.id).getD []) ((Dict.get? dfi b.id).getD []) = true :=
        List.pairwise_map.2 hp
      rw [show ts.map Obj.data = us.map Obj.data from h] at h1
      exact List.pairwise_map.1 h1
    rw [sortBy_id us hq]

/-- **C110** by tier dependencies: if all tiers have IDs, sorting a second time changes nothing -/
theorem C110_deps (c : XP.PCfg) (n : Nat) (a : Args) (x y : Obj) (hx : x.WF) (hc : x.cls = .corpus) (ht : a.tierKey = [])
    (hid : ∀ g ∈ x.kids, (∀ t ∈ g.kids, t.data.id ≠ none) ∧ (g.kids.filterMap fun t => t.data.id).Nodup ∧ g.kids.length ≤ n)
    (h1 : ∀ k ∈ a.igtKey, OwnKey k) (h3 : ∀ k ∈ a.itemKey, OwnKey k) (h : run c n a x = some (.ok y)) :
    run c n a y = some (.ok y) := by
  by_cases hd : a.tierDeps = []
  · exact C110_partial c n a x y hx hc (.inl hd) h1 (by rw [ht]; intro k hk; cases hk) h3 h
  rw [run] at h
  obtain ⟨x1, e1, h⟩ := thenRun_ok h
  obtain ⟨x2, e2, e3⟩ := thenRun_ok h
  have k1 : ∀ g ∈ x.kids, g.WF ∧ g.cls = .igt := by
    intro g hg
    obtain ⟨w, h⟩ := kid_of hx g hg
    rw [hc] at h
    exact ⟨w, Option.some.inj h⟩
  have k2 : ∀ g ∈ x.kids, ∀ t ∈ g.kids, t.WF ∧ t.cls = .tier := by
    intro g hg t ht
    obtain ⟨w, hgc⟩ := k1 g hg
    obtain ⟨w, h⟩ := kid_of w t ht
    rw [hgc] at h
    exact ⟨w, Option.some.inj h⟩
  have q1 : x1.kids.Perm x.kids := by
    split at e1
    · exact (sortKids_perm (some_sort e1)).2
    · cases e1; exact List.Perm.refl _
  have hk : ¬ a.tierKey ≠ [] := fun h => h ht
  have q2 : x2.data = x1.data ∧ All2 (fun g g' => g'.data = g.data ∧ sortTiers n a.tierDeps g.kids = some (.ok g'.kids)) x1.kids x2.kids := by
    rw [if_neg hk, if_pos hd] at e2
    obtain ⟨d1, _, d3⟩ := eachKid_inside (R := fun g _ g' => depSort n a.tierDeps g = some (.ok g')) (fun _ _ _ h => h) _ _ _ e2
    refine ⟨d1, all2_weaken (fun g g' h => ?_) d3⟩
    rw [depSort] at h
    cases hs : sortTiers n a.tierDeps g.kids with
    | none => rw [hs] at h; cases h
    | some r =>
      rw [hs] at h
      cases r with
      | error e => cases h
      | ok ts => cases h; exact ⟨rfl, rfl⟩
  have q3 : y.data = x2.data ∧ All2 (fun g g' => g'.data = g.data ∧ All2 (fun t t' => t'.data = t.data ∧
      (a.itemKey ≠ [] → sortKids c a.itemKey t [g, x2] = .ok t')) g.kids g'.kids) x2.kids y.kids := by
    by_cases ht : a.itemKey ≠ []
    · rw [if_pos ht] at e3
      obtain ⟨d1, _, d3⟩ := eachKid_inside (R := fun g up g' => eachKid (fun tier up => some (sortKids c a.itemKey tier up)) g up = some (.ok g')) (fun _ _ _ h => h) _ _ _ e3
      refine ⟨d1, all2_weaken (fun g g' h => ?_) d3⟩
      obtain ⟨f1, _, f3⟩ := eachKid_inside (R := fun t up t' => sortKids c a.itemKey t up = .ok t') (fun _ _ _ h => some_sort h) _ _ _ h
      exact ⟨f1, all2_weaken (fun t t' h => ⟨(sortKids_perm h).1, fun _ => h⟩) f3⟩
    · rw [if_neg ht] at e3
      cases e3
      exact ⟨rfl, all2_self (fun g => ⟨rfl, all2_self (fun t => ⟨rfl, fun h => absurd h ht⟩) _⟩) _⟩
  have d12 : SameData x1.kids x2.kids := sameData_all2 (fun _ _ h => h.1) q2.2
  have d2y : SameData x2.kids y.kids := sameData_all2 (fun _ _ h => h.1) q3.2
  have r1 : (if a.igtKey ≠ [] then some (sortKids c a.igtKey y []) else some (.ok y)) = (some (.ok y) : Run Obj) := by
    split
    · rename_i ht
      rw [if_pos ht] at e1
      rw [sortKids_again (own_local c _ h1) (fun k hk => by rw [(k1 k hk).2]; decide) (some_sort e1) (q3.1.trans q2.1) (Eq.trans d12 d2y) rfl]
    · rfl
  -- what a tier was before its IGT's tiers were sorted
  have back : ∀ {g1 g2 : Obj}, g1 ∈ x1.kids → sortTiers n a.tierDeps g1.kids = some (.ok g2.kids) →
      g2.kids.Perm g1.kids ∧ sortTiers n a.tierDeps g2.kids = some (.ok g2.kids) := by
    intro g1 g2 m1 hs
    obtain ⟨i1, i2, i3⟩ := hid g1 (q1.subset m1)
    have hok := sortTiers_inv i2 i1 hs
    obtain ⟨ts', s1, s2, _, s4⟩ := C30_partial a.tierDeps g1.kids hok n i3
    rw [hs] at s1
    have : g2.kids = ts' := by injection s1 with s1; injection s1
    rw [this]
    exact ⟨s2, s4⟩
  have r2 : eachKid (fun igt _ => depSort n a.tierDeps igt) y [] = some (.ok y) := by
    refine eachKid_same fun g' hg' => ?_
    obtain ⟨g2, m2, s1, s2⟩ := all2_right q3.2 hg'
    obtain ⟨g1, m1, t1, t2⟩ := all2_right q2.2 m2
    have := sortTiers_same (sameData_all2 (fun _ _ h => h.1) s2) (back m1 t2).2
    rw [depSort, this]
    cases g'
    rfl
  have r3 : a.itemKey ≠ [] → eachKid (fun igt up => eachKid (fun tier up => some (sortKids c a.itemKey tier up)) igt up) y [] = some (.ok y) := by
    intro ht
    refine eachKid_same fun g' hg' => eachKid_same fun t' ht' => ?_
    obtain ⟨g2, m2, s1, s2⟩ := all2_right q3.2 hg'
    obtain ⟨g1, m1, t1, t2⟩ := all2_right q2.2 m2
    obtain ⟨u, mu, u1, u2⟩ := all2_right s2 ht'
    have hk2 := k2 g1 (q1.subset m1) u ((back m1 t2).1.subset mu)
    rw [sortKids_again (own_local c _ h3) (kid_cls hk2.1 (.inr (.inr hk2.2))) (u2 ht) rfl rfl
      (by simp [SameData, q3.1, s1])]
  rw [run, r1]
  simp only [thenRun]
  rw [if_neg hk, if_pos hd, r2]
  simp only
  split
  · rename_i hi; rw [r3 hi]
  · rfl

end

section
attribute [local instance] asciiUni

def depsCorpus : Obj := .mk { cls := .corpus } []
  [.mk { cls := .igt, id := some (lit! "i1") } []
    [.mk { cls := .tier, id := some (lit! "m"), attrs := [(lit! "segmentation", lit! "w")] } [] [],
     .mk { cls := .tier, id := some (lit! "w") } [] [.mk { cls := .item, id := some (lit! "w2") } [] [], .mk { cls := .item, id := some (lit! "w1") } [] []]]]

/-- the tiers of this corpus have different IDs, and it is changed when it is sorted by tier dependencies -/
example : depsCorpus.WF ∧ (∀ g ∈ depsCorpus.kids, (∀ t ∈ g.kids, t.data.id ≠ none) ∧ (g.kids.filterMap fun t => t.data.id).Nodup ∧ g.kids.length ≤ 10) ∧
    runIds (run exCfg 10 { tierDeps := [lit! "segmentation"], itemKey := [lit! "@id"] } depsCorpus) = [lit! "w", lit! "w1", lit! "w2", lit! "m"] := by
  refine ⟨?_, ?_, by decide +kernel⟩
  · refine .mk (by unfold Dict.WF; decide) (by simp) (by simp) (by simp) (by simp) (by simp [Cls.contained, Obj.cls, Obj.data]) (by simp) ?_
    intro g hg
    simp only [List.mem_cons, List.not_mem_nil, or_false] at hg
    subst hg
    refine .mk (by unfold Dict.WF; decide) (by simp) (by simp) (by simp) (by simp) (by simp [Cls.contained, Obj.cls, Obj.data]) (by simp) ?_
    intro t ht
    simp only [List.mem_cons, List.not_mem_nil, or_false] at ht
    rcases ht with rfl | rfl
    · exact .mk (by unfold Dict.WF; decide) (by simp) (by simp) (by simp) (by simp) (by simp) (by simp) (by simp)
    · refine .mk (by unfold Dict.WF; decide) (by simp) (by simp) (by simp) (by simp) (by simp [Cls.contained, Obj.cls, Obj.data]) (by simp) ?_
      intro t ht
      simp only [List.mem_cons, List.not_mem_nil, or_false] at ht
      rcases ht with rfl | rfl <;> exact .mk (by unfold Dict.WF; decide) (by simp) (by simp) (by simp) (by simp) (by simp) (by simp) (by simp)
  · intro g hg
    simp only [depsCorpus, Obj.kids, List.mem_cons, List.not_mem_nil, or_false] at hg
    subst hg
    refine ⟨?_, by decide, by decide⟩
    intro t ht
    simp only [Obj.kids, List.mem_cons, List.not_mem_nil, or_false] at ht
    rcases ht with rfl | rfl <;> simp [Obj.data]

end
end Xigt.Srt
