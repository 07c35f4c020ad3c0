import Verif.Igt.DescProps
/-
C66: which items `descendants` lists.
-/
set_option linter.unusedSectionVars false

namespace Xigt
section
variable [Uni]

/-- item `x` of tier `u` refers directly or indirectly to one of the items of `t`, through tiers that refer to each other by the same
attributes as the items do -/
inductive ItemVia (igt : Obj) (refattrs : List Str) (t : Obj) (items : List Obj) : Obj → Obj → Prop
  | direct {u ra tid x a i} : ra ∈ refattrs → t.data.id = some tid → RefersTo igt ra u tid → x ∈ u.kids → a ∈ items → a.data.id = some i →
      i ∈ ids (attr0 x ra) → ItemVia igt refattrs t items u x
  | step {u v ra uid x y i} : ItemVia igt refattrs t items u x → ra ∈ refattrs → u.data.id = some uid → RefersTo igt ra v uid →
      y ∈ v.kids → x.data.id = some i → i ∈ ids (attr0 y ra) → ItemVia igt refattrs t items v y

/-- `t` does not refer to itself, directly or indirectly, and every tier that refers to `t` does so by one attribute and one tier only -/
structure ReachedOnce (igt : Obj) (refattrs : List Str) (t : Obj) : Prop where
  start : ¬ RefersVia igt refattrs t t
  once : ∀ u v v' ra ra' i i', (v = t ∨ RefersVia igt refattrs t v) → (v' = t ∨ RefersVia igt refattrs t v') → ra ∈ refattrs → ra' ∈ refattrs →
    v.data.id = some i → v'.data.id = some i' → RefersTo igt ra u i → RefersTo igt ra' u i' → v = v' ∧ ra = ra'

theorem ItemVia.tier {igt : Obj} {refattrs : List Str} {t : Obj} {items : List Obj} {u x : Obj} (h : ItemVia igt refattrs t items u x) :
    RefersVia igt refattrs t u ∧ x ∈ u.kids := by
  induction h with
  | direct h1 h2 h3 h4 _ _ _ => exact ⟨.direct h1 h2 h3, h4⟩
  | step _ h1 h2 h3 h4 _ _ ih => exact ⟨.step ih.1 h1 h2 h3, h4⟩

/-- every tier that is reached is followed from, by every attribute -/
theorem desc_follow {allowed : Entry → List Str} {st : IgtState} (h : TiersOK st.igt) {refattrs : List Str}
    (hn : refattrs.Nodup) : ∀ (n : Nat) (visited : List (Str × Str)) (agenda : List (Obj × List Obj)),
    AgendaOK st.igt agenda → (descLoop allowed st refattrs true n visited agenda).2 = .stop →
    ∀ t, (t ∈ agenda.map Prod.fst ∨ t ∈ (descLoop allowed st refattrs true n visited agenda).1.map Step.tgt) →
    ∀ tid, t.data.id = some tid → ∀ ra ∈ refattrs, ∀ u, RefersTo st.igt ra u tid →
      (tid, ra) ∈ visited ∨ ∃ s ∈ (descLoop allowed st refattrs true n visited agenda).1, s.src.data.id = some tid ∧ s.ra = ra ∧ s.tgt = u := by
  intro n
  induction n with
  | zero => intro visited agenda _ he; simp [descLoop] at he
  | succ n ih =>
    intro visited agenda hag hstop
    cases agenda with
    | nil =>
      intro t ht
      simp [descLoop] at ht
    | cons p agenda =>
      obtain ⟨t0, items⟩ := p
      obtain ⟨ht0, hid0⟩ := hag (t0, items) (by simp)
      cases hi0 : t0.data.id with
      | none => exact absurd hi0 hid0
      | some tid0 =>
        obtain ⟨news, h1, h2, h3, steps, hsteps, he⟩ := descLoop_succ (allowed := allowed) h hn true n visited t0 items
          agenda ht0 hi0
        rw [he] at hstop ⊢
        simp only at hstop ⊢
        have hag' : AgendaOK st.igt (agenda ++ steps.map fun s => (s.tgt, s.items)) := by
          rw [hsteps]; exact agendaOK_steps fun p hp => hag p (by simp [hp])
        have follow : ∀ ra ∈ news, ∀ u, RefersTo st.igt ra u tid0 → ∃ s ∈ steps, s.src.data.id = some tid0 ∧ s.ra = ra ∧ s.tgt = u := by
          intro ra hra u hu
          rw [hsteps]
          exact ⟨stepTo t0 ra _ u, List.mem_flatMap.2 ⟨ra, hra, List.mem_map.2 ⟨u, mem_refTiers.2 hu, rfl⟩⟩, hi0, rfl, rfl⟩
        intro t ht tid hi ra hra u hu
        have fin : ∀ t tid, t.data.id = some tid → RefersTo st.igt ra u tid →
            (t ∈ (agenda ++ steps.map fun s => (s.tgt, s.items)).map Prod.fst ∨
             t ∈ (descLoop allowed st refattrs true n (visited ++ news.map fun ra => (tid0, ra))
              (agenda ++ steps.map fun s => (s.tgt, s.items))).1.map Step.tgt) →
            (tid, ra) ∈ visited ∨ ∃ s ∈ (steps ++ (descLoop allowed st refattrs true n
              (visited ++ news.map fun ra => (tid0, ra)) (agenda ++ steps.map fun s => (s.tgt, s.items))).1),
                s.src.data.id = some tid ∧ s.ra = ra ∧ s.tgt = u := by
          intro t tid hi hu ht
          rcases ih _ _ hag' hstop t ht tid hi ra hra u hu with h5 | ⟨s, hs, h5⟩
          · rcases List.mem_append.1 h5 with h5 | h5
            · exact Or.inl h5
            · obtain ⟨rb, hrb, he'⟩ := List.mem_map.1 h5
              simp only [Prod.mk.injEq] at he'
              obtain ⟨rfl, rfl⟩ := he'
              obtain ⟨s, hs, h6⟩ := follow rb hrb u hu
              exact Or.inr ⟨s, List.mem_append_left _ hs, h6⟩
          · exact Or.inr ⟨s, List.mem_append_right _ hs, h5⟩
        rcases ht with ht | ht
        · rcases List.mem_cons.1 ht with rfl | ht
          · rw [hi0] at hi
            cases hi
            have hne : refTiers st.igt ra tid0 ≠ [] := List.ne_nil_of_mem (mem_refTiers.2 hu)
            rcases h3 rfl ra hra hne with h5 | h5
            · exact Or.inl h5
            · obtain ⟨s, hs, h6⟩ := follow ra h5 u hu
              exact Or.inr ⟨s, List.mem_append_left _ hs, h6⟩
          · exact fin t tid hi hu (Or.inl (by rw [List.map_append]; exact List.mem_append_left _ ht))
        · rw [List.map_append] at ht
          rcases List.mem_append.1 ht with ht | ht
          · refine fin t tid hi hu (Or.inl ?_)
            rw [List.map_append]
            refine List.mem_append_right _ ?_
            obtain ⟨s, hs, rfl⟩ := List.mem_map.1 ht
            exact List.mem_map.2 ⟨(s.tgt, s.items), List.mem_map.2 ⟨s, hs, rfl⟩, rfl⟩
          · exact fin t tid hi hu (Or.inr ht)

theorem tiers_unique {igt : Obj} (h : TiersOK igt) {t u : Obj} {i : Str} (ht : t ∈ igt.kids) (hu : u ∈ igt.kids)
    (hti : t.data.id = some i) (hui : u.data.id = some i) : t = u := by
  have key : ∀ l : List Obj, (l.filterMap fun t => t.data.id).Nodup → t ∈ l → u ∈ l → t = u := by
    intro l
    induction l with
    | nil => intro _ ht; cases ht
    | cons x l ih =>
      intro hn ht hu
      rcases List.mem_cons.1 ht with rfl | ht'
      · rcases List.mem_cons.1 hu with rfl | hu'
        · rfl
        · simp only [List.filterMap_cons, hti] at hn
          exact absurd (List.mem_filterMap.2 ⟨u, hu', hui⟩) (List.nodup_cons.1 hn).1
      · rcases List.mem_cons.1 hu with rfl | hu'
        · simp only [List.filterMap_cons, hui] at hn
          exact absurd (List.mem_filterMap.2 ⟨t, ht', hti⟩) (List.nodup_cons.1 hn).1
        · refine ih ?_ ht' hu'
          cases hx : x.data.id with
          | none => simpa only [List.filterMap_cons, hx] using hn
          | some j => simp only [List.filterMap_cons, hx] at hn; exact (List.nodup_cons.1 hn).2
  exact key _ h.unique ht hu

theorem refersVia_mem {igt : Obj} {refattrs : List Str} {t u : Obj} (h : RefersVia igt refattrs t u) : u ∈ igt.kids := by
  cases h with
  | direct _ _ h => exact h.1
  | step _ _ _ h => exact h.1

/-- C66, soundness: every item that is listed refers to one of the given items, directly or indirectly (for both values of `follow`) -/
theorem C66_sound (allowed : Entry → List Str) (st : IgtState) (h : TiersOK st.igt) (refattrs : List Str) (hn : refattrs.Nodup) (all : Bool)
    (n : Nat) (t : Obj) (ht : t ∈ st.igt.kids) (hid : t.data.id ≠ none) (items : List Obj) :
    ∀ s ∈ (descendants allowed st refattrs all n t items).1, ∀ x ∈ s.items, ItemVia st.igt refattrs t items s.tgt x := by
  have key : ∀ (m : Nat) (pre : List Step) (s : Step) (post : List Step), pre.length = m →
      (descendants allowed st refattrs all n t items).1 = pre ++ s :: post → ∀ x ∈ s.items, ItemVia st.igt refattrs t items s.tgt x := by
    intro m
    induction m using Nat.strongRecOn with
    | ind m ih =>
      intro pre s post hm hs x hx
      obtain ⟨its, hor, hra, ⟨tid, htid, hto⟩, hits⟩ := C29_sound allowed st h refattrs hn all n t ht hid items pre post s hs
      rw [hits] at hx
      obtain ⟨hxk, hx⟩ := List.mem_filter.1 hx
      obtain ⟨a, ha, j, hj, haj⟩ := of_decide_eq_true hx
      rcases hor with ⟨h1, rfl⟩ | ⟨s', hs', h1, rfl⟩
      · rw [h1] at htid
        exact .direct hra htid hto hxk ha haj hj
      · obtain ⟨p1, p2, hp⟩ := List.append_of_mem hs'
        have := ih p1.length (by rw [← hm, hp]; simp) p1 s' (p2 ++ s :: post) rfl (by rw [hs, hp]; simp) a ha
        rw [h1] at htid
        exact .step this hra htid hto hxk haj hj
  intro s hs
  obtain ⟨p1, p2, hp⟩ := List.append_of_mem hs
  exact key _ p1 s p2 rfl hp

/-- C66, where it holds: if every tier is reached once, the items that are listed are just those that refer to a given item, directly or
indirectly, each with its tier.
Missing: tiers that are reached more than once (`C66_refuted`). -/
theorem C66_once (allowed : Entry → List Str) (st : IgtState) (h : TiersOK st.igt) (refattrs : List Str) (hn : refattrs.Nodup)
    (n : Nat) (t : Obj) (ht : t ∈ st.igt.kids) (hid : t.data.id ≠ none) (items : List Obj)
    (hlen : (st.igt.kids.length * refattrs.length) * st.igt.kids.length + 1 < n) (ho : ReachedOnce st.igt refattrs t) (u x : Obj) :
    ItemVia st.igt refattrs t items u x ↔ ∃ s ∈ (descendants allowed st refattrs true n t items).1, s.tgt = u ∧ x ∈ s.items := by
  have hstop := (C28_terminates allowed st h refattrs hn true t ht items n hlen).2.1 hid
  have follow := desc_follow (allowed := allowed) h hn n [] [(t, items)]
    (by intro p hp; simp at hp; subst hp; exact ⟨ht, hid⟩) hstop
  change ∀ w, (w ∈ [(t, items)].map Prod.fst ∨ w ∈ (descendants allowed st refattrs true n t items).1.map Step.tgt) →
    ∀ tid, w.data.id = some tid → ∀ ra ∈ refattrs, ∀ u, RefersTo st.igt ra u tid →
    (tid, ra) ∈ [] ∨ ∃ s ∈ (descendants allowed st refattrs true n t items).1, s.src.data.id = some tid ∧ s.ra = ra ∧ s.tgt = u at follow
  have sound := C29_sound allowed st h refattrs hn true n t ht hid items
  have via : ∀ (m : Nat) (pre : List Step) (s : Step) (post : List Step), pre.length = m →
      (descendants allowed st refattrs true n t items).1 = pre ++ s :: post → RefersVia st.igt refattrs t s.tgt := by
    intro m
    induction m using Nat.strongRecOn with
    | ind m ih =>
      intro pre s post hm hs
      obtain ⟨its, hor, hra, ⟨tid, htid, hto⟩, _⟩ := sound pre post s hs
      rcases hor with ⟨h1, _⟩ | ⟨s', hs', h1, _⟩
      · rw [h1] at htid
        exact .direct hra htid hto
      · obtain ⟨p1, p2, hp⟩ := List.append_of_mem hs'
        have := ih p1.length (by rw [← hm, hp]; simp) p1 s' (p2 ++ s :: post) rfl (by rw [hs, hp]; simp)
        rw [h1] at htid
        exact .step this hra htid hto
  have via' : ∀ s ∈ (descendants allowed st refattrs true n t items).1, RefersVia st.igt refattrs t s.tgt := by
    intro s hs
    obtain ⟨p1, p2, hp⟩ := List.append_of_mem hs
    exact via _ p1 s p2 rfl hp
  have srcVia : ∀ s ∈ (descendants allowed st refattrs true n t items).1, s.src = t ∨ RefersVia st.igt refattrs t s.src := by
    intro s hs
    obtain ⟨p1, p2, hp⟩ := List.append_of_mem hs
    obtain ⟨_, hor, _⟩ := sound p1 p2 s hp
    rcases hor with ⟨h1, _⟩ | ⟨s', hs', h1, _⟩
    · exact .inl h1
    · exact .inr (h1 ▸ via' s' (by rw [hp]; exact List.mem_append_left _ hs'))
  -- a tier is reached with the same items
  have same : ∀ (m : Nat) (pre : List Step) (s : Step) (post : List Step), pre.length = m →
      (descendants allowed st refattrs true n t items).1 = pre ++ s :: post →
      ∀ s' ∈ (descendants allowed st refattrs true n t items).1, s'.tgt = s.tgt → s'.items = s.items := by
    intro m
    induction m using Nat.strongRecOn with
    | ind m ih =>
      intro pre s post hm hs s' hs' ht'
      have hsm : s ∈ (descendants allowed st refattrs true n t items).1 := by rw [hs]; simp
      obtain ⟨q1, q2, hq⟩ := List.append_of_mem hs'
      obtain ⟨its, hor, hra, ⟨tid, htid, hto⟩, hits⟩ := sound pre post s hs
      obtain ⟨its', hor', hra', ⟨tid', htid', hto'⟩, hits'⟩ := sound q1 q2 s' hq
      have hto'' := hto'
      rw [ht'] at hto''
      obtain ⟨e1, e2⟩ := ho.once s.tgt s.src s'.src s.ra s'.ra tid tid' (srcVia s hsm) (srcVia s' hs') hra hra' htid htid' hto hto''
      have : its = its' := by
        rcases hor with ⟨h1, rfl⟩ | ⟨r, hr, h1, rfl⟩
        · rcases hor' with ⟨h2, rfl⟩ | ⟨r', hr', h2, rfl⟩
          · rfl
          · exfalso
            refine ho.start ?_
            have := via' r' (by rw [hq]; exact List.mem_append_left _ hr')
            rwa [← h2, ← e1, h1] at this
        · obtain ⟨p1, p2, hp⟩ := List.append_of_mem hr
          rcases hor' with ⟨h2, rfl⟩ | ⟨r', hr', h2, rfl⟩
          · exfalso
            refine ho.start ?_
            have := via' r (by rw [hs]; exact List.mem_append_left _ hr)
            rwa [← h1, e1, h2] at this
          · refine (ih p1.length (by rw [← hm, hp]; simp) p1 r (p2 ++ s :: post) rfl (by rw [hs, hp]; simp) r'
              (by rw [hq]; exact List.mem_append_left _ hr') ?_).symm
            rw [← h1, ← h2, e1]
      rw [hits, hits', ht', e2, this]
  constructor
  · intro hv
    induction hv with
    | @direct u ra tid x a i hra hi hu hx ha hai hix =>
      rcases follow t (.inl (by simp)) tid hi ra hra u hu with h1 | ⟨s, hs, h1, h2, h3⟩
      · cases h1
      · refine ⟨s, hs, h3, ?_⟩
        obtain ⟨p1, p2, hp⟩ := List.append_of_mem hs
        obtain ⟨its, hor, _, _, hits⟩ := sound p1 p2 s hp
        rcases hor with ⟨_, rfl⟩ | ⟨s', hs', h4, rfl⟩
        · rw [hits, h3]
          refine List.mem_filter.2 ⟨hx, decide_eq_true ⟨a, ha, i, ?_, hai⟩⟩
          rw [h2]; exact hix
        · exfalso
          have hs'm : s' ∈ (descendants allowed st refattrs true n t items).1 := by rw [hp]; exact List.mem_append_left _ hs'
          have hv := via' s' hs'm
          rw [h4] at h1
          have := tiers_unique h (refersVia_mem hv) ht h1 hi
          rw [this] at hv
          exact ho.start hv
    | @step u v ra uid x y i hux hra hi hv hy hxi hiy ih =>
      obtain ⟨s0, hs0, e0, hx0⟩ := ih
      have hu := hux.tier.1
      rcases follow u (.inr (List.mem_map.2 ⟨s0, hs0, e0⟩)) uid hi ra hra v hv with h1 | ⟨s, hs, h1, h2, h3⟩
      · cases h1
      · refine ⟨s, hs, h3, ?_⟩
        obtain ⟨p1, p2, hp⟩ := List.append_of_mem hs
        obtain ⟨its, hor, _, _, hits⟩ := sound p1 p2 s hp
        have hits0 : its = s0.items := by
          rcases hor with ⟨h4, _⟩ | ⟨s', hs', h4, rfl⟩
          · exfalso
            rw [h4] at h1
            have := tiers_unique h ht (refersVia_mem hu) h1 hi
            rw [← this] at hu
            exact ho.start hu
          · have hs'm : s' ∈ (descendants allowed st refattrs true n t items).1 := by rw [hp]; exact List.mem_append_left _ hs'
            rw [h4] at h1
            have := tiers_unique h (refersVia_mem (via' s' hs'm)) (refersVia_mem hu) h1 hi
            obtain ⟨q1, q2, hq⟩ := List.append_of_mem hs0
            exact same _ q1 s0 q2 rfl hq s' hs'm (by rw [this, e0])
        rw [hits, h3, hits0]
        refine List.mem_filter.2 ⟨hy, decide_eq_true ⟨x, hx0, i, ?_, hxi⟩⟩
        rw [h2]; exact hiy
  · rintro ⟨s, hs, rfl, hx⟩
    exact C66_sound allowed st h refattrs hn true n t ht hid items s hs x hx

/-- the tiers a tier refers to, with the attributes -/
def tierRefs (refattrs : List Str) (u : Obj) : List (Str × Str) := refattrs.flatMap fun ra => (ids (attr0 u ra)).map fun i => (ra, i)

/-- this is so in particular if every tier refers to one tier at most, and the tier to none -/
theorem reachedOnce_of {igt : Obj} (h : TiersOK igt) {refattrs : List Str} {t : Obj} (ht : t ∈ igt.kids) (h0 : tierRefs refattrs t = [])
    (h1 : ∀ u ∈ igt.kids, (tierRefs refattrs u).length ≤ 1) : ReachedOnce igt refattrs t := by
  have mem : ∀ {u : Obj} {ra i : Str}, ra ∈ refattrs → RefersTo igt ra u i → (ra, i) ∈ tierRefs refattrs u :=
    fun hra hu => List.mem_flatMap.2 ⟨_, hra, List.mem_map.2 ⟨_, hu.2.2, rfl⟩⟩
  constructor
  · intro hv
    cases hv with
    | direct hra _ hu => have := mem hra hu; rw [h0] at this; cases this
    | step _ hra _ hu => have := mem hra hu; rw [h0] at this; cases this
  · intro u v v' ra ra' i i' hv hv' hra hra' hi hi' hu hu'
    have hk := h1 u hu.1
    have m1 := mem hra hu
    have m2 := mem hra' hu'
    have e : (ra, i) = (ra', i') := by
      match hl : tierRefs refattrs u, hk, m1, m2 with
      | [a], _, m1, m2 => rw [List.mem_singleton.1 m1, List.mem_singleton.1 m2]
    obtain ⟨rfl, rfl⟩ := Prod.mk.inj e
    refine ⟨tiers_unique h ?_ ?_ hi hi', rfl⟩
    · rcases hv with rfl | hv
      · exact ht
      · exact refersVia_mem hv
    · rcases hv' with rfl | hv'
      · exact ht
      · exact refersVia_mem hv'

end

section
attribute [local instance] asciiUni

/-- words, their morphemes, and glosses of these: the conditions of C66 hold, and there are items that refer indirectly -/
def exGlossed : Obj := mkIgt [
  mkTier "w" [] [mkItem "w1" [], mkItem "w2" []],
  mkTier "m" [("segmentation", "w")] [mkItem "m1" [("segmentation", "w1")], mkItem "m2" [("segmentation", "w2")]],
  mkTier "g" [("alignment", "m")] [mkItem "g1" [("alignment", "m1")], mkItem "g2" [("alignment", "m2")]]]

example : TiersOK exGlossed ∧ ReachedOnce exGlossed [SEGMENTATION, ALIGNMENT] (mkTier "w" [] [mkItem "w1" [], mkItem "w2" []]) := by
  have h : TiersOK exGlossed := ⟨by decide +kernel, by decide +kernel⟩
  exact ⟨h, reachedOnce_of h (List.mem_cons_self ..) (by decide +kernel) (by decide +kernel)⟩

example : ((descendants stdAllowed (newIgt stdAllowed exGlossed) [SEGMENTATION, ALIGNMENT] true 20 (mkTier "w" [] [mkItem "w1" [], mkItem "w2" []])
    [mkItem "w2" []]).1.map fun s => (s.tgt.data.id, s.items.map fun x => x.data.id)) =
    [(some "m".toList, [some "m2".toList]), (some "g".toList, [some "g2".toList])] := by
  decide +kernel

end
end Xigt
