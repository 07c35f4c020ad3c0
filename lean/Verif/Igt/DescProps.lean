import Verif.Igt.QuerySpec
import Verif.Igt.AncProps
/-
Properties of `descendants`: C28, C29, C66.
-/

set_option linter.unusedSectionVars false
set_option linter.unusedSimpArgs false

namespace Xigt
section
variable [Uni]

theorem find_tier' {igt : Obj} (h : TiersOK igt) {t : Obj} (ht : t ∈ igt.kids) {i} (hi : t.data.id = some i) :
    igt.kids.find? (fun x => decide (x.data.id = some i)) = some t :=
  find?_uniq (f := fun t : Obj => t.data.id) h.unique ht hi

theorem contItem_tier' {igt : Obj} (h : TiersOK igt) {t : Obj} (ht : t ∈ igt.kids) {i}
    (hi : t.data.id = some i) : contItem igt.kids i = .ok t := by
  rw [contItem, find_tier' h ht hi]

/-- the tiers with an ID that refer to the tier `tid` -/
def refTiers (igt : Obj) (ra tid : Str) : List Obj :=
  igt.kids.filter fun u => u.data.id.isSome && decide (tid ∈ ids (attr0 u ra))

theorem mem_refTiers {igt : Obj} {ra tid : Str} {u : Obj} : u ∈ refTiers igt ra tid ↔ RefersTo igt ra u tid := by
  simp only [refTiers, RefersTo, List.mem_filter, Bool.and_eq_true, decide_eq_true_eq, Option.isSome_iff_ne_none]

theorem refTiers_length {igt : Obj} {ra tid : Str} : (refTiers igt ra tid).length ≤ igt.kids.length :=
  List.length_filter_le _ _

/-- the step to a referring tier -/
def stepTo (t : Obj) (ra : Str) (itemIds : List Str) (u : Obj) : Step :=
  { src := t, ra := ra, tgt := u,
    items := u.kids.filter fun x => (ids (attr0 x ra)).any fun j => decide (j ∈ itemIds) }

theorem tierReferrers_ok {allowed : Entry → List Str} {st : IgtState} (h : TiersOK st.igt) {t : Obj}
    (ht : t ∈ st.igt.kids) {tid} (hi : t.data.id = some tid) {refattrs : List Str} (hn : refattrs.Nodup) :
    ∃ m, tierReferrers allowed st t refattrs = .ok (tid, m) ∧ ∀ ra, listed m ra =
      if ra ∈ refattrs then (refTiers st.igt ra tid).filterMap fun u => u.data.id else [] := by
  have hv := h.valid t ht tid hi
  obtain ⟨c, cs, hc, _⟩ := (idAccepted_iff _).1 hv
  subst hc
  have : ∃ m, referrers allowed st (c :: cs) (some refattrs) = .ok m ∧ ∀ ra, listed m ra =
      if ra ∈ refattrs then (refTiers st.igt ra (c :: cs)).filterMap fun u => u.data.id else [] := by
    rw [referrers, contItem_tier' h ht hi]
    refine ⟨_, rfl, fun ra => ?_⟩
    rw [listed_objs _ _ _ _ (by intro e; exact hn), listed_init, List.nil_append, tierEntries,
      List.filterMap_map, refTiers]
    by_cases hra : ra ∈ refattrs
    · rw [if_pos hra, List.filterMap_filter]
      congr 1
      funext u
      simp only [Function.comp, Option.getD_some, hra, true_and, Entry.id]
      cases hu : u.data.id with
      | none => simp
      | some i => simp
    · rw [if_neg hra]
      simp [hra]
  obtain ⟨m, hm, hl⟩ := this
  refine ⟨m, ?_, hl⟩
  simp only [tierReferrers, hi, igtReferrers, hm]
  rfl

theorem descTiers_ok {igt : Obj} (h : TiersOK igt) (t : Obj) (ra : Str) (itemIds : List Str) :
    ∀ us : List Obj, (∀ u ∈ us, u ∈ igt.kids ∧ u.data.id ≠ none) →
    descTiers igt t ra itemIds (us.filterMap fun u => u.data.id) = (us.map (stepTo t ra itemIds), none) := by
  intro us
  induction us with
  | nil => intro _; rfl
  | cons u us ih =>
    intro hu
    obtain ⟨h1, h2⟩ := hu u (by simp)
    cases hi : u.data.id with
    | none => exact absurd hi h2
    | some i =>
      rw [List.filterMap_cons, hi]
      simp only [descTiers]
      rw [contItem_tier' h h1 hi, ih (fun v hv => hu v (by simp [hv]))]
      rfl

theorem descAttrs_ok {igt : Obj} (h : TiersOK igt) (t : Obj) (tid : Str) (itemIds : List Str)
    (m : Dict Str (List Str)) (refattrs : List Str)
    (hm : ∀ ra, listed m ra = if ra ∈ refattrs then (refTiers igt ra tid).filterMap fun u => u.data.id else []) :
    ∀ (ras : List Str) (visited : List (Str × Str)), (∀ ra ∈ ras, ra ∈ refattrs) →
    ∃ news : List Str, news.Nodup ∧ (∀ ra ∈ news, ra ∈ ras ∧ (tid, ra) ∉ visited) ∧
      (∀ ra ∈ ras, (tid, ra) ∈ visited ∨ ra ∈ news) ∧
      descAttrs igt t tid itemIds m visited ras = (visited ++ news.map (fun ra => (tid, ra)),
        news.flatMap fun ra => (refTiers igt ra tid).map (stepTo t ra itemIds), none) := by
  intro ras
  induction ras with
  | nil => intro visited _; exact ⟨[], by simp, by simp, by simp, by simp [descAttrs]⟩
  | cons ra ras ih =>
    intro visited hras
    rw [descAttrs]
    by_cases hv : (tid, ra) ∈ visited
    · rw [if_pos hv]
      obtain ⟨news, h1, h2, h3, h4⟩ := ih visited (fun r hr => hras r (by simp [hr]))
      refine ⟨news, h1, fun r hr => ⟨by simp [(h2 r hr).1], (h2 r hr).2⟩, fun r hr => ?_, h4⟩
      rcases List.mem_cons.1 hr with rfl | hr
      · exact Or.inl hv
      · exact h3 r hr
    · rw [if_neg hv]
      have hd : descTiers igt t ra itemIds ((Dict.get? m ra).getD []) =
          ((refTiers igt ra tid).map (stepTo t ra itemIds), none) := by
        have := hm ra
        rw [if_pos (hras ra (by simp)), listed] at this
        rw [this]
        refine descTiers_ok h t ra itemIds _ fun u hu => ?_
        obtain ⟨h1, h2, _⟩ := mem_refTiers.1 hu
        exact ⟨h1, h2⟩
      simp only [hd]
      obtain ⟨news, h1, h2, h3, h4⟩ := ih (visited ++ [(tid, ra)]) (fun r hr => hras r (by simp [hr]))
      refine ⟨ra :: news, List.nodup_cons.2 ⟨?_, h1⟩, ?_, ?_, ?_⟩
      · intro hr
        have := (h2 ra hr).2
        simp at this
      · intro r hr
        rcases List.mem_cons.1 hr with rfl | hr
        · exact ⟨by simp, hv⟩
        · obtain ⟨h5, h6⟩ := h2 r hr
          exact ⟨by simp [h5], fun hx => h6 (by simp [hx])⟩
      · intro r hr
        rcases List.mem_cons.1 hr with rfl | hr
        · exact Or.inr (by simp)
        · rcases h3 r hr with h5 | h5
          · rcases List.mem_append.1 h5 with h5 | h5
            · exact Or.inl h5
            · simp only [List.mem_singleton, Prod.mk.injEq] at h5
              exact Or.inr (by simp [h5.2])
          · exact Or.inr (by simp [h5])
      · rw [h4]; simp

theorem mem_descFollow {all refattrs m ra} (h : ra ∈ descFollow all refattrs m) : ra ∈ refattrs := by
  rw [descFollow] at h
  split at h
  · exact (List.mem_filter.1 h).1
  · exact (List.mem_filter.1 (List.mem_of_mem_take h)).1

/-- one iteration of the loop -/
theorem descLoop_succ {allowed : Entry → List Str} {st : IgtState} (h : TiersOK st.igt) {refattrs : List Str}
    (hn : refattrs.Nodup) (all : Bool) (n : Nat) (visited : List (Str × Str)) (t : Obj) (items : List Obj)
    (agenda : List (Obj × List Obj)) (ht : t ∈ st.igt.kids) {tid} (hi : t.data.id = some tid) :
    ∃ news : List Str, news.Nodup ∧ (∀ ra ∈ news, ra ∈ refattrs ∧ (tid, ra) ∉ visited) ∧
      (all = true → ∀ ra ∈ refattrs, refTiers st.igt ra tid ≠ [] → (tid, ra) ∈ visited ∨ ra ∈ news) ∧
      ∃ steps, steps = (news.flatMap fun ra => (refTiers st.igt ra tid).map
          (stepTo t ra (items.filterMap fun i => i.data.id))) ∧
        descLoop allowed st refattrs all (n + 1) visited ((t, items) :: agenda) =
          (steps ++ (descLoop allowed st refattrs all n (visited ++ news.map fun ra => (tid, ra))
            (agenda ++ steps.map fun s => (s.tgt, s.items))).1,
           (descLoop allowed st refattrs all n (visited ++ news.map fun ra => (tid, ra))
            (agenda ++ steps.map fun s => (s.tgt, s.items))).2) := by
  obtain ⟨m, hm, hl⟩ := tierReferrers_ok (allowed := allowed) h ht hi hn
  obtain ⟨news, h1, h2, h3, h4⟩ := descAttrs_ok h t tid (items.filterMap fun i => i.data.id) m refattrs hl
    (descFollow all refattrs m) visited (fun ra hra => mem_descFollow hra)
  refine ⟨news, h1, fun ra hra => ⟨mem_descFollow (h2 ra hra).1, (h2 ra hra).2⟩, ?_, _, rfl, ?_⟩
  · rintro rfl ra hra hne
    refine h3 ra ?_
    rw [descFollow, if_pos rfl, List.mem_filter]
    refine ⟨hra, ?_⟩
    simp only [ne_eq, decide_not, Bool.not_eq_true', decide_eq_false_iff_not]
    intro hnil
    have hl' := hl ra
    rw [if_pos hra, listed, hnil] at hl'
    apply hne
    cases hr : refTiers st.igt ra tid with
    | nil => rfl
    | cons u us =>
      exfalso
      have hu := (mem_refTiers.1 (by rw [hr]; simp : u ∈ refTiers st.igt ra tid)).2.1
      rw [hr, List.filterMap_cons] at hl'
      cases hi' : u.data.id with
      | none => exact hu hi'
      | some j => rw [hi'] at hl'; cases hl'
  · rw [descLoop, hm]
    simp only [h4]

/-! ### termination -/

/-- the pairs that can be marked as visited -/
def pairs (igt : Obj) (refattrs : List Str) : List (Str × Str) :=
  (igt.kids.filterMap fun t => t.data.id).flatMap fun i => refattrs.map fun ra => (i, ra)

theorem pairs_length (igt : Obj) (refattrs : List Str) :
    (pairs igt refattrs).length ≤ igt.kids.length * refattrs.length := by
  rw [pairs, List.length_flatMap]
  have : ∀ l : List Str, (l.map fun i => (refattrs.map fun ra => (i, ra)).length).sum = l.length * refattrs.length := by
    intro l
    induction l with
    | nil => simp
    | cons a l ih => simp [Nat.succ_mul, Nat.add_comm] at ih ⊢; rw [ih]
  rw [this]
  exact Nat.mul_le_mul_right _ (List.length_filterMap_le _ _)

/-- how many of them are not yet visited -/
def unvisited (ps : List (Str × Str)) (visited : List (Str × Str)) : Nat :=
  (ps.filter fun p => !decide (p ∈ visited)).length

theorem unvisited_append (ps visited new : List (Str × Str)) (hn : new.Nodup)
    (h : ∀ p ∈ new, p ∈ ps ∧ p ∉ visited) : unvisited ps (visited ++ new) + new.length ≤ unvisited ps visited := by
  have h1 : ((ps.filter fun p => !decide (p ∈ visited ++ new)) ++ new).length =
      unvisited ps (visited ++ new) + new.length := by rw [List.length_append]; rfl
  rw [← h1, unvisited]
  -- count: split the unvisited pairs by membership in `new`
  have split : ∀ l : List (Str × Str), (l.filter fun p => !decide (p ∈ visited)).length =
      (l.filter fun p => !decide (p ∈ visited ++ new)).length +
      ((l.filter fun p => !decide (p ∈ visited)).filter fun p => decide (p ∈ new)).length := by
    intro l
    induction l with
    | nil => rfl
    | cons a l ih =>
      by_cases ha : a ∈ visited
      · have : a ∈ visited ++ new := by simp [ha]
        simp only [List.filter_cons, ha, this, decide_true, Bool.not_true, Bool.false_eq_true, if_false]
        exact ih
      · by_cases hb : a ∈ new
        · have : a ∈ visited ++ new := by simp [hb]
          simp only [List.filter_cons, ha, this, hb, decide_true, decide_false, Bool.not_true, Bool.not_false,
            Bool.false_eq_true, if_false, if_true, List.length_cons]
          rw [ih]; omega
        · have : a ∉ visited ++ new := by simp [ha, hb]
          simp only [List.filter_cons, ha, this, hb, decide_false, Bool.not_false,
            Bool.false_eq_true, if_false, if_true, List.length_cons]
          rw [ih]; omega
  rw [split ps, List.length_append]
  have : new.length ≤ ((ps.filter fun p => !decide (p ∈ visited)).filter fun p => decide (p ∈ new)).length := by
    refine nodup_length_le hn fun p hp => ?_
    obtain ⟨h1, h2⟩ := h p hp
    simp [h1, h2, hp]
  omega

theorem flatMap_length_le {α β : Type} (l : List α) (f : α → List β) (b : Nat) (h : ∀ a ∈ l, (f a).length ≤ b) :
    (l.flatMap f).length ≤ l.length * b := by
  induction l with
  | nil => simp
  | cons a l ih =>
    have h1 := h a (by simp)
    have h2 := ih fun x hx => h x (by simp [hx])
    simp only [List.flatMap_cons, List.length_append, List.length_cons, Nat.succ_mul]
    omega

/-- agenda entries are tiers of the igt with an ID -/
def AgendaOK (igt : Obj) (agenda : List (Obj × List Obj)) : Prop :=
  ∀ p ∈ agenda, p.1 ∈ igt.kids ∧ p.1.data.id ≠ none

theorem agendaOK_steps {igt : Obj} {agenda : List (Obj × List Obj)} (h : AgendaOK igt agenda) {news : List Str}
    {t tid its} : AgendaOK igt (agenda ++ ((news.flatMap fun ra => (refTiers igt ra tid).map
      (stepTo t ra its)).map fun s => (s.tgt, s.items))) := by
  intro p hp
  rcases List.mem_append.1 hp with hp | hp
  · exact h p hp
  · obtain ⟨s, hs, rfl⟩ := List.mem_map.1 hp
    obtain ⟨ra, _, hs⟩ := List.mem_flatMap.1 hs
    obtain ⟨u, hu, rfl⟩ := List.mem_map.1 hs
    obtain ⟨h1, h2, _⟩ := mem_refTiers.1 hu
    exact ⟨h1, h2⟩

theorem desc_terminates {allowed : Entry → List Str} {st : IgtState} (h : TiersOK st.igt) {refattrs : List Str}
    (hn : refattrs.Nodup) (all : Bool) : ∀ (n : Nat) (visited : List (Str × Str)) (agenda : List (Obj × List Obj)),
    AgendaOK st.igt agenda →
    agenda.length + unvisited (pairs st.igt refattrs) visited * st.igt.kids.length < n →
    (descLoop allowed st refattrs all n visited agenda).2 = .stop ∧
    (descLoop allowed st refattrs all n visited agenda).1.length ≤
      unvisited (pairs st.igt refattrs) visited * st.igt.kids.length := by
  intro n
  induction n with
  | zero => intro visited agenda _ hlt; omega
  | succ n ih =>
    intro visited agenda hag hlt
    cases agenda with
    | nil => exact ⟨rfl, by simp [descLoop]⟩
    | cons p agenda =>
      obtain ⟨t, items⟩ := p
      obtain ⟨ht, hid⟩ := hag (t, items) (by simp)
      cases hi : t.data.id with
      | none => exact absurd hi hid
      | some tid =>
        obtain ⟨news, h1, h2, _, steps, hsteps, he⟩ := descLoop_succ (allowed := allowed) h hn all n visited t items
          agenda ht hi
        rw [he]
        have hnew : unvisited (pairs st.igt refattrs) (visited ++ news.map fun ra => (tid, ra)) + news.length ≤
            unvisited (pairs st.igt refattrs) visited := by
          have := unvisited_append (pairs st.igt refattrs) visited (news.map fun ra => (tid, ra))
            (List.pairwise_map.2 (h1.imp fun hne he => hne (Prod.mk.inj he).2)) (by
              intro p hp
              obtain ⟨ra, hra, rfl⟩ := List.mem_map.1 hp
              refine ⟨?_, (h2 ra hra).2⟩
              simp only [pairs, List.mem_flatMap, List.mem_filterMap, List.mem_map]
              exact ⟨tid, ⟨t, ht, hi⟩, ra, (h2 ra hra).1, rfl⟩)
          simpa using this
        have hlen : steps.length ≤ news.length * st.igt.kids.length := by
          rw [hsteps]
          refine flatMap_length_le _ _ _ fun ra _ => ?_
          rw [List.length_map]; exact refTiers_length
        have hmul := Nat.mul_le_mul_right st.igt.kids.length hnew
        rw [Nat.add_mul] at hmul
        have := ih (visited ++ news.map fun ra => (tid, ra)) (agenda ++ steps.map fun s => (s.tgt, s.items))
          (by rw [hsteps]; exact agendaOK_steps fun p hp => hag p (by simp [hp]))
          (by simp only [List.length_append, List.length_map, List.length_cons] at hlt ⊢; omega)
        refine ⟨this.1, ?_⟩
        rw [List.length_append]
        omega

/-! ### C28 -/

/-- C28: `descendants` ends on every igt, cyclic or not, with at most (#tiers·#refattrs)·#tiers steps.
(A tier without ID has no referrers: XigtError at once.) -/
theorem C28_terminates (allowed : Entry → List Str) (st : IgtState) (h : TiersOK st.igt) (refattrs : List Str)
    (hn : refattrs.Nodup) (all : Bool) (t : Obj) (ht : t ∈ st.igt.kids) (items : List Obj) (n : Nat)
    (hlen : (st.igt.kids.length * refattrs.length) * st.igt.kids.length + 1 < n) :
    (descendants allowed st refattrs all n t items).2 ≠ .running ∧
    (t.data.id ≠ none → (descendants allowed st refattrs all n t items).2 = .stop) ∧
    (descendants allowed st refattrs all n t items).1.length ≤
      (st.igt.kids.length * refattrs.length) * st.igt.kids.length := by
  cases hi : t.data.id with
  | none =>
    obtain ⟨m, rfl⟩ : ∃ m, n = m + 1 := ⟨n - 1, by omega⟩
    have : descendants allowed st refattrs all (m + 1) t items = ([], .raised .xigtError) := by
      rw [descendants, descLoop, tierReferrers, hi]
    rw [this]
    exact ⟨by simp, by simp, by simp⟩
  | some tid =>
    have hu : unvisited (pairs st.igt refattrs) [] ≤ st.igt.kids.length * refattrs.length := by
      refine Nat.le_trans ?_ (pairs_length _ _)
      exact List.length_filter_le _ _
    have hmul := Nat.mul_le_mul_right st.igt.kids.length hu
    have := desc_terminates (allowed := allowed) h hn all n [] [(t, items)]
      (by intro p hp; simp at hp; subst hp; exact ⟨ht, by simp [hi]⟩) (by simp only [List.length_singleton]; omega)
    rw [descendants]
    refine ⟨by rw [this.1]; simp, fun _ => this.1, by omega⟩

/-! ### C29 -/

theorem stepTo_descStep {igt : Obj} {refattrs : List Str} {t u : Obj} {ra tid : Str} {items : List Obj}
    (hra : ra ∈ refattrs) (hi : t.data.id = some tid) (hu : u ∈ refTiers igt ra tid) :
    DescStep igt refattrs items (stepTo t ra (items.filterMap fun i => i.data.id) u) := by
  refine ⟨hra, ⟨tid, hi, mem_refTiers.1 hu⟩, ?_⟩
  simp only [stepTo]
  apply List.filter_congr
  intro x _
  refine Bool.eq_iff_iff.2 ⟨fun hx => ?_, fun hx => ?_⟩
  · obtain ⟨j, hj, hd⟩ := List.any_eq_true.1 hx
    obtain ⟨it, hit, hid⟩ := List.mem_filterMap.1 (of_decide_eq_true hd)
    exact decide_eq_true ⟨it, hit, j, hj, hid⟩
  · obtain ⟨it, hit, j, hj, hid⟩ := of_decide_eq_true hx
    exact List.any_eq_true.2 ⟨j, hj, decide_eq_true (List.mem_filterMap.2 ⟨it, hit, hid⟩)⟩

theorem desc_sound {allowed : Entry → List Str} {st : IgtState} (h : TiersOK st.igt) {refattrs : List Str}
    (hn : refattrs.Nodup) (all : Bool) : ∀ (n : Nat) (visited : List (Str × Str)) (agenda : List (Obj × List Obj)),
    AgendaOK st.igt agenda → ∀ pre s post,
    (descLoop allowed st refattrs all n visited agenda).1 = pre ++ s :: post →
    ∃ items, ((s.src, items) ∈ agenda ∨ ∃ s' ∈ pre, s.src = s'.tgt ∧ items = s'.items) ∧
      DescStep st.igt refattrs items s := by
  intro n
  induction n with
  | zero => intro visited agenda _ pre s post he; simp [descLoop] at he
  | succ n ih =>
    intro visited agenda hag pre s post heq
    cases agenda with
    | nil => simp [descLoop] at heq
    | cons p agenda =>
      obtain ⟨t, items⟩ := p
      obtain ⟨ht, hid⟩ := hag (t, items) (by simp)
      cases hi : t.data.id with
      | none => exact absurd hi hid
      | some tid =>
        obtain ⟨news, h1, h2, _, steps, hsteps, he⟩ := descLoop_succ (allowed := allowed) h hn all n visited t items
          agenda ht hi
        rw [he] at heq
        simp only at heq
        have here : ∀ s ∈ steps, s.src = t ∧ DescStep st.igt refattrs items s := by
          intro s hs
          rw [hsteps] at hs
          obtain ⟨ra, hra, hs⟩ := List.mem_flatMap.1 hs
          obtain ⟨u, hu, rfl⟩ := List.mem_map.1 hs
          exact ⟨rfl, stepTo_descStep (h2 ra hra).1 hi hu⟩
        have hag' : AgendaOK st.igt (agenda ++ steps.map fun s => (s.tgt, s.items)) := by
          rw [hsteps]; exact agendaOK_steps fun p hp => hag p (by simp [hp])
        rcases List.append_eq_append_iff.1 heq with ⟨a, rfl, ha⟩ | ⟨c, hc, hd⟩
        · -- in the later part
          obtain ⟨its, hor, hst⟩ := ih _ _ hag' a s post ha
          refine ⟨its, ?_, hst⟩
          rcases hor with hor | ⟨s', hs', h3, h4⟩
          · rcases List.mem_append.1 hor with hor | hor
            · exact Or.inl (by simp [hor])
            · obtain ⟨s', hs', he'⟩ := List.mem_map.1 hor
              simp only [Prod.mk.injEq] at he'
              exact Or.inr ⟨s', by simp [hs'], he'.1.symm, he'.2.symm⟩
          · exact Or.inr ⟨s', by simp [hs'], h3, h4⟩
        · cases c with
          | nil =>
            simp only [List.append_nil, List.nil_append] at hc hd
            obtain ⟨its, hor, hst⟩ := ih _ _ hag' [] s post hd.symm
            refine ⟨its, ?_, hst⟩
            rcases hor with hor | ⟨s', hs', _⟩
            · rcases List.mem_append.1 hor with hor | hor
              · exact Or.inl (by simp [hor])
              · obtain ⟨s', hs', he'⟩ := List.mem_map.1 hor
                simp only [Prod.mk.injEq] at he'
                exact Or.inr ⟨s', by rw [← hc]; exact hs', he'.1.symm, he'.2.symm⟩
            · cases hs'
          | cons s0 c =>
            simp only [List.cons_append, List.cons.injEq] at hd
            obtain ⟨rfl, _⟩ := hd
            obtain ⟨h3, h4⟩ := here s (by rw [hc]; simp)
            exact ⟨items, Or.inl (by simp [h3]), h4⟩

/-- C29, soundness (for both values of `follow`, however long it runs): every step goes from the start
tier or from the result of an earlier step, to a tier that refers to it, with exactly the items that
refer to one of the given items. -/
theorem C29_sound (allowed : Entry → List Str) (st : IgtState) (h : TiersOK st.igt) (refattrs : List Str)
    (hn : refattrs.Nodup) (all : Bool) (n : Nat) (t : Obj) (ht : t ∈ st.igt.kids) (hid : t.data.id ≠ none)
    (items : List Obj) (pre post : List Step) (s : Step)
    (hs : (descendants allowed st refattrs all n t items).1 = pre ++ s :: post) :
    ∃ its, ((s.src = t ∧ its = items) ∨ ∃ s' ∈ pre, s.src = s'.tgt ∧ its = s'.items) ∧
      DescStep st.igt refattrs its s := by
  obtain ⟨its, hor, hst⟩ := desc_sound (allowed := allowed) h hn all n [] [(t, items)]
    (by intro p hp; simp at hp; subst hp; exact ⟨ht, hid⟩) pre s post hs
  refine ⟨its, ?_, hst⟩
  rcases hor with hor | hor
  · simp at hor; exact Or.inl hor
  · exact Or.inr hor

theorem desc_complete {allowed : Entry → List Str} {st : IgtState} (h : TiersOK st.igt) {refattrs : List Str}
    (hn : refattrs.Nodup) : ∀ (n : Nat) (visited : List (Str × Str)) (agenda : List (Obj × List Obj)),
    AgendaOK st.igt agenda → (descLoop allowed st refattrs true n visited agenda).2 = .stop →
    ∀ t, (t ∈ agenda.map Prod.fst ∨ t ∈ (descLoop allowed st refattrs true n visited agenda).1.map Step.tgt) →
    ∀ tid, t.data.id = some tid → ∀ ra ∈ refattrs, ∀ u, RefersTo st.igt ra u tid →
      (tid, ra) ∈ visited ∨ u ∈ (descLoop allowed st refattrs true n visited agenda).1.map Step.tgt := by
  intro n
  induction n with
  | zero => intro visited agenda _ he; simp [descLoop] at he
  | succ n ih =>
    intro visited agenda hag hstop
    cases agenda with
    | nil =>
      intro t ht
      simp [descLoop] at ht
    | cons p agenda =>
      obtain ⟨t0, items⟩ := p
      obtain ⟨ht0, hid0⟩ := hag (t0, items) (by simp)
      cases hi0 : t0.data.id with
      | none => exact absurd hi0 hid0
      | some tid0 =>
        obtain ⟨news, h1, h2, h3, steps, hsteps, he⟩ := descLoop_succ (allowed := allowed) h hn true n visited t0 items
          agenda ht0 hi0
        rw [he] at hstop ⊢
        simp only at hstop ⊢
        have hag' : AgendaOK st.igt (agenda ++ steps.map fun s => (s.tgt, s.items)) := by
          rw [hsteps]; exact agendaOK_steps fun p hp => hag p (by simp [hp])
        -- a pair marked in this iteration has been followed
        have follow : ∀ ra ∈ news, ∀ u, RefersTo st.igt ra u tid0 → u ∈ steps.map Step.tgt := by
          intro ra hra u hu
          rw [hsteps, List.mem_map]
          exact ⟨stepTo t0 ra _ u, List.mem_flatMap.2 ⟨ra, hra, List.mem_map.2 ⟨u, mem_refTiers.2 hu, rfl⟩⟩, rfl⟩
        intro t ht tid hi ra hra u hu
        have fin : ∀ t tid, t.data.id = some tid → RefersTo st.igt ra u tid →
            (t ∈ (agenda ++ steps.map fun s => (s.tgt, s.items)).map Prod.fst ∨
             t ∈ (descLoop allowed st refattrs true n (visited ++ news.map fun ra => (tid0, ra))
              (agenda ++ steps.map fun s => (s.tgt, s.items))).1.map Step.tgt) →
            (tid, ra) ∈ visited ∨ u ∈ (steps ++ (descLoop allowed st refattrs true n
              (visited ++ news.map fun ra => (tid0, ra)) (agenda ++ steps.map fun s => (s.tgt, s.items))).1).map
                Step.tgt := by
          intro t tid hi hu ht
          rcases ih _ _ hag' hstop t ht tid hi ra hra u hu with h5 | h5
          · rcases List.mem_append.1 h5 with h5 | h5
            · exact Or.inl h5
            · obtain ⟨rb, hrb, he'⟩ := List.mem_map.1 h5
              simp only [Prod.mk.injEq] at he'
              obtain ⟨rfl, rfl⟩ := he'
              have := follow rb hrb u hu
              rw [List.map_append]
              exact Or.inr (List.mem_append_left _ this)
          · rw [List.map_append]
            exact Or.inr (List.mem_append_right _ h5)
        rcases ht with ht | ht
        · rcases List.mem_cons.1 ht with rfl | ht
          · rw [hi0] at hi
            cases hi
            have hne : refTiers st.igt ra tid0 ≠ [] := List.ne_nil_of_mem (mem_refTiers.2 hu)
            rcases h3 rfl ra hra hne with h5 | h5
            · exact Or.inl h5
            · rw [List.map_append]
              exact Or.inr (List.mem_append_left _ (follow ra h5 u hu))
          · exact fin t tid hi hu (Or.inl (by rw [List.map_append]; exact List.mem_append_left _ ht))
        · rw [List.map_append] at ht
          rcases List.mem_append.1 ht with ht | ht
          · refine fin t tid hi hu (Or.inl ?_)
            rw [List.map_append]
            refine List.mem_append_right _ ?_
            obtain ⟨s, hs, rfl⟩ := List.mem_map.1 ht
            exact List.mem_map.2 ⟨(s.tgt, s.items), List.mem_map.2 ⟨s, hs, rfl⟩, rfl⟩
          · exact fin t tid hi hu (Or.inr ht)

/-- C29, completeness for follow="all", where it holds: every tier with an ID that refers directly or
indirectly (through tiers with IDs) to the start tier is reached.
Missing: referring tiers without ID (`C29_refuted`). -/
theorem C29_partial (allowed : Entry → List Str) (st : IgtState) (h : TiersOK st.igt) (refattrs : List Str)
    (hn : refattrs.Nodup) (t : Obj) (ht : t ∈ st.igt.kids) (hid : t.data.id ≠ none) (items : List Obj) (n : Nat)
    (hlen : (st.igt.kids.length * refattrs.length) * st.igt.kids.length + 1 < n)
    (u : Obj) (hu : RefersVia st.igt refattrs t u) :
    u ∈ (descendants allowed st refattrs true n t items).1.map Step.tgt := by
  have hstop := (C28_terminates allowed st h refattrs hn true t ht items n hlen).2.1 hid
  have key := desc_complete (allowed := allowed) h hn n [] [(t, items)]
    (by intro p hp; simp at hp; subst hp; exact ⟨ht, hid⟩) hstop
  induction hu with
  | direct hra hi hu =>
    rcases key t (Or.inl (by simp)) _ hi _ hra _ hu with h1 | h1
    · cases h1
    · exact h1
  | step _ hra hi hv ih =>
    rcases key _ (Or.inr ih) _ hi _ hra _ hv with h1 | h1
    · cases h1
    · exact h1

/-- C66, where it holds: the items that refer directly to a start item are all listed, each tier and
reference attribute in a step of its own.
Missing: items that refer indirectly, when the tier between is reached more than once (`C66_refuted`). -/
theorem C66_partial (allowed : Entry → List Str) (st : IgtState) (h : TiersOK st.igt) (refattrs : List Str)
    (hn : refattrs.Nodup) (t : Obj) (ht : t ∈ st.igt.kids) (tid : Str) (hid : t.data.id = some tid)
    (items : List Obj) (n : Nat) (u : Obj) (ra : Str) (hra : ra ∈ refattrs) (hu : RefersTo st.igt ra u tid)
    (x a : Obj) (i : Str) (hx : x ∈ u.kids) (ha : a ∈ items) (hi : a.data.id = some i)
    (hxi : i ∈ ids (attr0 x ra)) :
    ∃ s ∈ (descendants allowed st refattrs true (n + 1) t items).1,
      s.src = t ∧ s.ra = ra ∧ s.tgt = u ∧ x ∈ s.items := by
  obtain ⟨news, _, h2, h3, steps, hsteps, he⟩ := descLoop_succ (allowed := allowed) h hn true n [] t items [] ht hid
  have hnew : ra ∈ news := by
    rcases h3 rfl ra hra (List.ne_nil_of_mem (mem_refTiers.2 hu)) with h5 | h5
    · cases h5
    · exact h5
  refine ⟨stepTo t ra (items.filterMap fun i => i.data.id) u, ?_, rfl, rfl, rfl, ?_⟩
  · rw [descendants, he, hsteps]
    exact List.mem_append_left _ (List.mem_flatMap.2 ⟨ra, hnew, List.mem_map.2 ⟨u, mem_refTiers.2 hu, rfl⟩⟩)
  · refine List.mem_filter.2 ⟨hx, List.any_eq_true.2 ⟨i, hxi, decide_eq_true (List.mem_filterMap.2 ⟨a, ha, hi⟩)⟩⟩
end

/-! ### Refutations and examples -/

section
attribute [local instance] asciiUni

/-- C29 fails for a referring tier without ID: it is not reached. -/
theorem C29_refuted : ∃ (igt t u : Obj), TiersOK igt ∧ t ∈ igt.kids ∧ u ∈ igt.kids ∧
    (∃ tid, t.data.id = some tid ∧ tid ∈ ids (attr0 u SEGMENTATION)) ∧
    descendants stdAllowed (newIgt stdAllowed igt) [SEGMENTATION, ALIGNMENT] true 100 t t.kids = ([], .stop) := by
  refine ⟨mkIgt [mkTier "w" [] [], .mk { cls := .tier, attrs := [(SEGMENTATION, ['w'])] } [] []],
    mkTier "w" [] [], .mk { cls := .tier, attrs := [(SEGMENTATION, ['w'])] } [] [],
    ⟨by decide +kernel, by decide +kernel⟩, List.mem_cons_self ..,
    List.mem_cons_of_mem _ (List.mem_cons_self ..), ⟨['w'], rfl, by decide +kernel⟩, rfl⟩

/-- C66 fails: item `c2` refers to `b2`, which refers to the start item `a1` by alignment, but tier `b`
is reached twice and only the first time (by segmentation, with `b1`) is it followed. -/
theorem C66_refuted : ∃ (igt t : Obj) (c2 b2 a1 : Obj), IgtOK igt ∧ t ∈ igt.kids ∧ a1 ∈ t.kids ∧
    (∃ i, a1.data.id = some i ∧ i ∈ ids (attr0 b2 ALIGNMENT)) ∧
    (∃ i, b2.data.id = some i ∧ i ∈ ids (attr0 c2 SEGMENTATION)) ∧
    (∃ tb ∈ igt.kids, b2 ∈ tb.kids ∧ ∃ tc ∈ igt.kids, c2 ∈ tc.kids ∧
      RefersTo igt ALIGNMENT tb (t.data.id.getD []) ∧ RefersTo igt SEGMENTATION tc (tb.data.id.getD [])) ∧
    ∀ s ∈ (descendants stdAllowed (newIgt stdAllowed igt) [SEGMENTATION, ALIGNMENT] true 100 t [a1]).1,
      ∀ i ∈ s.items, i.data.id ≠ c2.data.id := by
  refine ⟨mkIgt [mkTier "a" [] [mkItem "a1" []],
      mkTier "b" [("segmentation", "a"), ("alignment", "a")] [mkItem "b1" [("segmentation", "a1")],
        mkItem "b2" [("alignment", "a1")]],
      mkTier "c" [("segmentation", "b")] [mkItem "c1" [("segmentation", "b1")], mkItem "c2" [("segmentation", "b2")]]],
    mkTier "a" [] [mkItem "a1" []], mkItem "c2" [("segmentation", "b2")], mkItem "b2" [("alignment", "a1")],
    mkItem "a1" [], ⟨by decide +kernel, by decide +kernel⟩, List.mem_cons_self .., List.mem_cons_self ..,
    ⟨"a1".toList, rfl, by decide +kernel⟩, ⟨"b2".toList, rfl, by decide +kernel⟩, ?_, by decide +kernel⟩
  refine ⟨_, List.mem_cons_of_mem _ (List.mem_cons_self ..), List.mem_cons_of_mem _ (List.mem_cons_self ..),
    _, List.mem_cons_of_mem _ (List.mem_cons_of_mem _ (List.mem_cons_self ..)),
    List.mem_cons_of_mem _ (List.mem_cons_self ..), ⟨List.mem_cons_of_mem _ (List.mem_cons_self ..), by decide, by decide +kernel⟩,
    ⟨List.mem_cons_of_mem _ (List.mem_cons_of_mem _ (List.mem_cons_self ..)), by decide, by decide +kernel⟩⟩

/-- a cyclic igt on which `descendants` ends -/
example : ((descendants stdAllowed (newIgt stdAllowed exLoopIgt) [SEGMENTATION, ALIGNMENT] true 30
      (mkTier "ab" [("segmentation", "cd")] []) []).1.map fun s => (s.src.data.id, s.tgt.data.id)) =
    [(some "ab".toList, some "s1".toList), (some "ab".toList, some "cd".toList),
     (some "cd".toList, some "ab".toList)] := by decide +kernel
example : TiersOK exLoopIgt := ⟨by decide +kernel, by decide +kernel⟩

/-- `g` refers indirectly to `w` in the example igt -/
example : RefersVia exRefIgt [SEGMENTATION, ALIGNMENT] (mkTier "w" [] [mkItem "w1" [], mkItem "w2" []])
    (mkTier "g" [("alignment", "m")] [mkItem "g1" [("alignment", "m1,m2")]]) := by
  refine .step (u := mkTier "m" [("segmentation", "w")] [mkItem "m1" [("segmentation", "w1")],
    mkItem "m2" [("segmentation", "w1+w2")]]) (.direct (ra := SEGMENTATION) (by decide +kernel) rfl
      ⟨List.mem_cons_of_mem _ (List.mem_cons_self ..), by decide, by decide +kernel⟩) (ra := ALIGNMENT)
      (by decide +kernel) rfl
      ⟨List.mem_cons_of_mem _ (List.mem_cons_of_mem _ (List.mem_cons_self ..)), by decide, by decide +kernel⟩
end

end Xigt
