import Verif.Igt.QuerySpec
import Verif.Igt.RefProps
import Verif.Igt.ValueProps
import Verif.Ref.Props
/-
Properties of `ancestors`: C26, C27, C65.
-/

set_option linter.unusedSectionVars false
set_option linter.unusedSimpArgs false

namespace Xigt
section
variable [Uni]

theorem firstAttr_iff {refattrs : List Str} {t : Obj} {ra} :
    refattrs.find? (fun ra => Dict.has t.data.attrs ra) = some ra ↔ FirstAttr refattrs t ra := by
  rw [List.find?_eq_some_iff_append]
  constructor
  · rintro ⟨h, pre, post, rfl, hp⟩
    refine ⟨pre, post, rfl, exists_mem_iff.2 h, fun r hr v hv => ?_⟩
    have := hp r hr
    rw [exists_mem_iff.1 ⟨v, hv⟩] at this
    cases this
  · rintro ⟨pre, post, rfl, h, hp⟩
    refine ⟨exists_mem_iff.1 h, pre, post, rfl, fun r hr => ?_⟩
    cases hh : Dict.has t.data.attrs r with
    | false => rfl
    | true => obtain ⟨v, hv⟩ := exists_mem_iff.2 hh; exact absurd hv (hp r hr v)

theorem ids_accepted {s i : Str} (h : i ∈ ids s) : idAccepted i = true := by
  obtain ⟨⟨c, cs, rfl, hc, _⟩, _⟩ := C13_ids_occur s i h
  exact (idAccepted_iff _).2 ⟨c, cs, rfl, hc⟩

theorem refersFirst_unique {igt : Obj} {refattrs t u v} (h : RefersFirst igt refattrs t u)
    (h' : RefersFirst igt refattrs t v) : u = v := by
  obtain ⟨ra, i, rest, h1, _, h2, h3⟩ := h
  obtain ⟨rb, j, rest', h1', _, h2', h3'⟩ := h'
  have : ra = rb := by
    rw [← firstAttr_iff] at h1 h1'
    rw [h1] at h1'; exact Option.some.inj h1'
  subst this
  rw [h2] at h2'
  cases h2'
  rw [h3] at h3'
  exact Option.some.inj h3'

theorem contGet_find {igt : Obj} {i u} (hi : idAccepted i = true) (h : contGet igt.kids i = some u) :
    u ∈ igt.kids ∧ u.data.id = some i := by
  rw [contGet_id hi] at h
  exact ⟨List.mem_of_find?_eq_some h, by simpa using List.find?_some h⟩

theorem refersFirst_mem {igt : Obj} {refattrs} (t u) (h : RefersFirst igt refattrs t u) :
    u ∈ igt.kids := by
  obtain ⟨ra, i, rest, _, _, h2, h3⟩ := h
  exact (contGet_find (ids_accepted (by rw [h2]; simp)) h3).1

/-- characters of a string, as `visited.update(id)` adds them -/
def charIds (s : Str) : List (Option Str) := s.map fun ch => some [ch]

theorem attr0_of_mem {t : Obj} {ra e : Str} (h : Dict.get? t.data.attrs ra = some e) : attr0 t ra = e := by
  rw [attr0, h]; rfl

theorem ancLoop_succ (st : IgtState) (refattrs : List Str) (n : Nat) (visited : List (Option Str)) (t : Obj)
    (items : List Obj) :
    ((∀ u, ¬ RefersFirst st.igt refattrs t u) ∧ ∃ e, ancLoop st refattrs (n + 1) visited t items = ([], e) ∧
      e ≠ .running ∧ (e = .stop → ∀ ra, FirstAttr refattrs t ra → ra = [])) ∨
    ∃ u i s, RefersFirst st.igt refattrs t u ∧ AncStep st.igt refattrs t items s ∧ s.tgt = u ∧
      u.data.id = some i ∧
      ((some i ∈ visited ∧ ancLoop st refattrs (n + 1) visited t items = ([s], .stop)) ∨
       (some i ∉ visited ∧ ancLoop st refattrs (n + 1) visited t items =
         (s :: (ancLoop st refattrs n (visited ++ charIds i) u s.items).1,
          (ancLoop st refattrs n (visited ++ charIds i) u s.items).2))) := by
  rw [ancLoop]
  cases hf : refattrs.find? (fun ra => Dict.has t.data.attrs ra) with
  | none =>
    refine Or.inl ⟨?_, .stop, rfl, by simp, ?_⟩
    · rintro u ⟨ra, i, rest, h1, _⟩
      rw [← firstAttr_iff, hf] at h1; cases h1
    · intro _ ra h1
      rw [← firstAttr_iff, hf] at h1; cases h1
  | some ra =>
    have hfa := firstAttr_iff.1 hf
    cases ra with
    | nil =>
      refine Or.inl ⟨?_, .stop, rfl, by simp, ?_⟩
      · rintro u ⟨ra, i, rest, h1, hne, _⟩
        rw [← firstAttr_iff, hf] at h1; cases h1; exact hne rfl
      · intro _ ra h1
        rw [← firstAttr_iff, hf] at h1; cases h1; rfl
    | cons c cs =>
      have hv : ∃ v, Dict.get? t.data.attrs (c :: cs) = some v := by
        rw [← Dict.has_true_iff]
        simpa using List.find?_some hf
      obtain ⟨v, hv⟩ := hv
      have only : ∀ u, RefersFirst st.igt refattrs t u → ∃ i rest, ids v = i :: rest ∧
          contGet st.igt.kids i = some u := by
        rintro u ⟨ra, i, rest, h1, _, h2, h3⟩
        rw [← firstAttr_iff, hf] at h1; cases h1
        rw [attr0_of_mem hv] at h2
        exact ⟨i, rest, h2, h3⟩
      cases hids : ids v with
      | nil =>
        have hd : dereference st t (c :: cs) = .error .indexError := by
          simp only [dereference, Dict.getItem, hv, bind, Except.bind, hids]
        refine Or.inl ⟨?_, .raised .indexError, by simp only [hd], by simp, by simp⟩
        intro u hu
        obtain ⟨i, rest, h, _⟩ := only u hu
        rw [hids] at h; cases h
      | cons i rest =>
        have hia : idAccepted i = true := ids_accepted (s := v) (by rw [hids]; simp)
        have hd : dereference st t (c :: cs) = .ok (getAny st i) := by
          simp only [dereference, Dict.getItem, hv, bind, Except.bind, hids]
        simp only [hd]
        cases hc : contGet st.igt.kids i with
        | none =>
          have nou : ∀ u, ¬ RefersFirst st.igt refattrs t u := by
            intro u hu
            obtain ⟨j, rest', h, h'⟩ := only u hu
            rw [hids] at h; cases h
            rw [hc] at h'; cases h'
          have hg : getAny st i = igtGetItem st (some i) := by rw [getAny, hc]
          rw [hg]
          refine Or.inl ⟨nou, ?_⟩
          cases hgi : igtGetItem st (some i) with
          | none => exact ⟨_, rfl, by simp, by simp⟩
          | some e =>
            obtain ⟨n, _, rfl⟩ := Option.map_eq_some_iff.1 hgi
            exact ⟨_, rfl, by simp, by simp⟩
        | some u =>
          obtain ⟨hu1, hu2⟩ := contGet_find hia hc
          have hg : getAny st i = some { tier := none, obj := u } := by rw [getAny, hc]
          simp only [hg, hu2]
          have hst : AncStep st.igt refattrs t items
              { src := t, ra := c :: cs, tgt := u, items := refItems (c :: cs) items u } := by
            refine ⟨rfl, hfa, ⟨i, rest, by rw [attr0_of_mem hv, hids], hu1, hu2⟩, ?_⟩
            simp only [refItems]
            apply List.filter_congr
            intro x _
            rw [Bool.eq_iff_iff]
            simp only [List.any_eq_true, decide_eq_true_eq, List.mem_flatMap]
            constructor
            · rintro ⟨j, ⟨it, hit, hj⟩, hx⟩; exact ⟨it, hit, j, hj, hx⟩
            · rintro ⟨it, hit, j, hj, hx⟩; exact ⟨j, ⟨it, hit, hj⟩, hx⟩
          refine Or.inr ⟨u, i, _, ⟨c :: cs, i, rest, hfa, by simp, by rw [attr0_of_mem hv, hids], hc⟩, hst, rfl, hu2, ?_⟩
          by_cases hm : some i ∈ visited
          · exact Or.inl ⟨hm, by rw [if_pos hm]⟩
          · exact Or.inr ⟨hm, by rw [if_neg hm]; rfl⟩

/-- while it runs, there is a chain of references -/
theorem anc_running_chain {st : IgtState} {refattrs : List Str} : ∀ {n visited t items},
    (ancLoop st refattrs n visited t items).2 = .running →
    ∃ z, Chain (RefersFirst st.igt refattrs) n t z := by
  intro n
  induction n with
  | zero => intro visited t items _; exact ⟨t, .zero t⟩
  | succ n ih =>
    intro visited t items h
    rcases ancLoop_succ st refattrs n visited t items with ⟨_, e, he, hr, _⟩ |
      ⟨u, i, s, hr, _, _, _, ⟨_, he⟩ | ⟨_, he⟩⟩
    · rw [he] at h; exact absurd h hr
    · rw [he] at h; cases h
    · rw [he] at h
      obtain ⟨z, hz⟩ := ih h
      exact ⟨z, .step hr hz⟩

theorem chain_succ_inv {α : Type} {R : α → α → Prop} {n x z} (h : Chain R (n + 1) x z) :
    ∃ y, R x y ∧ Chain R n y z := by
  cases h with | step r h => exact ⟨_, r, h⟩

/-- while it runs, no visited tier is met -/
theorem anc_running_visited {st : IgtState} {refattrs : List Str} : ∀ {n visited t items},
    (ancLoop st refattrs n visited t items).2 = .running → ∀ k z, k + 1 ≤ n →
    Chain (RefersFirst st.igt refattrs) (k + 1) t z → z.data.id ∉ visited := by
  intro n
  induction n with
  | zero => intro visited t items _ k z hk; omega
  | succ n ih =>
    intro visited t items h k z hk hc
    obtain ⟨u', hu', hc'⟩ := chain_succ_inv hc
    rcases ancLoop_succ st refattrs n visited t items with ⟨_, e, he, hr, _⟩ |
      ⟨u, i, s, hr, _, _, hi, ⟨_, he⟩ | ⟨hv, he⟩⟩
    · rw [he] at h; exact absurd h hr
    · rw [he] at h; cases h
    · have := refersFirst_unique hu' hr
      subst this
      rw [he] at h
      cases k with
      | zero =>
        cases hc' with
        | zero => rw [hi]; exact hv
      | succ k =>
        have := ih h k z (by omega) hc'
        simp only [List.mem_append] at this
        exact fun hm => this (Or.inl hm)

/-- while it runs, a tier with a one-character ID is met once only -/
theorem anc_running_once {st : IgtState} {refattrs : List Str} : ∀ {n visited t items},
    (ancLoop st refattrs n visited t items).2 = .running → ∀ k m z y c, (k + 1) + (m + 1) ≤ n →
    Chain (RefersFirst st.igt refattrs) (k + 1) t z → z.data.id = some [c] →
    Chain (RefersFirst st.igt refattrs) (m + 1) z y → y.data.id ≠ some [c] := by
  intro n
  induction n with
  | zero => intro visited t items _ k m z y c hk; omega
  | succ n ih =>
    intro visited t items h k m z y c hk hc hz hy
    obtain ⟨u', hu', hc'⟩ := chain_succ_inv hc
    rcases ancLoop_succ st refattrs n visited t items with ⟨_, e, he, hr, _⟩ |
      ⟨u, i, s, hr, _, _, hi, ⟨_, he⟩ | ⟨hv, he⟩⟩
    · rw [he] at h; exact absurd h hr
    · rw [he] at h; cases h
    · have := refersFirst_unique hu' hr
      subst this
      rw [he] at h
      cases k with
      | zero =>
        cases hc' with
        | zero =>
          rw [hz] at hi
          have hi' := Option.some.inj hi
          subst hi'
          have := anc_running_visited h m y (by omega) hy
          simp only [List.mem_append, charIds, List.map_cons, List.map_nil, List.mem_cons, List.not_mem_nil,
            or_false, not_or] at this
          exact this.2
      | succ k => exact ih h k m z y c (by omega) hc' hz hy

/-! ### C26 -/

/-- every reference cycle that is reached from `t` contains `t` itself or a tier whose ID is a
single character -/
def CyclesCaught (igt : Obj) (refattrs : List Str) (t : Obj) : Prop :=
  ∀ k y j, Chain (RefersFirst igt refattrs) k t y → Chain (RefersFirst igt refattrs) (j + 1) y y →
    ∃ a b z, a + b = j + 1 ∧ Chain (RefersFirst igt refattrs) a y z ∧
      Chain (RefersFirst igt refattrs) b z y ∧ (z = t ∨ ∃ c, z.data.id = some [c])

/-- C26, where it holds: if every cycle is caught (in particular if there is none), `ancestors` ends
after at most 2·#tiers+3 iterations.
Missing: cycles that avoid the start tier and have only IDs of two or more characters; there it never
ends (`C26_diverges`). -/
theorem C26_partial (st : IgtState) (refattrs : List Str) (t : Obj) (items : List Obj)
    (hc : CyclesCaught st.igt refattrs t) (n : Nat) (hn : 2 * st.igt.kids.length + 3 ≤ n) :
    (ancestors st refattrs n t items).2 ≠ .running := by
  intro h
  rw [ancestors] at h
  obtain ⟨z, hz⟩ := anc_running_chain h
  obtain ⟨z, hz⟩ := hz.prefix (st.igt.kids.length + 1) (by omega)
  obtain ⟨y, k, j, hk, hj, hkj⟩ := hz.cycle_le st.igt.kids refersFirst_mem (by omega)
  obtain ⟨a, b, w, hab, ha, hb, hw⟩ := hc k y j hk hj
  have hcyc : Chain (RefersFirst st.igt refattrs) (j + 1) w w := by
    have := hb.trans ha
    rwa [Nat.add_comm, hab] at this
  have hto := hk.trans ha
  rcases hw with rfl | ⟨c, hw⟩
  · exact anc_running_visited h j w (by omega) hcyc (by simp)
  · cases hka : k + a with
    | zero =>
      rw [hka] at hto
      cases hto
      exact anc_running_visited h j _ (by omega) hcyc (by simp)
    | succ m =>
      rw [hka] at hto
      exact anc_running_once h m j w w c (by omega) hto hw hcyc hw

/-- C26 for igts without reference cycles -/
theorem C26_partial_acyclic (st : IgtState) (refattrs : List Str) (t : Obj) (items : List Obj)
    (hc : ∀ y j, ¬ Chain (RefersFirst st.igt refattrs) (j + 1) y y) (n : Nat)
    (hn : 2 * st.igt.kids.length + 3 ≤ n) : (ancestors st refattrs n t items).2 ≠ .running :=
  C26_partial st refattrs t items (fun _ y j _ hj => absurd hj (hc y j)) n hn

/-- C26 fails: whenever a reference cycle is reached that avoids the start tier, and no tier met has
an ID of one character, `ancestors` never ends. -/
theorem C26_diverges (st : IgtState) (refattrs : List Str) (t : Obj) (items : List Obj)
    (hcyc : ∃ k y j, Chain (RefersFirst st.igt refattrs) k t y ∧ Chain (RefersFirst st.igt refattrs) (j + 1) y y)
    (hne : ∀ k z, Chain (RefersFirst st.igt refattrs) (k + 1) t z →
      z.data.id ≠ t.data.id ∧ ∀ c, z.data.id ≠ some [c]) (n : Nat) :
    (ancestors st refattrs n t items).2 = .running ∧ (ancestors st refattrs n t items).1.length = n := by
  obtain ⟨k, y, j, hk, hj⟩ := hcyc
  have inf : ∀ m, ∃ z, Chain (RefersFirst st.igt refattrs) m t z := by
    intro m
    refine (hk.trans (hj.repeat m)).prefix m ?_
    have : m ≤ m * (j + 1) := Nat.le_mul_of_pos_right m (by omega)
    omega
  have key : ∀ n visited u items, (∃ k, Chain (RefersFirst st.igt refattrs) k t u) →
      (∀ m, ∃ z, Chain (RefersFirst st.igt refattrs) m u z) →
      (∀ v ∈ visited, v = t.data.id ∨ ∃ c, v = some [c]) →
      (ancLoop st refattrs n visited u items).2 = .running ∧
      (ancLoop st refattrs n visited u items).1.length = n := by
    intro n
    induction n with
    | zero => intro visited u items _ _ _; exact ⟨rfl, rfl⟩
    | succ n ih =>
      intro visited u items ⟨k, hk⟩ hinf hv
      rcases ancLoop_succ st refattrs n visited u items with ⟨hno, _⟩ |
        ⟨w, i, s, hr, _, hw, hi, ⟨hm, he⟩ | ⟨_, he⟩⟩
      · obtain ⟨z, hz⟩ := hinf 1
        obtain ⟨w, hw, _⟩ := chain_succ_inv hz
        exact absurd hw (hno w)
      · exfalso
        have hkw : Chain (RefersFirst st.igt refattrs) (k + 1) t w := hk.trans (.step hr (.zero w))
        obtain ⟨h1, h2⟩ := hne k w hkw
        rw [hi] at h1 h2
        rcases hv _ hm with h | ⟨c, h⟩
        · exact h1 h
        · exact h2 c h
      · rw [he]
        have := ih (visited ++ charIds i) w s.items ⟨k + 1, hk.trans (.step hr (.zero w))⟩ (by
            intro m
            obtain ⟨z, hz⟩ := hinf (m + 1)
            obtain ⟨w', hw', hz'⟩ := chain_succ_inv hz
            have := refersFirst_unique hw' hr
            subst this
            exact ⟨z, hz'⟩) (by
            intro v hv'
            rcases List.mem_append.1 hv' with hv' | hv'
            · exact hv v hv'
            · obtain ⟨c, _, rfl⟩ := List.mem_map.1 hv'
              exact Or.inr ⟨c, rfl⟩)
        exact ⟨this.1, by simp [this.2]⟩
  exact key n _ t items ⟨0, .zero t⟩ inf (by intro v hv; simp at hv; exact Or.inl hv)

/-! ### C27 -/

/-- C27: however long it runs, each step of `ancestors` is a step up, going on from the one before. -/
theorem C27_steps (st : IgtState) (refattrs : List Str) (n : Nat) (t : Obj) (items : List Obj) :
    AncSteps st.igt refattrs t items (ancestors st refattrs n t items).1 := by
  have key : ∀ n visited t items, AncSteps st.igt refattrs t items (ancLoop st refattrs n visited t items).1 := by
    intro n
    induction n with
    | zero => intro visited t items; exact .nil
    | succ n ih =>
      intro visited t items
      rcases ancLoop_succ st refattrs n visited t items with ⟨_, e, he, _⟩ |
        ⟨u, i, s, hr, hs, hu, hi, ⟨_, he⟩ | ⟨_, he⟩⟩
      · rw [he]; exact .nil
      · rw [he]; exact .cons hs .nil
      · rw [he]; subst hu; exact .cons hs (ih _ _ _)
  exact key n _ t items

/-- C27, completeness: if it ends without an exception, it went on to a tier without (further)
reference, or to a tier whose ID is among the visited strings: the start ID or a character of the ID
of a tier met before. -/
theorem C27_end (st : IgtState) (refattrs : List Str) (n : Nat) (t : Obj) (items : List Obj)
    (h : (ancestors st refattrs n t items).2 = .stop) :
    ∃ z, (Chain (RefersFirst st.igt refattrs) (ancestors st refattrs n t items).1.length t z) ∧
      ((∀ ra, FirstAttr refattrs z ra → ra = []) ∨ (z.data.id = t.data.id ∧ z ∈ st.igt.kids) ∨
        ∃ c s, z.data.id = some [c] ∧ c ∈ s ∧ ∃ k j y, Chain (RefersFirst st.igt refattrs) (k + 1) t y ∧
          y.data.id = some s ∧ Chain (RefersFirst st.igt refattrs) (j + 1) y z) := by
  have key : ∀ n visited u items, (ancLoop st refattrs n visited u items).2 = .stop →
      ∃ z, Chain (RefersFirst st.igt refattrs) (ancLoop st refattrs n visited u items).1.length u z ∧
        ((∀ ra, FirstAttr refattrs z ra → ra = []) ∨ (z.data.id ∈ visited ∧ z ∈ st.igt.kids) ∨
        ∃ c s, z.data.id = some [c] ∧ c ∈ s ∧ ∃ k j y, Chain (RefersFirst st.igt refattrs) (k + 1) u y ∧
          y.data.id = some s ∧ Chain (RefersFirst st.igt refattrs) (j + 1) y z) := by
    intro n
    induction n with
    | zero => intro visited u items h; cases h
    | succ n ih =>
      intro visited u items h
      rcases ancLoop_succ st refattrs n visited u items with ⟨_, e, he, _, hst⟩ |
        ⟨w, i, s, hr, hs, hw, hi, ⟨hm, he⟩ | ⟨hm, he⟩⟩
      · rw [he] at h ⊢
        exact ⟨u, .zero u, Or.inl (hst h)⟩
      · rw [he]
        refine ⟨w, .step hr (.zero w), Or.inr (Or.inl ⟨?_, refersFirst_mem _ _ hr⟩)⟩
        rw [hi]; exact hm
      · rw [he] at h ⊢
        obtain ⟨z, hz, hcase⟩ := ih _ _ _ h
        refine ⟨z, .step hr hz, ?_⟩
        rcases hcase with hA | ⟨hB, hk⟩ | ⟨c, s', hc, hs', k, j, y, h1, h2, h3⟩
        · exact Or.inl hA
        · rcases List.mem_append.1 hB with hB | hB
          · exact Or.inr (Or.inl ⟨hB, hk⟩)
          · obtain ⟨c, hc, hcz⟩ := List.mem_map.1 hB
            cases hlen : (ancLoop st refattrs n (visited ++ charIds i) w s.items).1.length with
            | zero =>
              rw [hlen] at hz
              cases hz
              -- no step was made from `w`, so it has no reference
              cases n with
              | zero => cases h
              | succ n =>
                rcases ancLoop_succ st refattrs n (visited ++ charIds i) w s.items with ⟨_, e, he', _, hst⟩ |
                  ⟨w', i', s', _, _, _, _, ⟨_, he'⟩ | ⟨_, he'⟩⟩
                · rw [he'] at h
                  exact Or.inl (hst h)
                · rw [he'] at hlen; simp at hlen
                · rw [he'] at hlen; simp at hlen
            | succ m =>
              rw [hlen] at hz
              exact Or.inr (Or.inr ⟨c, i, hcz.symm, hc, 0, m, w, .step hr (.zero w), hi, hz⟩)
        · exact Or.inr (Or.inr ⟨c, s', hc, hs', k + 1, j, y, .step hr h1, h2, h3⟩)
  obtain ⟨z, hz, hcase⟩ := key n _ t items h
  refine ⟨z, hz, ?_⟩
  rcases hcase with hA | ⟨hB, hk⟩ | hC
  · exact Or.inl hA
  · exact Or.inr (Or.inl ⟨by simpa using hB, hk⟩)
  · exact Or.inr (Or.inr hC)

/-- what one round of the loop does when it raises: the tier has a first reference attribute, and that
has no identifier in it, or its first identifier is not that of a tier -/
theorem ancLoop_raised (st : IgtState) (refattrs : List Str) (n : Nat) (visited : List (Option Str)) (t : Obj)
    (items : List Obj) {e} (h : ancLoop st refattrs (n + 1) visited t items = ([], .raised e)) :
    ∃ ra, FirstAttr refattrs t ra ∧
      ((e = .indexError ∧ ids (attr0 t ra) = []) ∨
        (e = .attributeError ∧ ∃ i rest, ids (attr0 t ra) = i :: rest ∧ ∀ u ∈ st.igt.kids, u.data.id ≠ some i)) := by
  rw [ancLoop] at h
  cases hf : refattrs.find? (fun ra => Dict.has t.data.attrs ra) with
  | none => rw [hf] at h; cases h
  | some ra =>
    rw [hf] at h
    refine ⟨ra, firstAttr_iff.1 hf, ?_⟩
    cases ra with
    | nil => cases h
    | cons c cs =>
      have hv : ∃ v, Dict.get? t.data.attrs (c :: cs) = some v := by
        rw [← Dict.has_true_iff]
        simpa using List.find?_some hf
      obtain ⟨v, hv⟩ := hv
      rw [attr0_of_mem hv]
      cases hids : ids v with
      | nil =>
        have hd : dereference st t (c :: cs) = .error .indexError := by
          simp only [dereference, Dict.getItem, hv, bind, Except.bind, hids]
        simp only [hd] at h
        cases h
        exact Or.inl ⟨rfl, rfl⟩
      | cons i rest =>
        have hia : idAccepted i = true := ids_accepted (s := v) (by rw [hids]; simp)
        have hd : dereference st t (c :: cs) = .ok (getAny st i) := by
          simp only [dereference, Dict.getItem, hv, bind, Except.bind, hids]
        simp only [hd] at h
        refine Or.inr ?_
        cases hc : contGet st.igt.kids i with
        | none =>
          have no : ∀ u ∈ st.igt.kids, u.data.id ≠ some i := by
            rw [contGet_id hia, List.find?_eq_none] at hc
            intro u hu hi
            exact hc u hu (by simp [hi])
          have hg : getAny st i = igtGetItem st (some i) := by rw [getAny, hc]
          rw [hg] at h
          cases hgi : igtGetItem st (some i) with
          | none =>
            simp only [hgi] at h
            cases h
            exact ⟨rfl, i, rest, rfl, no⟩
          | some e' =>
            obtain ⟨n, _, rfl⟩ := Option.map_eq_some_iff.1 hgi
            simp only [hgi] at h
            cases h
            exact ⟨rfl, i, rest, rfl, no⟩
        | some u =>
          exfalso
          have hg : getAny st i = some { tier := none, obj := u } := by rw [getAny, hc]
          simp only [hg] at h
          split at h
          · cases h
          · split at h <;> cases h

/-- C27, exceptions: `ancestors` raises only when the tier it has come to has a first reference attribute
without any identifier in it (IndexError) or whose first identifier is not that of a tier
(AttributeError). -/
theorem C27_raised (st : IgtState) (refattrs : List Str) (n : Nat) (t : Obj) (items : List Obj) {e : PyErr}
    (h : (ancestors st refattrs n t items).2 = .raised e) :
    ∃ z ra, Chain (RefersFirst st.igt refattrs) (ancestors st refattrs n t items).1.length t z ∧
      FirstAttr refattrs z ra ∧
      ((e = .indexError ∧ ids (attr0 z ra) = []) ∨
        (e = .attributeError ∧ ∃ i rest, ids (attr0 z ra) = i :: rest ∧ ∀ u ∈ st.igt.kids, u.data.id ≠ some i)) := by
  have key : ∀ n visited u items, (ancLoop st refattrs n visited u items).2 = .raised e →
      ∃ z ra, Chain (RefersFirst st.igt refattrs) (ancLoop st refattrs n visited u items).1.length u z ∧
        FirstAttr refattrs z ra ∧
        ((e = .indexError ∧ ids (attr0 z ra) = []) ∨
          (e = .attributeError ∧ ∃ i rest, ids (attr0 z ra) = i :: rest ∧ ∀ u ∈ st.igt.kids, u.data.id ≠ some i)) := by
    intro n
    induction n with
    | zero => intro visited u items h; cases h
    | succ n ih =>
      intro visited u items h
      rcases ancLoop_succ st refattrs n visited u items with ⟨_, e', he, _, _⟩ |
        ⟨w, i, s, hr, hs, hw, hi, ⟨hm, he⟩ | ⟨hm, he⟩⟩
      · rw [he] at h
        obtain rfl : e' = .raised e := h
        obtain ⟨ra, h1, h2⟩ := ancLoop_raised st refattrs n visited u items he
        rw [he]
        exact ⟨u, ra, .zero u, h1, h2⟩
      · rw [he] at h; cases h
      · rw [he] at h ⊢
        obtain ⟨z, ra, hz, hcase⟩ := ih _ _ _ h
        exact ⟨z, ra, .step hr hz, hcase⟩
  exact key n _ t items h

/-! ### C65 -/

/-- C65, where it holds: if no tier met has an ID of one character, `ancestors` ends (if it ends
without an exception) only at a tier without reference attribute or back at the start. -/
theorem C65_partial (st : IgtState) (refattrs : List Str) (n : Nat) (t : Obj) (items : List Obj)
    (hne : ∀ k z c, Chain (RefersFirst st.igt refattrs) (k + 1) t z → z.data.id ≠ some [c])
    (h : (ancestors st refattrs n t items).2 = .stop) :
    ∃ z, (Chain (RefersFirst st.igt refattrs) (ancestors st refattrs n t items).1.length t z) ∧
      ((∀ ra, FirstAttr refattrs z ra → ra = []) ∨ (z.data.id = t.data.id ∧ z ∈ st.igt.kids)) := by
  obtain ⟨z, hz, h1 | h2 | ⟨c, s, hc, _, k, j, y, hy, _, hyz⟩⟩ := C27_end st refattrs n t items h
  · exact ⟨z, hz, Or.inl h1⟩
  · exact ⟨z, hz, Or.inr h2⟩
  · have := hy.trans hyz
    exact absurd hc (hne (k + 1 + j) z c (by
      have e : k + 1 + j + 1 = k + 1 + (j + 1) := by omega
      rw [e]; exact this))
end

/-! ### Refutations and examples -/

section
attribute [local instance] asciiUni

/-- `s1` refers to `ab`; `ab` and `cd` refer to each other -/
def exLoopIgt : Obj := mkIgt [
  mkTier "s1" [("segmentation", "ab")] [],
  mkTier "ab" [("segmentation", "cd")] [],
  mkTier "cd" [("segmentation", "ab")] []]

private theorem exLoop_step {t u : Obj} (v i : String) (ht : Dict.get? t.data.attrs SEGMENTATION = some v.toList)
    (hal : Dict.get? t.data.attrs ALIGNMENT = none) (hi : ids v.toList = [i.toList])
    (hu : contGet exLoopIgt.kids i.toList = some u) :
    RefersFirst exLoopIgt [ALIGNMENT, SEGMENTATION] t u := by
  refine ⟨SEGMENTATION, i.toList, [], ⟨[ALIGNMENT], [], rfl, ⟨_, Dict.get?_mem ht⟩, ?_⟩, by decide, ?_, hu⟩
  · intro r hr
    simp only [List.mem_singleton] at hr
    subst hr
    exact not_mem_iff_get.2 hal
  · rw [attr0_of_mem ht, hi]

/-- C26 is false: on this igt `ancestors` of tier `s1` never ends. -/
theorem C26_refuted : ∃ (igt t : Obj), TiersOK igt ∧ t ∈ igt.kids ∧ ∀ n,
    (ancestors (newIgt stdAllowed igt) [ALIGNMENT, SEGMENTATION] n t t.kids).2 = .running := by
  refine ⟨exLoopIgt, mkTier "s1" [("segmentation", "ab")] [], ⟨by decide +kernel, by decide +kernel⟩,
    List.mem_cons_self .., fun n => ?_⟩
  have h1 : RefersFirst exLoopIgt [ALIGNMENT, SEGMENTATION] (mkTier "s1" [("segmentation", "ab")] [])
      (mkTier "ab" [("segmentation", "cd")] []) :=
    exLoop_step "ab" "ab" (by decide +kernel) (by decide +kernel) (by decide +kernel) rfl
  have h2 : RefersFirst exLoopIgt [ALIGNMENT, SEGMENTATION] (mkTier "ab" [("segmentation", "cd")] [])
      (mkTier "cd" [("segmentation", "ab")] []) :=
    exLoop_step "cd" "cd" (by decide +kernel) (by decide +kernel) (by decide +kernel) rfl
  have h3 : RefersFirst exLoopIgt [ALIGNMENT, SEGMENTATION] (mkTier "cd" [("segmentation", "ab")] [])
      (mkTier "ab" [("segmentation", "cd")] []) :=
    exLoop_step "ab" "ab" (by decide +kernel) (by decide +kernel) (by decide +kernel) rfl
  have hin : ∀ k y z, y = mkTier "ab" [("segmentation", "cd")] [] ∨ y = mkTier "cd" [("segmentation", "ab")] [] →
      Chain (RefersFirst exLoopIgt [ALIGNMENT, SEGMENTATION]) k y z →
      z = mkTier "ab" [("segmentation", "cd")] [] ∨ z = mkTier "cd" [("segmentation", "ab")] [] := by
    intro k
    induction k with
    | zero => intro y z hy hc; cases hc; exact hy
    | succ k ih =>
      intro y z hy hc
      obtain ⟨w, hw, hc⟩ := chain_succ_inv hc
      refine ih w z ?_ hc
      rcases hy with rfl | rfl
      · exact Or.inr (refersFirst_unique hw h2)
      · exact Or.inl (refersFirst_unique hw h3)
  refine (C26_diverges (newIgt stdAllowed exLoopIgt) [ALIGNMENT, SEGMENTATION] _ _
    ⟨1, _, 1, .step h1 (.zero _), .step h2 (.step h3 (.zero _))⟩ ?_ n).1
  intro k z hc
  obtain ⟨w, hw, hc⟩ := chain_succ_inv hc
  rcases hin k w z (Or.inl (refersFirst_unique hw h1)) hc with rfl | rfl
  · exact ⟨by decide +kernel, fun c h => by simp [mkTier] at h⟩
  · exact ⟨by decide +kernel, fun c h => by simp [mkTier] at h⟩

/-- C65 is false: `ancestors` of `s1` ends at tier `a`, which was never met before, although `a`
refers on to `c`; the reason is that `a` is a character of the ID `ab`. -/
theorem C65_refuted : ∃ (igt t z : Obj), TiersOK igt ∧ t ∈ igt.kids ∧
    (ancestors (newIgt stdAllowed igt) [SEGMENTATION] 10 t t.kids).2 = .stop ∧
    ((ancestors (newIgt stdAllowed igt) [SEGMENTATION] 10 t t.kids).1.map fun s => (s.src.data.id, s.tgt.data.id)) =
      [(some "s1".toList, some "ab".toList), (some "ab".toList, some "a".toList)] ∧
    z ∈ igt.kids ∧ z.data.id = some "a".toList ∧ FirstAttr [SEGMENTATION] z SEGMENTATION := by
  refine ⟨mkIgt [mkTier "s1" [("segmentation", "ab")] [], mkTier "ab" [("segmentation", "a")] [],
    mkTier "a" [("segmentation", "c")] [], mkTier "c" [] []], mkTier "s1" [("segmentation", "ab")] [],
    mkTier "a" [("segmentation", "c")] [], ⟨by decide +kernel, by decide +kernel⟩, List.mem_cons_self ..,
    by decide +kernel, by decide +kernel, ?_, rfl, ?_⟩
  · exact List.mem_cons_of_mem _ (List.mem_cons_of_mem _ (List.mem_cons_self ..))
  · exact firstAttr_iff.1 (by decide +kernel)

/-- the steps from `g1` up to the words of the example igt -/
example : (ancestors (newIgt stdAllowed exRefIgt) [ALIGNMENT, SEGMENTATION] 5
      (mkTier "g" [("alignment", "m")] [mkItem "g1" [("alignment", "m1,m2")]])
      [mkItem "g1" [("alignment", "m1,m2")]]).1.map (fun s => (s.tgt.data.id, s.items.map fun i => i.data.id)) =
    [(some "m".toList, [some "m1".toList, some "m2".toList]),
     (some "w".toList, [some "w1".toList, some "w2".toList])] := by decide +kernel

/-- `CyclesCaught` holds where nothing refers on -/
example (t : Obj) (h : t.data.attrs = []) : CyclesCaught exRefIgt [SEGMENTATION] t := by
  have no : ∀ u, ¬ RefersFirst exRefIgt [SEGMENTATION] t u := by
    rintro u ⟨ra, i, rest, ⟨pre, post, _, ⟨v, hv⟩, _⟩, _⟩
    rw [h] at hv; cases hv
  intro k y j hk hj
  cases hk with
  | zero => obtain ⟨w, hw, _⟩ := chain_succ_inv hj; exact absurd hw (no w)
  | step r _ => exact absurd r (no _)

/-- both exceptions of `C27_raised` occur -/
example : (ancestors (newIgt stdAllowed exRefIgt) [ALIGNMENT] 5 (mkTier "g" [("alignment", "")] []) []).2 =
      .raised .indexError ∧
    (ancestors (newIgt stdAllowed exRefIgt) [ALIGNMENT] 5 (mkTier "g" [("alignment", "nobody")] []) []).2 =
      .raised .attributeError := by decide +kernel
end

end Xigt
