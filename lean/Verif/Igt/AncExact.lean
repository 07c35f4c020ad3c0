import Verif.Igt.AncProps
/-
C26, exactly: when `ancestors` never ends.
-/
set_option linter.unusedSectionVars false

namespace Xigt
section
variable [Uni]

/-- while it runs, no tier is met whose ID is a character of the ID of a tier met before -/
theorem anc_running_chars {st : IgtState} {refattrs : List Str} : ∀ {n visited t items},
    (ancLoop st refattrs n visited t items).2 = .running → ∀ k m z y c s, (k + 1) + (m + 1) ≤ n →
    Chain (RefersFirst st.igt refattrs) (k + 1) t z → z.data.id = some s → c ∈ s →
    Chain (RefersFirst st.igt refattrs) (m + 1) z y → y.data.id ≠ some [c] := by
  intro n
  induction n with
  | zero => intro visited t items _ k m z y c s hk; omega
  | succ n ih =>
    intro visited t items h k m z y c s hk hc hz hcs hy
    obtain ⟨u', hu', hc'⟩ := chain_succ_inv hc
    rcases ancLoop_succ st refattrs n visited t items with ⟨_, e, he, hr, _⟩ |
      ⟨u, i, s', hr, _, _, hi, ⟨_, he⟩ | ⟨hv, he⟩⟩
    · rw [he] at h; exact absurd h hr
    · rw [he] at h; cases h
    · have := refersFirst_unique hu' hr
      subst this
      rw [he] at h
      cases k with
      | zero =>
        cases hc' with
        | zero =>
          rw [hz] at hi
          have hi' := Option.some.inj hi
          subst hi'
          have := anc_running_visited h m y (by omega) hy
          intro e
          rw [e] at this
          exact this (List.mem_append_right _ (List.mem_map.2 ⟨c, hcs, rfl⟩))
      | succ k => exact ih h k m z y c s (by omega) hc' hz hcs hy

/-- Nothing stops the walk from `t`: it never meets the ID of `t`, nor an ID of one character that occurs in an ID met before. -/
def Unstopped (igt : Obj) (refattrs : List Str) (t : Obj) : Prop :=
  ∀ k z, Chain (RefersFirst igt refattrs) (k + 1) t z → z.data.id ≠ t.data.id ∧
    ∀ j m y s c, j + 1 + (m + 1) = k + 1 → Chain (RefersFirst igt refattrs) (j + 1) t y → Chain (RefersFirst igt refattrs) (m + 1) y z →
      y.data.id = some s → c ∈ s → z.data.id ≠ some [c]

/-- C26, exactly: `ancestors` never ends just if the references from the tier run into a cycle and nothing stops the walk on the way: it
never comes back to the ID of the start, nor to an ID of one character that occurs in an ID met before.  Otherwise it ends
soon (`C26_bound`). -/
theorem C26_iff (st : IgtState) (refattrs : List Str) (t : Obj) (items : List Obj) :
    (∀ n, (ancestors st refattrs n t items).2 = .running) ↔
      (∃ k y j, Chain (RefersFirst st.igt refattrs) k t y ∧ Chain (RefersFirst st.igt refattrs) (j + 1) y y) ∧
      Unstopped st.igt refattrs t := by
  constructor
  · intro h
    constructor
    · obtain ⟨z, hz⟩ := anc_running_chain (h (st.igt.kids.length + 1))
      obtain ⟨y, k, j, hk, hj, _⟩ := hz.cycle_le st.igt.kids refersFirst_mem (by omega)
      exact ⟨k, y, j, hk, hj⟩
    · intro k z hz
      constructor
      · have := anc_running_visited (h (k + 1)) k z (by omega) hz
        simpa using this
      · intro j m y s c he hy hyz hs hc
        exact anc_running_chars (h (k + 1)) j m y z c s (by omega) hy hs hc hyz
  · rintro ⟨⟨k, y, j, hk, hj⟩, hun⟩ n
    have inf : ∀ m, ∃ z, Chain (RefersFirst st.igt refattrs) m t z := by
      intro m
      refine (hk.trans (hj.repeat m)).prefix m ?_
      have : m ≤ m * (j + 1) := Nat.le_mul_of_pos_right m (by omega)
      omega
    have key : ∀ n k visited u items, Chain (RefersFirst st.igt refattrs) k t u →
        (∀ m, ∃ z, Chain (RefersFirst st.igt refattrs) m u z) →
        (∀ v ∈ visited, v = t.data.id ∨ ∃ c s j m y, v = some [c] ∧ c ∈ s ∧ y.data.id = some s ∧ j + 1 + m = k ∧
          Chain (RefersFirst st.igt refattrs) (j + 1) t y ∧ Chain (RefersFirst st.igt refattrs) m y u) →
        (ancLoop st refattrs n visited u items).2 = .running := by
      intro n
      induction n with
      | zero => intro k visited u items _ _ _; rfl
      | succ n ih =>
        intro k visited u items hk hinf hv
        rcases ancLoop_succ st refattrs n visited u items with ⟨hno, _⟩ |
          ⟨w, i, s, hr, _, hw, hi, ⟨hm, he⟩ | ⟨_, he⟩⟩
        · obtain ⟨z, hz⟩ := hinf 1
          obtain ⟨w, hw, _⟩ := chain_succ_inv hz
          exact absurd hw (hno w)
        · exfalso
          have hkw : Chain (RefersFirst st.igt refattrs) (k + 1) t w := hk.trans (.step hr (.zero w))
          obtain ⟨h1, h2⟩ := hun k w hkw
          rw [hi] at h1 h2
          rcases hv _ hm with h | ⟨c, s', j, m, y, h, hc, hs, hjm, hy, hyu⟩
          · exact h1 h
          · exact h2 j m y s' c (by omega) hy (hyu.trans (.step hr (.zero w))) hs hc h
        · rw [he]
          have hkw : Chain (RefersFirst st.igt refattrs) (k + 1) t w := hk.trans (.step hr (.zero w))
          refine ih (k + 1) (visited ++ charIds i) w s.items hkw (by
              intro m
              obtain ⟨z, hz⟩ := hinf (m + 1)
              obtain ⟨w', hw', hz'⟩ := chain_succ_inv hz
              have := refersFirst_unique hw' hr
              subst this
              exact ⟨z, hz'⟩) ?_
          intro v hv'
          rcases List.mem_append.1 hv' with hv' | hv'
          · rcases hv v hv' with h | ⟨c, s', j, m, y, h, hc, hs, hjm, hy, hyu⟩
            · exact .inl h
            · exact .inr ⟨c, s', j, m + 1, y, h, hc, hs, by omega, hy, hyu.trans (.step hr (.zero w))⟩
          · obtain ⟨c, hc, rfl⟩ := List.mem_map.1 hv'
            exact .inr ⟨c, i, k, 0, w, rfl, hc, hi, rfl, hkw, .zero w⟩
    exact key n 0 _ t items (.zero t) inf (by intro v hv; simp at hv; exact .inl hv)

theorem chain_split {igt : Obj} {refattrs : List Str} : ∀ {a b x y z}, Chain (RefersFirst igt refattrs) a x y →
    Chain (RefersFirst igt refattrs) (a + b) x z → Chain (RefersFirst igt refattrs) b y z := by
  intro a
  induction a with
  | zero => intro b x y z h h'; cases h; simpa using h'
  | succ a ih =>
    intro b x y z h h'
    obtain ⟨u, hu, h⟩ := chain_succ_inv h
    rw [Nat.add_right_comm] at h'
    obtain ⟨v, hv, h'⟩ := chain_succ_inv h'
    have := refersFirst_unique hu hv
    subst this
    exact ih h h'

/-- what is reached is reached soon -/
theorem chain_short {igt : Obj} {refattrs : List Str} : ∀ {k x z}, Chain (RefersFirst igt refattrs) (k + 1) x z →
    ∃ k', k' ≤ igt.kids.length ∧ Chain (RefersFirst igt refattrs) (k' + 1) x z := by
  intro k
  induction k using Nat.strongRecOn with
  | ind k ih =>
    intro x z h
    by_cases hk : k ≤ igt.kids.length
    · exact ⟨k, hk, h⟩
    · obtain ⟨w, hw⟩ := h.prefix (igt.kids.length + 1) (by omega)
      obtain ⟨y, a, j, ha, hj, haj⟩ := hw.cycle_le igt.kids refersFirst_mem (by omega)
      obtain ⟨b, hb⟩ : ∃ b, k + 1 = a + (j + 1) + (b + 1) := ⟨k - a - (j + 1), by omega⟩
      rw [hb] at h
      have hyz := chain_split (ha.trans hj) h
      have : Chain (RefersFirst igt refattrs) (a + b + 1) x z := ha.trans hyz
      exact ih (a + b) (by omega) this

/-- C26: if it ends at all, it ends after at most 2·#tiers+3 iterations -/
theorem C26_bound (st : IgtState) (refattrs : List Str) (t : Obj) (items : List Obj) {m : Nat}
    (h : (ancestors st refattrs m t items).2 ≠ .running) (n : Nat) (hn : 2 * st.igt.kids.length + 3 ≤ n) :
    (ancestors st refattrs n t items).2 ≠ .running := by
  intro hr
  refine h ?_
  refine (C26_iff st refattrs t items).2 ?_ m
  obtain ⟨z, hz⟩ := anc_running_chain hr
  obtain ⟨z, hz⟩ := hz.prefix (st.igt.kids.length + 1) (by omega)
  obtain ⟨y, k, j, hk, hj, hkj⟩ := hz.cycle_le st.igt.kids refersFirst_mem (by omega)
  refine ⟨⟨k, y, j, hk, hj⟩, ?_⟩
  intro k z hz
  constructor
  · obtain ⟨k', hk', hz'⟩ := chain_short hz
    have := anc_running_visited hr k' z (by omega) hz'
    simpa using this
  · intro j m y s c _ hy hyz hs hc
    obtain ⟨j', hj', hy'⟩ := chain_short hy
    obtain ⟨m', hm', hyz'⟩ := chain_short hyz
    exact anc_running_chars hr j' m' y z c s (by omega) hy' hs hc hyz'

end

section
attribute [local instance] asciiUni

/-- both sides of C26 occur: this walk never ends (C26_refuted) -/
example : ∃ (igt t : Obj), TiersOK igt ∧ t ∈ igt.kids ∧ (∃ k y j, Chain (RefersFirst igt [ALIGNMENT, SEGMENTATION]) k t y ∧
    Chain (RefersFirst igt [ALIGNMENT, SEGMENTATION]) (j + 1) y y) ∧ Unstopped igt [ALIGNMENT, SEGMENTATION] t := by
  obtain ⟨igt, t, h1, h2, h3⟩ := C26_refuted
  have := (C26_iff (newIgt stdAllowed igt) [ALIGNMENT, SEGMENTATION] t t.kids).1 h3
  exact ⟨igt, t, h1, h2, this⟩

/-- and a walk into a cycle that ends: `b` is a character of `ab` -/
example : (ancestors (newIgt stdAllowed (mkIgt [mkTier "s1" [("segmentation", "ab")] [], mkTier "ab" [("segmentation", "b")] [],
    mkTier "b" [("segmentation", "ab")] []])) [ALIGNMENT, SEGMENTATION] 3 (mkTier "s1" [("segmentation", "ab")] []) []).2 = .stop := by
  decide +kernel

end
end Xigt
