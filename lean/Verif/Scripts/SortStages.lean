import Verif.Scripts.SortProps
import Verif.Igt.SortProps
/-
C95: what `xigt sort` sorts, and by what.
-/
set_option linter.unusedSectionVars false

namespace Xigt.Srt

/-! ### Specification -/

section
variable [Uni]

/-- `y` is `x` with its contents in ascending order of the keys; the keys are found while the list being sorted is
empty, as Python makes it -/
structure ByKey (c : XP.PCfg) (sks : List Str) (x : Obj) (up : List Obj) (y : Obj) : Prop where
  data : y.data = x.data
  md : y.md = x.md
  perm : y.kids.Perm x.kids
  order : ∀ ks : Obj → List Str, (∀ k ∈ x.kids, KeyStrs c (.node k (.mk x.data x.md [] :: up)) sks (ks k)) →
    y.kids.Pairwise (fun a b => ¬ KeysLt (ks b) (ks a)) ∧
    ∀ p : Obj → Bool, (∀ a ∈ x.kids, ∀ b ∈ x.kids, p a = true → p b = true → KeysSame (ks a) (ks b)) →
      y.kids.filter p = x.kids.filter p

/-- `y` is `x` with its tiers in an order that has tiers referred to first -/
structure ByDeps (deps : List Str) (n : Nat) (x y : Obj) : Prop where
  data : y.data = x.data
  md : y.md = x.md
  perm : y.kids.Perm x.kids
  order : SortOK deps x.kids → x.kids.length ≤ n → ∀ t ∈ x.kids, ∀ u, PointsTo deps x.kids t u → Before y.kids u t

/-- `y` is `x` with each of its contents changed as `R` says; `R` is given what is around it -/
structure Inside (R : Obj → List Obj → Obj → Prop) (x : Obj) (up : List Obj) (y : Obj) : Prop where
  data : y.data = x.data
  md : y.md = x.md
  kids : All2 (fun k k' => R k (x :: up) k') x.kids y.kids

/-! ### Proofs -/

theorem sortKids_byKey {c sks x up y} (h : sortKids c sks x up = .ok y) : ByKey c sks x up y := by
  have r := sortKids_reord 0 h
  obtain ⟨r1, r2, l, r3, r4⟩ := r
  have hl : y.kids = l := by
    clear r3
    generalize y.kids = m at r4
    induction r4 with
    | nil => rfl
    | cons h _ ih => rw [ih, h]
  refine ⟨r1, r2, hl ▸ r3, ?_⟩
  intro ks hk
  rcases C50_partial c sks x up ks hk with he | ⟨y', h1, _, _, _, h5, h6⟩
  · rw [h] at he; cases he
  · rw [h] at h1; cases h1
    exact ⟨h5, h6⟩

theorem depSort_byDeps {n deps x y} (h : depSort n deps x = some (.ok y)) : ByDeps deps n x y := by
  obtain ⟨r1, r2, l, r3, r4⟩ := depSort_reord 0 h
  have hl : y.kids = l := by
    clear r3
    generalize y.kids = m at r4
    induction r4 with
    | nil => rfl
    | cons h _ ih => rw [ih, h]
  refine ⟨r1, r2, hl ▸ r3, ?_⟩
  intro hok hn
  obtain ⟨ts', h1, _, h3, _⟩ := C30_partial deps x.kids hok n hn
  rw [depSort, h1] at h
  simp [Except.map] at h
  subst h
  exact h3

theorem forKids_inside {f : Obj → List Obj → Run Obj} {x up} {R : Obj → List Obj → Obj → Prop}
    (hf : ∀ y up y', f y up = some (.ok y') → R y up y') (l l' : List Obj)
    (h : forKids f x up l = some (.ok l')) : All2 (fun k k' => R k (x :: up) k') l l' := by
  induction l generalizing l' with
  | nil => simp [forKids] at h; subst h; exact .nil
  | cons y ys ih =>
    rw [forKids] at h
    split at h
    · cases h
    · cases h
    · rename_i y' h1
      split at h
      · cases h
      · cases h
      · rename_i ys' h2
        injection h with h
        injection h with h
        subst h
        exact .cons (hf _ _ _ h1) (ih _ h2)

theorem eachKid_inside {f : Obj → List Obj → Run Obj} {R : Obj → List Obj → Obj → Prop}
    (hf : ∀ y up y', f y up = some (.ok y') → R y up y') (x : Obj) (up : List Obj) (y : Obj)
    (h : eachKid f x up = some (.ok y)) : Inside R x up y := by
  rw [eachKid] at h
  cases h1 : forKids f x up x.kids with
  | none => simp [h1] at h
  | some r => cases r with
    | error e => simp [h1, Except.map] at h
    | ok ys =>
      simp [h1, Except.map] at h
      subst h
      exact ⟨rfl, rfl, forKids_inside hf _ _ h1⟩

/-- **C95**: if `xigt sort` finishes without an exception, then in turn: the IGTs were sorted by the IGT key if one is
given; the tiers of each IGT by the tier key if one is given, otherwise by the tier dependencies if these are given;
the items of each tier by the item key if one is given; nothing else was changed. -/
theorem C95_stages (c : XP.PCfg) (n : Nat) (a : Args) (xc y : Obj) (h : run c n a xc = some (.ok y)) :
    ∃ x1 x2,
      ((a.igtKey = [] ∧ x1 = xc) ∨ (a.igtKey ≠ [] ∧ ByKey c a.igtKey xc [] x1)) ∧
      ((a.tierKey ≠ [] ∧ Inside (ByKey c a.tierKey) x1 [] x2) ∨
       (a.tierKey = [] ∧ a.tierDeps ≠ [] ∧ Inside (fun x _ y => ByDeps a.tierDeps n x y) x1 [] x2) ∨
       (a.tierKey = [] ∧ a.tierDeps = [] ∧ x2 = x1)) ∧
      ((a.itemKey = [] ∧ y = x2) ∨ (a.itemKey ≠ [] ∧ Inside (Inside (ByKey c a.itemKey)) x2 [] y)) := by
  rw [run] at h
  obtain ⟨x1, h1, h⟩ := thenRun_ok h
  obtain ⟨x2, h2, h⟩ := thenRun_ok h
  refine ⟨x1, x2, ?_, ?_, ?_⟩
  · split at h1
    · rename_i hk; exact .inr ⟨hk, sortKids_byKey (Option.some.inj h1)⟩
    · rename_i hk; injection h1 with h1; injection h1 with h1; exact .inl ⟨Decidable.not_not.1 hk, h1.symm⟩
  · split at h2
    · rename_i hk; exact .inl ⟨hk, eachKid_inside (R := ByKey c a.tierKey) (fun y up y' h => sortKids_byKey (Option.some.inj h)) _ _ _ h2⟩
    · rename_i hk
      split at h2
      · rename_i hd
        exact .inr (.inl ⟨Decidable.not_not.1 hk, hd, eachKid_inside (R := fun x _ y => ByDeps a.tierDeps n x y) (fun y up y' h => depSort_byDeps h) _ _ _ h2⟩)
      · rename_i hd
        injection h2 with h2; injection h2 with h2
        exact .inr (.inr ⟨Decidable.not_not.1 hk, Decidable.not_not.1 hd, h2.symm⟩)
  · split at h
    · rename_i hk
      exact .inr ⟨hk, eachKid_inside (R := Inside (ByKey c a.itemKey)) (fun y up y' h => eachKid_inside (R := ByKey c a.itemKey) (fun y up y' h => sortKids_byKey (Option.some.inj h)) _ _ _ h) _ _ _ h⟩
    · rename_i hk; injection h with h; injection h with h; exact .inl ⟨Decidable.not_not.1 hk, h.symm⟩

end

section
attribute [local instance] asciiUni

/-- both a tier key and tier dependencies: the key is used -/
example : runIds (run exCfg 10 { tierKey := [lit! "@id"], tierDeps := [lit! "segmentation"] }
    (.mk { cls := .corpus } [] [.mk { cls := .igt } [] [.mk { cls := .tier, id := some (lit! "b") } [] [],
      .mk { cls := .tier, id := some (lit! "a"), attrs := [(lit! "segmentation", lit! "b")] } [] []]])) =
    [lit! "a", lit! "b"] := by
  decide +kernel
end
end Xigt.Srt
