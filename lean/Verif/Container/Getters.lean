import Verif.Container.Props
/-
C129: the tier, the IGT and the corpus of an object (model.py:191-193, 285-294, 355-371).
-/
set_option linter.unusedSectionVars false

namespace Xigt
variable {β : Type}

/-! ### Model -/

/-- model.py:355-357 `Item.tier` -/
def itemTier (w : World β) (a : Nat) : Option Nat := (w.obj a).parent

/-- model.py:285-287 `Tier.igt` -/
def tierIgt (w : World β) (a : Nat) : Option Nat := (w.obj a).parent

/-- model.py:191-193 `Igt.corpus` -/
def igtCorpus (w : World β) (a : Nat) : Option Nat := (w.obj a).parent

/-- model.py:359-364 `Item.igt`: `None.igt`, and `.igt` of an object that is no tier, are the
AttributeErrors that give None (the parent of an item is never an item, which has `igt` too) -/
def itemIgt (w : World β) (a : Nat) : Option Nat :=
  (itemTier w a).bind fun t => if (w.obj t).cls = .tier then tierIgt w t else none

/-- model.py:289-294 `Tier.corpus` (with the same remark) -/
def tierCorpus (w : World β) (a : Nat) : Option Nat :=
  (tierIgt w a).bind fun g => if (w.obj g).cls = .igt then igtCorpus w g else none

/-- model.py:366-371 `Item.corpus` (with the same remark) -/
def itemCorpus (w : World β) (a : Nat) : Option Nat :=
  (itemIgt w a).bind fun g => if (w.obj g).cls = .igt then igtCorpus w g else none

/-! ### Specification -/

/-- `a` is contained in the object `o` : it is in the list of a container of `o` -/
def InObj (w : World β) (a o : Nat) : Prop := ∃ k, a ∈ (w.cont k).list ∧ (w.cont k).owner = o

/-- only tiers contain items, only IGTs tiers, only corpora IGTs (model.py:71, 124, 259:
`contained_type`), and one object has one container of them -/
def TypedOwners (w : World β) : Prop := ∀ k,
  ((w.cont k).contained = .item → (w.obj (w.cont k).owner).cls = .tier) ∧
  ((w.cont k).contained = .tier → (w.obj (w.cont k).owner).cls = .igt) ∧
  ((w.cont k).contained = .igt → (w.obj (w.cont k).owner).cls = .corpus)

section
variable [Uni]

/-! ### Proof -/

theorem hist_owner (beq : β → β → Bool) : ∀ (hist : List (Nat × Op β)) (w : World β),
    (∀ a, ((runHist beq w hist).obj a).cls = (w.obj a).cls) ∧
    ∀ k, ((runHist beq w hist).cont k).owner = (w.cont k).owner ∧ ((runHist beq w hist).cont k).contained = (w.cont k).contained := by
  intro hist
  induction hist with
  | nil => intro w; exact ⟨fun _ => rfl, fun _ => ⟨rfl, rfl⟩⟩
  | cons p hist ih =>
    intro w
    obtain ⟨k, op⟩ := p
    have hr := rel_step beq w k op
    have := ih (step beq w k op).1
    refine ⟨fun a => (this.1 a).trans (hr.cls a), fun k' => ?_⟩
    have h2 := this.2 k'
    by_cases hk : k' = k
    · subst hk
      exact ⟨h2.1.trans hr.owner, h2.2.trans hr.contained⟩
    · have h3 := hr.others k' hk
      rw [h3] at h2
      exact h2

/-- C129 (for histories as in C04): of an item in a tier in an IGT in a corpus, `tier`, `igt` and
`corpus` are these; likewise of tiers and IGTs. -/
theorem C129_partial (beq : β → β → Bool) (home : Nat → Nat) (w : World β) (h0 : Fresh w) (ht : TypedOwners w)
    (hist : List (Nat × Op β))
    (hone : ∀ p ∈ hist, (∀ a ∈ p.2.puts, home a = p.1) ∧ p.2.isSetItem = false) :
    (∀ i t, ((runHist beq w hist).obj i).cls = .item → InObj (runHist beq w hist) i t → itemTier (runHist beq w hist) i = some t) ∧
    (∀ t g, ((runHist beq w hist).obj t).cls = .tier → InObj (runHist beq w hist) t g → tierIgt (runHist beq w hist) t = some g) ∧
    (∀ g c, ((runHist beq w hist).obj g).cls = .igt → InObj (runHist beq w hist) g c → igtCorpus (runHist beq w hist) g = some c) ∧
    (∀ i t g, ((runHist beq w hist).obj i).cls = .item → InObj (runHist beq w hist) i t → InObj (runHist beq w hist) t g →
      itemIgt (runHist beq w hist) i = some g) ∧
    (∀ t g c, ((runHist beq w hist).obj t).cls = .tier → InObj (runHist beq w hist) t g → InObj (runHist beq w hist) g c →
      tierCorpus (runHist beq w hist) t = some c) ∧
    (∀ i t g c, ((runHist beq w hist).obj i).cls = .item → InObj (runHist beq w hist) i t → InObj (runHist beq w hist) t g →
      InObj (runHist beq w hist) g c → itemCorpus (runHist beq w hist) i = some c) := by
  have par : ∀ a o, InObj (runHist beq w hist) a o → ((runHist beq w hist).obj a).parent = some o := by
    intro a o ⟨k, hk, ho⟩
    rw [C04_partial beq home w h0 hist hone k a hk, ho]
  have cls : ∀ a o, InObj (runHist beq w hist) a o →
      (((runHist beq w hist).obj a).cls = .item → ((runHist beq w hist).obj o).cls = .tier) ∧
      (((runHist beq w hist).obj a).cls = .tier → ((runHist beq w hist).obj o).cls = .igt) := by
    intro a o ⟨k, hk, ho⟩
    have h1 := C08_homogeneous beq w h0 hist k a hk
    have h2 := hist_owner beq hist w
    have h3 := ht k
    rw [← ho, h1, (h2.2 k).2, (h2.2 k).1, h2.1]
    exact ⟨h3.1, h3.2.1⟩
  refine ⟨fun i t _ h => par i t h, fun t g _ h => par t g h, fun g c _ h => par g c h, fun i t g hi h1 h2 => ?_, fun t g c hi h1 h2 => ?_, fun i t g c hi h1 h2 h3 => ?_⟩
  · simp [itemIgt, itemTier, tierIgt, par i t h1, par t g h2, (cls i t h1).1 hi]
  · simp [tierCorpus, tierIgt, igtCorpus, par t g h1, par g c h2, (cls t g h1).2 hi]
  · have ht := (cls i t h1).1 hi
    simp [itemCorpus, itemIgt, itemTier, tierIgt, igtCorpus, par i t h1, par t g h2, par g c h3, ht, (cls t g h2).2 ht]

/-- C129: where there is nothing above, the answer is None, without an error. -/
theorem C129_none (w : World β) (a : Nat) :
    (itemTier w a = none → itemIgt w a = none ∧ itemCorpus w a = none) ∧
    (itemIgt w a = none → itemCorpus w a = none) ∧ (tierIgt w a = none → tierCorpus w a = none) := by
  refine ⟨fun h => ?_, fun h => ?_, fun h => ?_⟩
  · simp [itemCorpus, itemIgt, h]
  · simp [itemCorpus, h]
  · simp [tierCorpus, h]

end

section
attribute [local instance] asciiUni

/-- item 0, tier 1, IGT 2, corpus 3, and their containers of the same numbers; item 4 -/
def exNest : World Nat where
  obj := fun a =>
    if a = 0 then ⟨.item, some ['a'], none, 0⟩
    else if a = 1 then ⟨.tier, some ['t'], none, 0⟩
    else if a = 2 then ⟨.igt, some ['i'], none, 0⟩
    else if a = 3 then ⟨.corpus, none, none, 0⟩
    else ⟨.item, some ['b'], none, 0⟩
  cont := fun k => if k = 1 then ⟨1, .item, [], []⟩ else if k = 2 then ⟨2, .tier, [], []⟩ else if k = 3 then ⟨3, .igt, [], []⟩
    else ⟨k, .metaC, [], []⟩

theorem exNest_fresh : Fresh exNest := by
  intro k; unfold exNest; simp only; split <;> (try split) <;> (try split) <;> exact ⟨rfl, rfl⟩

theorem exNest_typed : TypedOwners exNest := by
  intro k
  by_cases h1 : k = 1
  · subst h1; decide
  · by_cases h2 : k = 2
    · subst h2; decide
    · by_cases h3 : k = 3
      · subst h3; decide
      · refine ⟨?_, ?_, ?_⟩ <;> simp [exNest, h1, h2, h3]

/-- the hypotheses of `C129_partial` are met, and something is contained at every level -/
example : ∃ (home : Nat → Nat) (hist : List (Nat × Op Nat)), Fresh exNest ∧ TypedOwners exNest ∧
    (∀ p ∈ hist, (∀ a ∈ p.2.puts, home a = p.1) ∧ p.2.isSetItem = false) ∧
    InObj (runHist (· == ·) exNest hist) 0 1 ∧ InObj (runHist (· == ·) exNest hist) 1 2 ∧ InObj (runHist (· == ·) exNest hist) 2 3 ∧
    itemCorpus (runHist (· == ·) exNest hist) 0 = some 3 := by
  refine ⟨(· + 1), [(1, .append 0), (2, .append 1), (3, .append 2)], exNest_fresh, exNest_typed, ?_, ⟨1, ?_, ?_⟩, ⟨2, ?_, ?_⟩, ⟨3, ?_, ?_⟩, ?_⟩
  · intro p hp
    simp only [List.mem_cons, List.not_mem_nil, or_false] at hp
    rcases hp with rfl | rfl | rfl <;> exact ⟨by simp [Op.puts], rfl⟩
  all_goals decide +kernel

/-- C129 is false of objects that were removed: they still have the tier, the IGT and the corpus
they were in. -/
theorem C129_refuted : ∃ (w : World Nat) (hist : List (Nat × Op Nat)), Fresh w ∧ TypedOwners w ∧
    (∀ o, ¬ InObj (runHist (· == ·) w hist) 0 o) ∧ itemTier (runHist (· == ·) w hist) 0 = some 1 ∧
    itemIgt (runHist (· == ·) w hist) 0 = some 2 ∧ itemCorpus (runHist (· == ·) w hist) 0 = some 3 := by
  refine ⟨exNest, [(1, .append 0), (2, .append 1), (3, .append 2), (1, .remove 0)], exNest_fresh, exNest_typed, ?_, by decide +kernel, by decide +kernel, by decide +kernel⟩
  intro o ⟨k, hk, _⟩
  by_cases h1 : k = 1
  · subst h1; exact absurd hk (by decide +kernel)
  · by_cases h2 : k = 2
    · subst h2; exact absurd hk (by decide +kernel)
    · by_cases h3 : k = 3
      · subst h3; exact absurd hk (by decide +kernel)
      · have hc := C08_homogeneous (· == ·) exNest exNest_fresh [(1, .append 0), (2, .append 1), (3, .append 2), (1, .remove 0)] k 0 hk
        have ho := hist_owner (· == ·) [(1, .append 0), (2, .append 1), (3, .append 2), (1, .remove 0)] exNest
        rw [ho.1, (ho.2 k).2] at hc
        simp [exNest, h1, h2, h3] at hc

/-- C129 is false of an item assigned to a place, which belongs to the tier without knowing it. -/
theorem C129_refuted_assigned : ∃ (w : World Nat) (hist : List (Nat × Op Nat)), Fresh w ∧ TypedOwners w ∧
    InObj (runHist (· == ·) w hist) 4 1 ∧ itemTier (runHist (· == ·) w hist) 4 = none := by
  exact ⟨exNest, [(1, .append 0), (1, .setItem (.int 0) 4)], exNest_fresh, exNest_typed, ⟨1, by decide +kernel, by decide +kernel⟩, by decide +kernel⟩
end

end Xigt
