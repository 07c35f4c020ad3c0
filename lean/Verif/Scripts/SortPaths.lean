import Verif.Scripts.SortSame
import Verif.Scripts.SortValues
import Verif.Path.Props
import Verif.Igt.RefLemmas
import Verif.Igt.AncProps
import Verif.Path.Refs
/- C147: sorting changes the order of what a path finds, and nothing else. -/

set_option linter.unusedSectionVars false

namespace Xigt.Srt
open Xigt.XP

/-! ### Spec -/

/-- the same but for the order, element by element related -/
def Shuf {α β : Type} (R : α → β → Prop) (l : List α) (l' : List β) : Prop := ∃ m, m.Perm l ∧ All2 R m l'

/-- the same value: the same string, or an object with the same ID, attributes etc. and metadata in objects with the same -/
def SameVal : PV → PV → Prop
  | .node x up, .node y up' => y.data = x.data ∧ y.md = x.md ∧ up'.map Obj.data = up.map Obj.data
  | .str s, .str s' => s = s'
  | .none, .none => True
  | .list l, .list l' => l = l'
  | _, _ => False

/-- both raise something, or both have the same results but for the order -/
def SameFound (R : PV → PV → Prop) : Py (List PV) → Py (List PV) → Prop
  | .ok l, .ok l' => Shuf R l l'
  | .error _, .error _ => True
  | _, _ => False

mutual
/-- the functions in a path -/
def fnsPath : PPath → List Str
  | .rel s => fnsSteps s
  | .abs s => fnsSteps s
  | .group a => fnsAlts a
def fnsSteps : PSteps → List Str
  | .last n ps => fnsNode n ++ fnsPreds ps
  | .more n ps r => fnsNode n ++ fnsPreds ps ++ fnsSteps r
def fnsNode : PNode → List Str
  | .fn f _ => [f]
  | .alts a => fnsAlts a
  | _ => []
def fnsAlts : PAlts → List Str
  | .one p => fnsPath p
  | .more p r => fnsPath p ++ fnsAlts r
def fnsPreds : PPreds → List Str
  | .nil => []
  | .eq p _ r => fnsPath p ++ fnsPreds r
  | .ne p _ r => fnsPath p ++ fnsPreds r
  | .ex p r => fnsPath p ++ fnsPreds r
end

section
variable [Uni]

/-! ### Lists that are the same but for the order -/

theorem Shuf.nil {α β : Type} {R : α → β → Prop} : Shuf R [] [] := ⟨[], .refl _, .nil⟩

theorem Shuf.of_all2 {α β : Type} {R : α → β → Prop} {l : List α} {l' : List β} (h : All2 R l l') : Shuf R l l' := ⟨l, .refl _, h⟩

theorem all2_app {α β : Type} {R : α → β → Prop} {a b : List α} {u v : List β} (h1 : All2 R a u) (h2 : All2 R b v) : All2 R (a ++ b) (u ++ v) := by
  induction h1 with
  | nil => exact h2
  | cons h _ ih => exact .cons h ih

theorem Shuf.append {α β : Type} {R : α → β → Prop} {a b : List α} {u v : List β} (h1 : Shuf R a u) (h2 : Shuf R b v) : Shuf R (a ++ b) (u ++ v) := by
  obtain ⟨m, p, q⟩ := h1
  obtain ⟨m', p', q'⟩ := h2
  exact ⟨m ++ m', p.append p', all2_app q q'⟩

theorem Shuf.left {α β : Type} {R : α → β → Prop} {l l₁ : List α} {l' : List β} (hp : l.Perm l₁) (h : Shuf R l l') : Shuf R l₁ l' := by
  obtain ⟨m, p, q⟩ := h
  exact ⟨m, p.trans hp, q⟩

theorem Shuf.right {α β : Type} {R : α → β → Prop} {l : List α} {l' l₁ : List β} (hp : l'.Perm l₁) (h : Shuf R l l') : Shuf R l l₁ := by
  obtain ⟨m, p, q⟩ := h
  obtain ⟨m', p', q'⟩ := all2_perm hp.symm m q
  exact ⟨m', p'.trans p, q'⟩

theorem Shuf.mono {α β : Type} {R S : α → β → Prop} (hRS : ∀ a b, R a b → S a b) {l : List α} {l' : List β} (h : Shuf R l l') : Shuf S l l' := by
  obtain ⟨m, p, q⟩ := h
  refine ⟨m, p, ?_⟩
  clear p
  induction q with
  | nil => exact .nil
  | cons h _ ih => exact .cons (hRS _ _ h) ih

theorem Shuf.flatMap {α β γ δ : Type} {R : α → β → Prop} {S : γ → δ → Prop} {f : α → List γ} {g : β → List δ} (hf : ∀ a b, R a b → Shuf S (f a) (g b))
    {l : List α} {l' : List β} (h : Shuf R l l') : Shuf S (l.flatMap f) (l'.flatMap g) := by
  obtain ⟨m, p, q⟩ := h
  refine Shuf.left (p.flatMap_right f) ?_
  clear p
  induction q with
  | nil => exact .nil
  | cons h _ ih => exact (hf _ _ h).append ih

theorem Shuf.map {α β γ δ : Type} {R : α → β → Prop} {S : γ → δ → Prop} {f : α → γ} {g : β → δ} (hf : ∀ a b, R a b → S (f a) (g b))
    {l : List α} {l' : List β} (h : Shuf R l l') : Shuf S (l.map f) (l'.map g) := by
  obtain ⟨m, p, q⟩ := h
  refine ⟨m.map f, p.map f, ?_⟩
  clear p
  induction q with
  | nil => exact .nil
  | cons h _ ih => exact .cons (hf _ _ h) ih

theorem Shuf.filter {α β : Type} {R : α → β → Prop} {f : α → Bool} {g : β → Bool} (hf : ∀ a b, R a b → f a = g b)
    {l : List α} {l' : List β} (h : Shuf R l l') : Shuf R (l.filter f) (l'.filter g) := by
  obtain ⟨m, p, q⟩ := h
  refine ⟨m.filter f, p.filter f, ?_⟩
  clear p
  induction q with
  | nil => exact .nil
  | cons h _ ih =>
    rw [List.filter_cons, List.filter_cons, hf _ _ h]
    split
    · exact .cons h ih
    · exact ih

theorem Shuf.any {α β : Type} {R : α → β → Prop} {f : α → Bool} {g : β → Bool} (hf : ∀ a b, R a b → f a = g b)
    {l : List α} {l' : List β} (h : Shuf R l l') : l.any f = l'.any g := by
  obtain ⟨m, p, q⟩ := h
  rw [← p.any_eq]
  clear p
  induction q with
  | nil => rfl
  | cons h _ ih => rw [List.any_cons, List.any_cons, hf _ _ h, ih]

theorem Shuf.all {α β : Type} {R : α → β → Prop} {f : α → Bool} {g : β → Bool} (hf : ∀ a b, R a b → f a = g b)
    {l : List α} {l' : List β} (h : Shuf R l l') : l.all f = l'.all g := by
  obtain ⟨m, p, q⟩ := h
  rw [← p.all_eq]
  clear p
  induction q with
  | nil => rfl
  | cons h _ ih => rw [List.all_cons, List.all_cons, hf _ _ h, ih]

theorem Shuf.length {α β : Type} {R : α → β → Prop} {l : List α} {l' : List β} (h : Shuf R l l') : l.length = l'.length := by
  obtain ⟨m, p, q⟩ := h
  rw [← p.length_eq]
  clear p
  induction q with
  | nil => rfl
  | cons _ _ ih => simp [ih]

/-! ### Generators -/

/-- what a generator yields, if it does not raise -/
abbrev GenS (R : PV → PV → Prop) (g g' : Gen) : Prop := SameFound R g.toList g'.toList

variable {R : PV → PV → Prop}

theorem genS_iff {g g' : Gen} : GenS R g g' ↔ (g.err = none ↔ g'.err = none) ∧ (g.err = none → Shuf R g.vals g'.vals) := by
  obtain ⟨v, e⟩ := g
  obtain ⟨v', e'⟩ := g'
  cases e <;> cases e' <;> simp [GenS, Gen.toList, SameFound]

theorem genS_ofPy {p q : Py (List PV)} (h : SameFound R p q) : GenS R (.ofPy p) (.ofPy q) := by
  cases p <;> cases q <;> exact h

theorem bindL_none {f : PV → Gen} {vs : List PV} : ((Gen.bindL f none vs).err = none ↔ ∀ v ∈ vs, (f v).err = none) ∧
    ((∀ v ∈ vs, (f v).err = none) → (Gen.bindL f none vs).vals = vs.flatMap fun v => (f v).vals) := by
  induction vs with
  | nil => simp [Gen.bindL]
  | cons v vs ih =>
    unfold Gen.bindL
    cases h : (f v).err with
    | some e => simp [h]
    | none => simp [h, ih.1]; exact fun h' => ih.2 h'

theorem bindL_some {f : PV → Gen} {e : PyErr} {vs : List PV} : (Gen.bindL f (some e) vs).err ≠ none := by
  induction vs with
  | nil => simp [Gen.bindL]
  | cons v vs ih =>
    unfold Gen.bindL
    cases (f v).err with
    | some e => simp
    | none => exact ih

theorem Shuf.forall {α β : Type} {R : α → β → Prop} {P : α → Prop} {Q : β → Prop} (hf : ∀ a b, R a b → (P a ↔ Q b))
    {l : List α} {l' : List β} (h : Shuf R l l') : (∀ a ∈ l, P a) ↔ ∀ b ∈ l', Q b := by
  obtain ⟨m, p, q⟩ := h
  have : (∀ a ∈ l, P a) ↔ ∀ a ∈ m, P a := ⟨fun h a ha => h a (p.mem_iff.1 ha), fun h a ha => h a (p.mem_iff.2 ha)⟩
  rw [this]
  clear p this
  induction q with
  | nil => simp
  | cons h _ ih => rw [List.forall_mem_cons, List.forall_mem_cons]; exact and_congr (hf _ _ h) ih

theorem Shuf.mem {α β : Type} {R : α → β → Prop} {l : List α} {l' : List β} (h : Shuf R l l') : Shuf (fun a b => R a b ∧ a ∈ l ∧ b ∈ l') l l' := by
  obtain ⟨m, p, q⟩ := h
  refine ⟨m, p, ?_⟩
  suffices ∀ {m : List α} {k : List β}, All2 R m k → (∀ a ∈ m, a ∈ l) → (∀ b ∈ k, b ∈ l') → All2 (fun a b => R a b ∧ a ∈ l ∧ b ∈ l') m k from
    this q (fun a ha => p.mem_iff.1 ha) (fun _ h => h)
  intro m k q
  induction q with
  | nil => intros; exact .nil
  | cons h _ ih =>
    intro h1 h2
    exact .cons ⟨h, h1 _ (List.mem_cons_self ..), h2 _ (List.mem_cons_self ..)⟩
      (ih (fun a ha => h1 a (List.mem_cons_of_mem _ ha)) (fun b hb => h2 b (List.mem_cons_of_mem _ hb)))

theorem genS_bind {f f' : PV → Gen} (hf : ∀ v v', R v v' → GenS R (f v) (f' v')) {g g' : Gen} (h : GenS R g g') : GenS R (g.bind f) (g'.bind f') := by
  obtain ⟨vs, e⟩ := g
  obtain ⟨vs', e'⟩ := g'
  rw [genS_iff] at h ⊢
  simp only [Gen.bind] at h ⊢
  cases e with
  | some e =>
    cases e' with
    | none => simp at h
    | some e' => exact ⟨by simp [bindL_some], fun h => absurd h bindL_some⟩
  | none =>
    cases e' with
    | some e' => simp at h
    | none =>
      have hs := h.2 rfl
      have he := hs.forall fun a b hab => (genS_iff.1 (hf a b hab)).1
      rw [bindL_none.1, bindL_none.1]
      refine ⟨he, fun hall => ?_⟩
      rw [bindL_none.2 hall, bindL_none.2 (he.1 hall)]
      exact hs.mem.flatMap fun a b hab => (genS_iff.1 (hf a b hab.1)).2 (hall a hab.2.1)

/-- both raise, or they agree -/
def SameTest : Py Bool → Py Bool → Prop
  | .ok a, .ok b => a = b
  | .error _, .error _ => True
  | _, _ => False

theorem filterL_none {t : PV → Py Bool} {vs : List PV} : ((Gen.filterL t none vs).err = none ↔ ∀ v ∈ vs, ∃ b, t v = .ok b) ∧
    ((∀ v ∈ vs, ∃ b, t v = .ok b) → (Gen.filterL t none vs).vals = vs.filter fun v => match t v with | .ok b => b | .error _ => false) := by
  induction vs with
  | nil => simp [Gen.filterL]
  | cons v vs ih =>
    unfold Gen.filterL
    cases h : t v with
    | error e => simp [h]
    | ok b =>
      cases b
      · simp only [List.forall_mem_cons, h]
        exact ⟨by rw [ih.1]; simp, fun h' => by rw [List.filter_cons, h]; simp [ih.2 h'.2]⟩
      · simp only [List.forall_mem_cons, h]
        exact ⟨by rw [ih.1]; simp, fun h' => by rw [List.filter_cons, h]; simp [ih.2 h'.2]⟩

theorem filterL_some {t : PV → Py Bool} {e : PyErr} {vs : List PV} : (Gen.filterL t (some e) vs).err ≠ none := by
  induction vs with
  | nil => simp [Gen.filterL]
  | cons v vs ih =>
    unfold Gen.filterL
    split
    · simp
    · exact ih
    · exact ih

theorem genS_filter {t t' : PV → Py Bool} (ht : ∀ v v', R v v' → SameTest (t v) (t' v')) {g g' : Gen} (h : GenS R g g') :
    GenS R (g.filter t) (g'.filter t') := by
  obtain ⟨vs, e⟩ := g
  obtain ⟨vs', e'⟩ := g'
  rw [genS_iff] at h ⊢
  simp only [Gen.filter] at h ⊢
  cases e with
  | some e =>
    cases e' with
    | none => simp at h
    | some e' => exact ⟨by simp [filterL_some], fun h => absurd h filterL_some⟩
  | none =>
    cases e' with
    | some e' => simp at h
    | none =>
      have hs := h.2 rfl
      have he := hs.forall (P := fun v => ∃ b, t v = .ok b) (Q := fun v => ∃ b, t' v = .ok b) fun a b hab => by
        have := ht a b hab
        revert this
        cases t a <;> cases t' b <;> simp [SameTest]
      rw [filterL_none.1, filterL_none.1]
      refine ⟨he, fun hall => ?_⟩
      rw [filterL_none.2 hall, filterL_none.2 (he.1 hall)]
      refine hs.filter fun a b hab => ?_
      have := ht a b hab
      revert this
      cases t a <;> cases t' b <;> simp [SameTest]

theorem mapPy_shuf {f f' : PV → Py (List PV)} (hf : ∀ v v', R v v' → SameFound R (f v) (f' v')) {l l' : List PV} (h : Shuf R l l') :
    SameFound R ((mapPy f l).map List.flatten) ((mapPy f' l').map List.flatten) := by
  have key : ∀ (f : PV → Py (List PV)) (l : List PV), (mapPy f l).map List.flatten = (Gen.bind ⟨l, none⟩ fun v => .ofPy (f v)).toList := by
    intro f l
    induction l with
    | nil => rfl
    | cons v vs ih =>
      simp only [mapPy, Gen.bind, Gen.bindL, bind, Except.bind, pure, Except.pure] at ih ⊢
      cases hv : f v with
      | error e => rfl
      | ok a =>
        have e1 : Gen.ofPy (Except.ok a) = (⟨a, none⟩ : Gen) := rfl
        simp only [e1]
        cases hm : mapPy f vs with
        | error e =>
          rw [hm] at ih
          simp only [Except.map, Gen.toList] at ih ⊢
          cases hb : (Gen.bindL (fun v => Gen.ofPy (f v)) none vs).err <;> rw [hb] at ih
          · cases ih
          · cases ih; simp [hb]
        | ok ls =>
          rw [hm] at ih
          simp only [Except.map, Gen.toList] at ih ⊢
          cases hb : (Gen.bindL (fun v => Gen.ofPy (f v)) none vs).err <;> rw [hb] at ih <;> simp_all
  rw [key, key]
  exact genS_bind (fun v v' hv => genS_ofPy (hf v v' hv)) (show GenS R ⟨l, none⟩ ⟨l', none⟩ from h)

theorem genS_force {f f' : PV → Py (List PV)} (hf : ∀ v v', R v v' → SameFound R (f v) (f' v')) {g g' : Gen} (h : GenS R g g') :
    GenS R (force f g) (force f' g') := by
  obtain ⟨vs, e⟩ := g
  obtain ⟨vs', e'⟩ := g'
  refine genS_ofPy ?_
  cases e with
  | some e =>
    cases e' with
    | none => simp [GenS, Gen.toList, SameFound] at h
    | some e' =>
      simp only [bind, Except.bind]
      cases mapPy f vs <;> cases mapPy f' vs' <;> trivial
  | none =>
    cases e' with
    | some e' => simp [GenS, Gen.toList, SameFound] at h
    | none =>
      have := mapPy_shuf hf (show Shuf R vs vs' from h)
      revert this
      simp only [bind, Except.bind]
      cases mapPy f vs <;> cases mapPy f' vs' <;> exact id

/-! ### Places -/

/-- the same place in two corpora, one of which is the other in another order: objects with what they are in; the number says of which
kind the object is (4: in metadata) -/
inductive Loc (X Y : Obj) : Nat → List Obj → List Obj → Prop
  | root : Loc X Y 3 [X] [Y]
  | igt {g g'} : g ∈ X.kids → Reord 2 g g' → Loc X Y 2 [g, X] [g', Y]
  | tier {t t' g g'} : Loc X Y 2 [g, X] [g', Y] → t ∈ g.kids → Reord 1 t t' → Loc X Y 1 [t, g, X] [t', g', Y]
  | item {i t t' g g'} : Loc X Y 1 [t, g, X] [t', g', Y] → i ∈ t.kids → Loc X Y 0 [i, t, g, X] [i, t', g', Y]
  | md {n m x y up up'} : Loc X Y n (x :: up) (y :: up') → m ∈ x.md → Loc X Y 4 (m :: x :: up) (m :: y :: up')
  | sub {a x up up'} : Loc X Y 4 (x :: up) (x :: up') → a ∈ x.kids → Loc X Y 4 (a :: x :: up) (a :: x :: up')

/-- the classes at a place -/
def ClsAt : Nat → Cls → Prop
  | 0, c => c = .item
  | 1, c => c = .tier
  | 2, c => c = .igt
  | 3, c => c = .corpus
  | _, c => c = .metadata ∨ c = .metaC ∨ c = .metaChild

structure LocFacts (n : Nat) (x y : Obj) (up up' : List Obj) : Prop where
  data : y.data = x.data
  md : y.md = x.md
  wf : x.WF
  cls : ClsAt n x.cls
  up : up'.map Obj.data = up.map Obj.data
  eq : n = 0 ∨ n = 4 → y = x

theorem wf_kid {x a : Obj} (h : x.WF) (ha : a ∈ x.kids) : a.WF ∧ some a.cls = x.cls.contained := by
  cases h with
  | mk _ _ _ _ _ h2 _ h4 => exact ⟨h4 a ha, h2 a ha⟩

theorem wf_md {x a : Obj} (h : x.WF) (ha : a ∈ x.md) : a.WF ∧ a.cls = .metadata := by
  cases h with
  | mk _ _ _ _ h1 _ h3 _ => exact ⟨h3 a ha, h1 a ha⟩

variable {X Y : Obj}

theorem reord_data {n : Nat} {x y : Obj} (h : Reord n x y) : y.data = x.data ∧ y.md = x.md := by
  cases n with
  | zero => cases h; exact ⟨rfl, rfl⟩
  | succ n => exact ⟨h.1, h.2.1⟩

theorem loc_facts (hX : X.WF) (hc : X.cls = .corpus) (hr : Reord 3 X Y) {n : Nat} {l l' : List Obj} (h : Loc X Y n l l') :
    ∃ x y up up', l = x :: up ∧ l' = y :: up' ∧ LocFacts n x y up up' := by
  induction h with
  | root => exact ⟨X, Y, [], [], rfl, rfl, (reord_data hr).1, (reord_data hr).2, hX, hc, rfl, fun h => by omega⟩
  | @igt g g' hg hgg =>
    obtain ⟨w, k⟩ := wf_kid hX hg
    rw [hc] at k
    exact ⟨g, g', _, _, rfl, rfl, (reord_data hgg).1, (reord_data hgg).2, w, by simpa [Cls.contained, ClsAt] using k, by simp [(reord_data hr).1], fun h => by omega⟩
  | @tier t t' g g' _ ht htt ih =>
    obtain ⟨x, y, up, up', e1, e2, f⟩ := ih
    cases e1; cases e2
    obtain ⟨w, k⟩ := wf_kid f.wf ht
    rw [show g.cls = .igt from f.cls] at k
    exact ⟨t, t', _, _, rfl, rfl, (reord_data htt).1, (reord_data htt).2, w, by simpa [Cls.contained, ClsAt] using k, by simp [(reord_data hr).1, f.data], fun h => by omega⟩
  | @item i t t' g g' _ hi ih =>
    obtain ⟨x, y, up, up', e1, e2, f⟩ := ih
    cases e1; cases e2
    obtain ⟨w, k⟩ := wf_kid f.wf hi
    rw [show t.cls = .tier from f.cls] at k
    exact ⟨i, i, _, _, rfl, rfl, rfl, rfl, w, by simpa [Cls.contained, ClsAt] using k, by have := f.up; simp_all [f.data], fun _ => rfl⟩
  | @md n m x y up up' _ hm ih =>
    obtain ⟨x, y, up, up', e1, e2, f⟩ := ih
    cases e1; cases e2
    obtain ⟨w, k⟩ := wf_md f.wf hm
    exact ⟨m, m, _, _, rfl, rfl, rfl, rfl, w, .inl k, by simp [f.data, f.up], fun _ => rfl⟩
  | @sub a x up up' _ ha ih =>
    obtain ⟨x, y, up, up', e1, e2, f⟩ := ih
    cases e1; cases e2
    obtain ⟨w, k⟩ := wf_kid f.wf ha
    refine ⟨a, a, _, _, rfl, rfl, rfl, rfl, w, ?_, by simp [f.up], fun _ => rfl⟩
    rcases f.cls with h | h | h <;> rw [h] at k <;> simp [Cls.contained] at k <;> simp [ClsAt, k]

theorem Loc.facts (hX : X.WF) (hc : X.cls = .corpus) (hr : Reord 3 X Y) {n : Nat} {x y : Obj} {up up' : List Obj} (h : Loc X Y n (x :: up) (y :: up')) :
    LocFacts n x y up up' := by
  obtain ⟨_, _, _, _, e1, e2, f⟩ := loc_facts hX hc hr h
  cases e1; cases e2
  exact f

theorem all2_mono_mem {α β : Type} {R S : α → β → Prop} {l : List α} {m : List β} (h : All2 R l m) (hs : ∀ a ∈ l, ∀ b, R a b → S a b) : All2 S l m :=
  all2_strengthen h hs

/-- a place with its contents -/
def LocSome (X Y : Obj) (l l' : List Obj) : Prop := ∃ n, Loc X Y n l l'

theorem loc_kids (hX : X.WF) (hc : X.cls = .corpus) (hr : Reord 3 X Y) {n : Nat} {x y : Obj} {up up' : List Obj} (h : Loc X Y n (x :: up) (y :: up')) :
    Shuf (fun a b => Loc X Y (if n = 4 then 4 else n - 1) (a :: x :: up) (b :: y :: up')) x.kids y.kids := by
  have hf := h.facts hX hc hr
  cases h with
  | root =>
    obtain ⟨-, -, l, hp, ha⟩ := hr
    exact ⟨l, hp, all2_strengthen ha fun a ha b hab => .igt (hp.mem_iff.1 ha) hab⟩
  | igt hg hgg =>
    obtain ⟨-, -, l, hp, ha⟩ := id hgg
    exact ⟨l, hp, all2_strengthen ha fun a ha b hab => .tier (.igt hg hgg) (hp.mem_iff.1 ha) hab⟩
  | tier hg ht htt =>
    obtain ⟨-, -, l, hp, ha⟩ := id htt
    refine ⟨l, hp, all2_strengthen ha fun a ha b hab => ?_⟩
    cases (hab : b = a)
    exact .item (.tier hg ht htt) (hp.mem_iff.1 ha)
  | item hl hi =>
    have : x.kids = [] := by
      cases hk : x.kids with
      | nil => rfl
      | cons a k =>
        have := (wf_kid hf.wf (a := a) (by simp [hk])).2
        rw [show x.cls = .item from hf.cls] at this
        simp [Cls.contained] at this
    rw [this]
    exact .nil
  | md hl hm =>
    refine ⟨x.kids, .refl _, all2_strengthen (all2_self (R := Eq) (fun _ => rfl) _) fun a ha b hab => ?_⟩
    subst hab
    exact .sub (.md hl hm) ha
  | sub hl hm =>
    refine ⟨x.kids, .refl _, all2_strengthen (all2_self (R := Eq) (fun _ => rfl) _) fun a ha b hab => ?_⟩
    subst hab
    exact .sub (.sub hl hm) ha

theorem loc_mds (hX : X.WF) (hc : X.cls = .corpus) (hr : Reord 3 X Y) {n : Nat} {x y : Obj} {up up' : List Obj} (h : Loc X Y n (x :: up) (y :: up')) :
    Shuf (fun a b => a = b ∧ Loc X Y 4 (a :: x :: up) (b :: y :: up')) x.md y.md := by
  rw [(h.facts hX hc hr).md]
  refine .of_all2 (all2_strengthen (all2_self (R := Eq) (fun _ => rfl) _) fun a ha b hab => ?_)
  subst hab
  exact ⟨rfl, .md h ha⟩

/-- values at the same place, or the same -/
def PvL (X Y : Obj) : PV → PV → Prop
  | .node x up, .node y up' => ∃ n, Loc X Y n (x :: up) (y :: up')
  | .str s, .str s' => s = s'
  | .none, .none => True
  | .list l, .list l' => l = l'
  | _, _ => False

theorem nsmapOf_data : ∀ {l l' : List Obj}, l'.map Obj.data = l.map Obj.data → nsmapOf l' = nsmapOf l := by
  intro l
  induction l with
  | nil => intro l' h; cases l' with
    | nil => rfl
    | cons _ _ => simp at h
  | cons x l ih => intro l' h; cases l' with
    | nil => simp at h
    | cons y l' =>
      simp only [List.map_cons, List.cons.injEq] at h
      simp only [nsmapOf, h.1, ih h.2]

/-! ### Steps -/

theorem member_data {a b : Obj} (h : b.data = a.data) (k : Str) : member b k = member a k := by
  cases a; cases b
  cases (show _ = _ from h)
  rfl

theorem select_shuf {R : Obj → Obj → Prop} (hd : ∀ a b, R a b → b.data = a.data) (m : Option (Dict Str Str)) (cr : Dict Str (Option Str)) {l l' : List Obj} (h : Shuf R l l') :
    (∃ e, select m l cr = .error e ∧ select m l' cr = .error e) ∨ ∃ k k', select m l cr = .ok k ∧ select m l' cr = .ok k' ∧ Shuf R k k' := by
  have hm : ∀ a b k, R a b → member a k = member b k := by
    intro a b k hab
    exact (member_data (hd a b hab) k).symm
  unfold select
  split
  · cases m with
    | none => exact .inl ⟨_, rfl, rfl⟩
    | some m => exact .inr ⟨_, _, rfl, rfl, h.filter fun a b hab => by simp only [hm a b _ hab]⟩
  · exact .inr ⟨_, _, rfl, rfl, h.filter fun a b hab => by simp only [hm a b _ hab]⟩

theorem selectKids_shuf (hX : X.WF) (hc : X.cls = .corpus) (hr : Reord 3 X Y) {n : Nat} {x y : Obj} {up up' : List Obj} (h : Loc X Y n (x :: up) (y :: up'))
    (ns nm : Option Str) : SameFound (PvL X Y) (selectKids x up ns nm) (selectKids y up' ns nm) := by
  have hf := h.facts hX hc hr
  unfold selectKids
  rw [show nsmapOf (y :: up') = nsmapOf (x :: up) from nsmapOf_data (by simp [hf.data, hf.up])]
  rcases select_shuf (fun a b hab => (hab.facts hX hc hr).data) (some (nsmapOf (x :: up))) (crit ns nm) (loc_kids hX hc hr h) with ⟨e, e1, e2⟩ | ⟨k, k', e1, e2, hs⟩
  · rw [e1, e2]; trivial
  · rw [e1, e2]
    exact hs.map fun a b hab => ⟨_, hab⟩

theorem mdKids_shuf (hX : X.WF) (hc : X.cls = .corpus) (hr : Reord 3 X Y) {n : Nat} {x y : Obj} {up up' : List Obj} (h : Loc X Y n (x :: up) (y :: up'))
    (ns : Option Str) : Shuf (PvL X Y) (mdKids x up ns) (mdKids y up' ns) := by
  have hm := loc_mds hX hc hr h
  unfold mdKids
  cases ns with
  | none => exact hm.map fun a b hab => ⟨_, hab.2⟩
  | some s => exact (hm.filter fun a b hab => by rw [hab.1]).map fun a b hab => ⟨_, hab.2⟩

theorem findChild_shuf (hX : X.WF) (hc : X.cls = .corpus) (hr : Reord 3 X Y) {v v' : PV} (h : PvL X Y v v') (name : Str) :
    SameFound (PvL X Y) (findChild v name) (findChild v' name) := by
  revert h
  rcases v with ⟨x, up⟩ | s | _ | l <;> rcases v' with ⟨y, up'⟩ | s' | _ | l' <;> intro h <;> try exact h.elim
  · obtain ⟨n, h⟩ := h
    have hcls : y.cls = x.cls := congrArg Data.cls (h.facts hX hc hr).data
    simp only [findChild, hcls]
    split
    · have := selectKids_shuf hX hc hr h (splitNs name).1 none
      revert this
      cases selectKids x up (splitNs name).1 none <;> cases selectKids y up' (splitNs name).1 none <;> intro this
      · trivial
      · exact this
      · exact this
      · exact (mdKids_shuf hX hc hr h none).append this
    · split
      · exact selectKids_shuf hX hc hr h _ _
      · split
        · exact mdKids_shuf hX hc hr h _
        · split
          · exact selectKids_shuf hX hc hr h _ _
          · exact .nil
  · simp only [findChild]
    split
    · trivial
    · exact .nil
  · exact .nil
  · simp only [findChild]
    split
    · trivial
    · exact .nil

theorem getAttribute_data {l l' : List Obj} (h : l'.map Obj.data = l.map Obj.data) (k : Str) (d : Option Str) (ns : Option Str) :
    getAttribute l' k d false ns = getAttribute l k d false ns := by
  cases l with
  | nil => cases l' with
    | nil => rfl
    | cons _ _ => simp at h
  | cons x l => cases l' with
    | nil => simp at h
    | cons y l' =>
      have hn := nsmapOf_data h
      simp only [List.map_cons, List.cons.injEq] at h
      simp [getAttribute, hn, h.1]

theorem pvL_ofOpt (o : Option Str) : PvL X Y (.ofOpt o) (.ofOpt o) := by
  cases o
  · trivial
  · exact rfl

theorem findAttr_shuf (hX : X.WF) (hc : X.cls = .corpus) (hr : Reord 3 X Y) {v v' : PV} (h : PvL X Y v v') (name : Str) :
    SameFound (PvL X Y) (findAttr v name) (findAttr v' name) := by
  revert h
  rcases v with ⟨x, up⟩ | s | _ | l <;> rcases v' with ⟨y, up'⟩ | s' | _ | l' <;> intro h <;> try exact h.elim
  · obtain ⟨n, h⟩ := h
    have hf := h.facts hX hc hr
    have hm : ∀ k, member y k = member x k := fun k => member_data hf.data k
    have ha : ∀ ns, getAttr1 (y :: up') ns = getAttr1 (x :: up) ns := fun ns => by
      funext k
      simp only [getAttr1, getAttribute_data (show (y :: up').map Obj.data = (x :: up).map Obj.data by simp [hf.data, hf.up])]
    have hself : ∀ p : Py (List PV), (∀ l, p = .ok l → ∀ v ∈ l, PvL X Y v v) → SameFound (PvL X Y) p p := by
      intro p hp
      cases p with
      | error e => trivial
      | ok l => exact .of_all2 (all2_strengthen (all2_self (R := Eq) (fun _ => rfl) _) fun a ha b hab => by subst hab; exact hp l rfl a ha)
    have hofa : ∀ ns k v, getAttr1 (x :: up) ns k = .ok v → PvL X Y v v := by
      intro ns k v hv
      unfold getAttr1 at hv
      cases hg : getAttribute (x :: up) k none false ns with
      | error e => rw [hg] at hv; cases hv
      | ok o => rw [hg] at hv; cases hv; exact pvL_ofOpt o
    simp only [findAttr, hm, ha, hf.data]
    split
    · cases member x name with
      | none => exact .nil
      | some s => exact .of_all2 (.cons rfl .nil)
    · split
      · refine hself _ fun l hl v hv => ?_
        have : ∀ {ks : List Str} {l : List PV}, mapPy (getAttr1 (x :: up) (splitNs name).1) ks = .ok l → ∀ v ∈ l, PvL X Y v v := by
          intro ks
          induction ks with
          | nil => intro l hl v hv; cases hl; cases hv
          | cons k ks ih =>
            intro l hl v hv
            unfold mapPy at hl
            obtain ⟨a, h1, hl⟩ := bind_ok' hl
            obtain ⟨b, h2, hl⟩ := bind_ok' hl
            cases hl
            rcases List.mem_cons.1 hv with rfl | hv
            · exact hofa _ _ _ h1
            · exact ih h2 v hv
        exact this hl v hv
      · refine hself _ fun l hl v hv => ?_
        cases hg : getAttr1 (x :: up) (splitNs name).1 (splitNs name).2 with
        | error e => rw [hg] at hl; cases hl
        | ok o =>
          rw [hg] at hl
          cases hl
          simp only [List.mem_singleton] at hv
          subst hv
          exact hofa _ _ _ hg
  all_goals
    simp only [findAttr]
    split
    · exact .nil
    · trivial

theorem parentOf_shuf (hX : X.WF) (hc : X.cls = .corpus) (hr : Reord 3 X Y) {v v' : PV} (h : PvL X Y v v') :
    SameFound (PvL X Y) ((parentOf v).map fun p => [p]) ((parentOf v').map fun p => [p]) := by
  revert h
  rcases v with ⟨x, up⟩ | s | _ | l <;> rcases v' with ⟨y, up'⟩ | s' | _ | l' <;> intro h <;> try exact h.elim
  · obtain ⟨n, h⟩ := h
    have one : ∀ {n : Nat} {a b : Obj} {u u' : List Obj}, Loc X Y n (a :: u) (b :: u') → Shuf (PvL X Y) [.node a u] [.node b u'] :=
      fun h => .of_all2 (.cons ⟨_, h⟩ .nil)
    cases h with
    | root =>
      have hy : Y.cls = .corpus := by rw [Obj.cls, (reord_data hr).1]; exact hc
      simp [parentOf, hc, hy, Except.map, SameFound]
    | igt => exact one .root
    | tier h => exact one h
    | item h => exact one h
    | md h => exact one h
    | sub h => exact one h
  all_goals trivial

theorem dw_cons {x : Obj} {l m : List Obj} (h : x.cls ≠ .corpus) (hl : (l.dropWhile fun y => decide (y.cls ≠ .corpus)) = m) :
    ((x :: l).dropWhile fun y => decide (y.cls ≠ .corpus)) = m := by
  rw [List.dropWhile_cons, if_pos (by simpa using h), hl]

theorem getCorpus_shuf (hX : X.WF) (hc : X.cls = .corpus) (hr : Reord 3 X Y) {v v' : PV} (h : PvL X Y v v') :
    (∃ e e', getCorpus v = .error e ∧ getCorpus v' = .error e') ∨ ∃ w w', getCorpus v = .ok w ∧ getCorpus v' = .ok w' ∧ PvL X Y w w' := by
  revert h
  rcases v with ⟨x, up⟩ | s | _ | l <;> rcases v' with ⟨y, up'⟩ | s' | _ | l' <;> intro h <;> try exact h.elim
  · obtain ⟨n, h⟩ := h
    refine .inr ⟨.node X [], .node Y [], ?_⟩
    suffices ∀ {n : Nat} {l l' : List Obj}, Loc X Y n l l' → (l.dropWhile fun y => decide (y.cls ≠ .corpus)) = [X] ∧ (l'.dropWhile fun y => decide (y.cls ≠ .corpus)) = [Y] by
      obtain ⟨h1, h2⟩ := this h
      simp only [getCorpus, h1, h2]
      exact ⟨trivial, trivial, _, .root⟩
    have hy : Y.cls = .corpus := by rw [Obj.cls, (reord_data hr).1]; exact hc
    intro n l l' h
    induction h with
    | root => simp [List.dropWhile, hc, hy]
    | igt hg hgg =>
      have hf := (Loc.igt (Y := Y) hg hgg).facts hX hc hr
      have hf' := hf.cls
      rename_i g g'
      have e : g'.cls = g.cls := congrArg Data.cls hf.data
      simp only [ClsAt] at hf'
      simp [List.dropWhile, e, hf', hc, hy]
    | tier h ht htt ih =>
      have hf := (Loc.tier h ht htt).facts hX hc hr
      have hf' := hf.cls
      rename_i t t' g g'
      have e : t'.cls = t.cls := congrArg Data.cls hf.data
      simp only [ClsAt] at hf'
      exact ⟨dw_cons (by simp [hf']) ih.1, dw_cons (by simp [e, hf']) ih.2⟩
    | item h hi ih =>
      have hf := ((Loc.item h hi).facts hX hc hr).cls
      simp only [ClsAt] at hf
      exact ⟨dw_cons (by simp [hf]) ih.1, dw_cons (by simp [hf]) ih.2⟩
    | md h hm ih =>
      have hf := ((Loc.md h hm).facts hX hc hr).cls
      simp only [ClsAt] at hf
      rcases hf with h | h | h <;> exact ⟨dw_cons (by simp [h]) ih.1, dw_cons (by simp [h]) ih.2⟩
    | sub h hm ih =>
      have hf := ((Loc.sub h hm).facts hX hc hr).cls
      simp only [ClsAt] at hf
      rcases hf with h | h | h <;> exact ⟨dw_cons (by simp [h]) ih.1, dw_cons (by simp [h]) ih.2⟩
  all_goals exact .inl ⟨_, _, rfl, rfl⟩

/-! ### Descendants -/

theorem objName_data {a b : Obj} (h : b.data = a.data) : objName b = objName a := by
  cases a; cases b
  cases (show _ = _ from h)
  rfl

theorem descObj_eq (name : Str) (up : List Obj) (x : Obj) : descObj name up x =
    (if ((splitNs name).1 = none ∨ x.data.ns = (splitNs name).1) ∧ objName x = some (splitNs name).2 then [.node x up] else []) ++
    (if x.cls = .item then [] else x.md.flatMap (descObj (splitNs name).2 (x :: up)) ++ x.kids.flatMap (descObj (splitNs name).2 (x :: up))) := by
  cases x with
  | mk d md kids =>
    rw [descObj, descObjs_flatMap, descObjs_flatMap]
    rfl

theorem size_kid {x a : Obj} (h : a ∈ x.kids) : sizeOf a < sizeOf x := by
  cases x with
  | mk d md kids =>
    have := List.sizeOf_lt_of_mem (show a ∈ kids from h)
    simp only [Obj.mk.sizeOf_spec]
    omega

theorem size_md {x a : Obj} (h : a ∈ x.md) : sizeOf a < sizeOf x := by
  cases x with
  | mk d md kids =>
    have := List.sizeOf_lt_of_mem (show a ∈ md from h)
    simp only [Obj.mk.sizeOf_spec]
    omega

theorem descObj_shuf (hX : X.WF) (hc : X.cls = .corpus) (hr : Reord 3 X Y) : ∀ (N : Nat) (name : Str) {n : Nat} {x y : Obj} {up up' : List Obj}, sizeOf x < N →
    Loc X Y n (x :: up) (y :: up') → Shuf (PvL X Y) (descObj name up x) (descObj name up' y) := by
  intro N
  induction N with
  | zero => intro _ _ _ _ _ _ h; omega
  | succ N ih =>
    intro name n x y up up' hN h
    have hf := h.facts hX hc hr
    have hcls : y.cls = x.cls := congrArg Data.cls hf.data
    rw [descObj_eq, descObj_eq, objName_data hf.data, hf.data, hcls]
    refine Shuf.append ?_ ?_
    · split
      · exact .of_all2 (.cons ⟨_, h⟩ .nil)
      · exact .nil
    · split
      · exact .nil
      · refine Shuf.append ?_ ?_
        · exact (loc_mds hX hc hr h).mem.flatMap fun a b hab => ih _ (by have := size_md hab.2.1; omega) hab.1.2
        · exact (loc_kids hX hc hr h).mem.flatMap fun a b hab => ih _ (by have := size_kid hab.2.1; omega) hab.1

theorem descSelf_shuf (hX : X.WF) (hc : X.cls = .corpus) (hr : Reord 3 X Y) {v v' : PV} (h : PvL X Y v v') (name : Str) :
    GenS (PvL X Y) (descSelf v name) (descSelf v' name) := by
  revert h
  rcases v with ⟨x, up⟩ | s | _ | l <;> rcases v' with ⟨y, up'⟩ | s' | _ | l' <;> intro h <;> try exact h.elim
  · obtain ⟨n, h⟩ := h
    exact descObj_shuf hX hc hr _ name (Nat.lt_succ_self _) h
  · simp only [descSelf]
    split <;> trivial
  · simp only [descSelf]
    split
    · trivial
    · show Shuf _ _ _
      split
      · exact .of_all2 (.cons trivial .nil)
      · exact .nil
  · simp only [descSelf]
    split <;> trivial

/-! ### References -/

theorem Shuf.perm {α : Type} {l l' : List α} (h : Shuf (fun a b : α => a = b) l l') : l.Perm l' := by
  obtain ⟨m, p, q⟩ := h
  have : m = l' := by
    clear p
    induction q with
    | nil => rfl
    | cons h _ ih => rw [h, ih]
  exact this ▸ p.symm

theorem Shuf.of_perm {α : Type} {l l' : List α} (h : l.Perm l') : Shuf (fun a b : α => a = b) l l' := ⟨l', h.symm, all2_self (fun _ => rfl) _⟩

theorem Shuf.filterMap {α β γ δ : Type} {R : α → β → Prop} {S : γ → δ → Prop} {f : α → Option γ} {g : β → Option δ}
    (hf : ∀ a b, R a b → (f a = none ∧ g b = none) ∨ ∃ c d, f a = some c ∧ g b = some d ∧ S c d)
    {l : List α} {l' : List β} (h : Shuf R l l') : Shuf S (l.filterMap f) (l'.filterMap g) := by
  obtain ⟨m, p, q⟩ := h
  refine ⟨m.filterMap f, p.filterMap f, ?_⟩
  clear p
  induction q with
  | nil => exact .nil
  | cons h _ ih =>
    rw [List.filterMap_cons, List.filterMap_cons]
    rcases hf _ _ h with ⟨e1, e2⟩ | ⟨c, d, e1, e2, hs⟩ <;> rw [e1, e2]
    · exact ih
    · exact .cons hs ih

theorem Shuf.exists {α β : Type} {R : α → β → Prop} {l : List α} {l' : List β} (h : Shuf R l l') {a : α} (ha : a ∈ l) : ∃ b ∈ l', R a b := by
  obtain ⟨m, p, q⟩ := h
  exact q.mem_left _ (p.mem_iff.2 ha)

/-- a tier, or an item in its tier, and the same in the sorted igt -/
inductive EntL (g g' : Obj) : Entry → Entry → Prop
  | tier {t t'} : t ∈ g.kids → Reord 1 t t' → EntL g g' { tier := none, obj := t } { tier := none, obj := t' }
  | item {t t' i} : t ∈ g.kids → Reord 1 t t' → i ∈ t.kids → EntL g g' { tier := some t, obj := i } { tier := some t', obj := i }

theorem EntL.data {g g' : Obj} {e e' : Entry} (h : EntL g g' e e') : e'.obj.data = e.obj.data := by
  cases h with
  | tier _ h => exact (reord_data h).1
  | item => rfl

theorem EntL.allowed {g g' : Obj} {e e' : Entry} (h : EntL g g' e e') {al : Entry → List Str} (hal : ByType al) : al e' = al e := by
  refine hal _ _ (by rw [h.data]) ?_
  cases h with
  | tier => rfl
  | item _ h => simp [(reord_data h).1]

theorem tierEntries_shuf {g g' : Obj} (h : Reord 2 g g') : Shuf (EntL g g') (tierEntries g) (tierEntries g') := by
  obtain ⟨-, -, l, hp, ha⟩ := h
  have : Shuf (fun t t' => t ∈ g.kids ∧ Reord 1 t t') g.kids g'.kids := ⟨l, hp, all2_strengthen ha fun a ha b hab => ⟨hp.mem_iff.1 ha, hab⟩⟩
  exact this.map fun a b hab => .tier hab.1 hab.2

theorem itemEntries_shuf {g g' : Obj} (h : Reord 2 g g') : Shuf (EntL g g') (itemEntries g) (itemEntries g') := by
  obtain ⟨-, -, l, hp, ha⟩ := h
  have : Shuf (fun t t' => t ∈ g.kids ∧ Reord 1 t t') g.kids g'.kids := ⟨l, hp, all2_strengthen ha fun a ha b hab => ⟨hp.mem_iff.1 ha, hab⟩⟩
  refine Shuf.map (R := fun n n' : Obj × Obj => EntL g g' (nodeEntry n) (nodeEntry n')) (fun a b hab => hab) (this.flatMap fun t t' htt => ?_)
  have hk : Shuf (fun a b : Obj => a = b ∧ a ∈ t.kids ∧ b ∈ t'.kids) t.kids t'.kids := (Shuf.of_perm (reord_one htt.2).2.symm).mem
  refine hk.map fun a b hab => ?_
  obtain ⟨rfl, hab, -⟩ := hab
  exact .item htt.1 htt.2 hab

theorem entries_shuf {g g' : Obj} (h : Reord 2 g g') : Shuf (EntL g g') (tierEntries g ++ itemEntries g) (tierEntries g' ++ itemEntries g') :=
  (tierEntries_shuf h).append (itemEntries_shuf h)

theorem igtOK_sorted {g g' : Obj} (h : Reord 2 g g') (ho : IgtOK g) : IgtOK g' := by
  have hs := entries_shuf h
  refine ⟨?_, ?_⟩
  · have : Shuf (fun a b : Str => a = b) ((tierEntries g ++ itemEntries g).filterMap Entry.id) ((tierEntries g' ++ itemEntries g').filterMap Entry.id) :=
      hs.filterMap fun a b hab => by
        have e : b.id = a.id := by rw [Entry.id, hab.data]
        cases hi : a.id with
        | none => exact .inl ⟨rfl, e.trans hi⟩
        | some i => exact .inr ⟨i, i, rfl, e.trans hi, rfl⟩
    exact this.perm.nodup_iff.1 ho.unique
  · exact (hs.forall (P := fun e => ∀ i, e.id = some i → idAccepted i = true) fun a b hab => by
      have e : b.id = a.id := by rw [Entry.id, hab.data]
      rw [e]).1 ho.valid

theorem getAny_none {c : PCfg} {g : Obj} (hf : XP.Fresh c g) {i : Str} (hi : idAccepted i = true) (hn : ∀ e ∈ tierEntries g ++ itemEntries g, e.id ≠ some i) :
    getAny { igt := g, itemdict := c.index g } i = none := by
  have h1 : ∀ t ∈ g.kids, t.data.id ≠ some i := fun t ht => hn ⟨none, t⟩ (List.mem_append_left _ (mem_tierEntries.2 ⟨rfl, ht⟩))
  rw [getAny, contGet_none hi h1]
  cases hg : igtGetItem { igt := g, itemdict := c.index g } (some i) with
  | none => rfl
  | some e =>
    obtain ⟨h2, h3⟩ := hf.exact i e hg
    exact absurd h3 (hn e (List.mem_append_right _ h2))

theorem fresh_of {c : PCfg} (hf : FreshAll c) {g : Obj} (ho : IgtOK g)   : XP.Fresh c g := fresh_new ho (hf g)

theorem getAny_mem {c : PCfg} {g : Obj} (hf : XP.Fresh c g) (ho : IgtOK g) {i : Str} {e : Entry} (he : e ∈ tierEntries g ++ itemEntries g) (hi : e.id = some i) :
    getAny { igt := g, itemdict := c.index g } i = some e := by
  rcases List.mem_append.1 he with he | he
  · exact getAny_tier (st := { igt := g, itemdict := c.index g }) ho he hi
  · exact getAny_item (st := { igt := g, itemdict := c.index g }) ho hf.indexed he hi

theorem getAny_shuf {c : PCfg} (hf : FreshAll c) {g g' : Obj} (h : Reord 2 g g') (ho : IgtOK g) {i : Str} (hi : idAccepted i = true) :
    (getAny { igt := g, itemdict := c.index g } i = none ∧ getAny { igt := g', itemdict := c.index g' } i = none) ∨
    ∃ e e', getAny { igt := g, itemdict := c.index g } i = some e ∧ getAny { igt := g', itemdict := c.index g' } i = some e' ∧ EntL g g' e e' := by
  have ho' := igtOK_sorted h ho
  have hs := entries_shuf h
  by_cases hx : ∃ e ∈ tierEntries g ++ itemEntries g, e.id = some i
  · obtain ⟨e, he, hid⟩ := hx
    obtain ⟨e', he', hee⟩ := hs.exists he
    have hid' : e'.id = some i := by rw [Entry.id, hee.data]; exact hid
    exact .inr ⟨e, e', getAny_mem (fresh_of hf ho) ho he hid, getAny_mem (fresh_of hf ho') ho' he' hid', hee⟩
  · have hn : ∀ e ∈ tierEntries g ++ itemEntries g, e.id ≠ some i := fun e he hid => hx ⟨e, he, hid⟩
    refine .inl ⟨getAny_none (fresh_of hf ho) hi hn, getAny_none (fresh_of hf ho') hi ?_⟩
    exact (hs.forall (P := fun e => e.id ≠ some i) fun a b hab => by rw [Entry.id, Entry.id, hab.data]).1 hn

theorem anyV_shuf {c : PCfg} (hf : FreshAll c) {g g' : Obj} (hg : g ∈ X.kids) (h : Reord 2 g g') (ho : IgtOK g) {i : Str} (hi : idAccepted i = true) :
    PvL X Y (anyV c g [X] i) (anyV c g' [Y] i) := by
  unfold anyV
  rcases getAny_shuf hf h ho hi with ⟨h1, h2⟩ | ⟨e, e', h1, h2, h3⟩ <;> rw [h1, h2]
  · trivial
  · cases h3 with
    | tier ht htt => exact ⟨_, .tier (.igt hg h) ht htt⟩
    | item ht htt hi => exact ⟨_, .item (.tier (.igt hg h) ht htt) hi⟩

/-- the referrers found in one object under an attribute, as often as the attribute is asked for -/
def contrib (allowed : Entry → List Str) (i : Str) (ras : Option (List Str)) (k : Str) (e : Entry) : List Str :=
  match e.id with
  | none => []
  | some oid => if i ∈ Xigt.ids (attr0 e.obj k) then List.replicate ((ras.getD (allowed e)).count k) oid else []

/-- an attribute that is asked for in an object -/
def asked (allowed : Entry → List Str) (ras : Option (List Str)) (k : Str) (e : Entry) : Bool := e.id.isSome && decide (k ∈ ras.getD (allowed e))

theorem get?_attrs (i : Str) (o : Obj) (oid k : Str) : ∀ (ras : List Str) (d : Dict Str (List Str)),
    Dict.get? (ras.foldl (referrersAttr i o oid) d) k =
      if k ∈ ras then some ((Dict.get? d k).getD [] ++ if i ∈ Xigt.ids (attr0 o k) then List.replicate (ras.count k) oid else []) else Dict.get? d k := by
  intro ras
  induction ras with
  | nil => intro d; simp
  | cons r ras ih =>
    intro d
    rw [List.foldl_cons, ih]
    simp only [referrersAttr, Dict.get?_set]
    by_cases hrk : r = k
    · subst hrk
      simp only [if_true, List.mem_cons, true_or, Option.getD_some, List.count_cons_self]
      by_cases hin : i ∈ Xigt.ids (attr0 o r)
      · simp only [hin, if_true]
        by_cases hk : r ∈ ras
        · simp [hk, List.replicate_succ]
        · simp [hk, List.count_eq_zero.2 hk]
      · simp [hin]
    · have hkr : ¬k = r := fun h => hrk h.symm
      simp only [hrk, hkr, if_false, List.mem_cons, false_or, List.count_cons_of_ne hrk]

theorem get?_objs (allowed : Entry → List Str) (i : Str) (ras : Option (List Str)) (k : Str) : ∀ (es : List Entry) (d : Dict Str (List Str)),
    Dict.get? (es.foldl (referrersObj allowed i ras) d) k =
      if es.any (asked allowed ras k) then some ((Dict.get? d k).getD [] ++ es.flatMap (contrib allowed i ras k)) else Dict.get? d k := by
  intro es
  induction es with
  | nil => intro d; simp
  | cons e es ih =>
    intro d
    rw [List.foldl_cons, ih]
    have h1 : Dict.get? (referrersObj allowed i ras d e) k = if asked allowed ras k e then some ((Dict.get? d k).getD [] ++ contrib allowed i ras k e) else Dict.get? d k := by
      unfold referrersObj asked contrib
      cases e.id with
      | none => simp
      | some oid => simp only [get?_attrs]; simp
    have h2 : asked allowed ras k e = false → contrib allowed i ras k e = [] := by
      unfold asked contrib
      cases e.id with
      | none => simp
      | some oid =>
        intro h
        have : k ∉ ras.getD (allowed e) := by simpa using h
        simp [List.count_eq_zero.2 this]
    rw [h1, List.any_cons, List.flatMap_cons]
    cases ha : asked allowed ras k e with
    | false => rw [h2 ha]; simp
    | true =>
      simp only [if_true, Bool.true_or, Option.getD_some]
      cases hb : es.any (asked allowed ras k) with
      | true => simp
      | false =>
        have : es.flatMap (contrib allowed i ras k) = [] := by
          rw [List.flatMap_eq_nil_iff]
          intro e' he'
          have hn : asked allowed ras k e' = false := by
            rw [List.any_eq_false] at hb
            simpa using hb e' he'
          unfold asked at hn
          unfold contrib
          revert hn
          cases e'.id with
          | none => simp
          | some oid =>
            intro h
            have : k ∉ ras.getD (allowed e') := by simpa using h
            simp [List.count_eq_zero.2 this]
        simp [this]

/-- the same keys, under each the same IDs but for the order -/
def DShuf (d d' : Dict Str (List Str)) : Prop := d.WF ∧ d'.WF ∧ ∀ k, (Dict.get? d k = none ↔ Dict.get? d' k = none) ∧ (listed d k).Perm (listed d' k)

theorem contrib_same {al : Entry → List Str} (hal : ByType al) {g g' : Obj} (i : Str) (ras : Option (List Str)) (k : Str) {e e' : Entry} (h : EntL g g' e e') :
    contrib al i ras k e' = contrib al i ras k e ∧ asked al ras k e' = asked al ras k e := by
  have e1 : e'.id = e.id := by rw [Entry.id, h.data]
  have e2 : attr0 e'.obj k = attr0 e.obj k := by rw [attr0, h.data]; rfl
  unfold contrib asked
  rw [e1, e2, h.allowed hal]
  exact ⟨rfl, rfl⟩

theorem fold_dshuf {al : Entry → List Str} (hal : ByType al) {g g' : Obj} (i : Str) (ras : Option (List Str)) {es es' : List Entry} (h : Shuf (EntL g g') es es')
    (d : Dict Str (List Str)) (hw : (es.foldl (referrersObj al i ras) d).WF) (hw' : (es'.foldl (referrersObj al i ras) d).WF) :
    DShuf (es.foldl (referrersObj al i ras) d) (es'.foldl (referrersObj al i ras) d) := by
  refine ⟨hw, hw', fun k => ?_⟩
  have h1 := h.any (f := asked al ras k) (g := asked al ras k) fun a b hab => (contrib_same hal i ras k hab).2.symm
  have h2 : (es.flatMap (contrib al i ras k)).Perm (es'.flatMap (contrib al i ras k)) :=
    (h.flatMap (S := fun a b : Str => a = b) fun a b hab => by rw [(contrib_same hal i ras k hab).1]; exact .of_perm (.refl _)).perm
  rw [listed, listed, get?_objs, get?_objs, h1]
  split
  · simp only [Option.getD_some]
    exact ⟨by simp, h2.append_left _⟩
  · exact ⟨.rfl, .refl _⟩

theorem flat_dshuf {d d' : Dict Str (List Str)} (h : DShuf d d') {f f' : Str → PV} (hf : ∀ k i, i ∈ listed d k → PvL X Y (f i) (f' i)) :
    Shuf (PvL X Y) ((sortItems d).flatMap fun p => p.2.map f) ((sortItems d').flatMap fun p => p.2.map f') := by
  obtain ⟨hw, hw', h⟩ := h
  obtain ⟨ras, r1, r2, r3⟩ := sortItems_flat d hw f
  obtain ⟨ras', q1, q2, q3⟩ := sortItems_flat d' hw' f'
  rw [r3, q3]
  have hp : ras.Perm ras' := by
    rw [List.perm_ext_iff_of_nodup (r1.imp fun h => by intro e; subst e; exact absurd h (List.lt_irrefl _)) (q1.imp fun h => by intro e; subst e; exact absurd h (List.lt_irrefl _))]
    intro k
    rw [r2, q2, XP.mem_keys, XP.mem_keys]
    exact not_congr (h k).1
  rw [← List.flatMap_def, ← List.flatMap_def]
  refine (Shuf.of_perm hp).flatMap fun k k' hk => ?_
  subst hk
  refine (Shuf.of_perm (h k).2).mem.map fun a b hab => ?_
  obtain ⟨rfl, ha, -⟩ := hab
  exact hf k a ha


theorem referents_shuf {c : PCfg} (hf : FreshAll c) (hal : ByType c.allowed) {g g' : Obj} (h : Reord 2 g g') (ho : IgtOK g) {i : Str} (hi : idAccepted i = true)
    (ras : Option (List Str)) :
    (∃ e e', referents c.allowed { igt := g, itemdict := c.index g } i ras = .error e ∧ referents c.allowed { igt := g', itemdict := c.index g' } i ras = .error e') ∨
    ∃ d, referents c.allowed { igt := g, itemdict := c.index g } i ras = .ok d ∧ referents c.allowed { igt := g', itemdict := c.index g' } i ras = .ok d ∧
      d.WF ∧ ∀ k j, j ∈ listed d k → idAccepted j = true := by
  unfold referents
  rcases getAny_shuf hf h ho hi with ⟨h1, h2⟩ | ⟨e, e', h1, h2, h3⟩ <;> rw [h1, h2]
  · exact .inl ⟨_, _, rfl, rfl⟩
  · refine .inr ⟨raMap e.obj (ras.getD (c.allowed e)), rfl, ?_, wf_raMap _ _, ?_⟩
    · have : ∀ l, raMap e'.obj l = raMap e.obj l := fun l => by simp only [raMap, attr0, h3.data]
      simp only [h3.allowed hal, this]
    · intro k j hj
      rw [listed_raMap] at hj
      split at hj
      · exact ids_accepted hj
      · cases hj

theorem listed_mem {c : PCfg} {i : Str} {ras : Option (List Str)} {es : List Entry} {k j : Str}
    (hj : j ∈ listed (es.foldl (referrersObj c.allowed i ras) (referrersInit ras)) k) : ∃ e ∈ es, e.id = some j := by
  rw [listed, get?_objs] at hj
  have h0 : (Dict.get? (referrersInit ras) k).getD [] = [] := listed_init ras k
  split at hj
  · rw [Option.getD_some, h0, List.nil_append, List.mem_flatMap] at hj
    obtain ⟨e, he, hm⟩ := hj
    refine ⟨e, he, ?_⟩
    unfold contrib at hm
    cases hid : e.id with
    | none => rw [hid] at hm; cases hm
    | some oid =>
      rw [hid] at hm
      simp only at hm
      split at hm
      · rw [(List.mem_replicate.1 hm).2]
      · cases hm
  · rw [h0] at hj; cases hj

theorem referrers_shuf {c : PCfg} (hf : FreshAll c) (hal : ByType c.allowed) {g g' : Obj} (h : Reord 2 g g') (ho : IgtOK g) {i : Str} (hi : idAccepted i = true)
    (ras : Option (List Str)) :
    (∃ e e', referrers c.allowed { igt := g, itemdict := c.index g } i ras = .error e ∧ referrers c.allowed { igt := g', itemdict := c.index g' } i ras = .error e') ∨
    ∃ d d', referrers c.allowed { igt := g, itemdict := c.index g } i ras = .ok d ∧ referrers c.allowed { igt := g', itemdict := c.index g' } i ras = .ok d' ∧
      DShuf d d' ∧ ∀ k j, j ∈ listed d k → idAccepted j = true := by
  have ho' := igtOK_sorted h ho
  have hg : ∀ {g : Obj}, IgtOK g → ∀ (es : List Entry), (∀ e ∈ es, e ∈ tierEntries g ++ itemEntries g) →
      ∀ k j, j ∈ listed (es.foldl (referrersObj c.allowed i ras) (referrersInit ras)) k → idAccepted j = true := by
    intro g ho es hes k j hj
    obtain ⟨e, he, hid⟩ := listed_mem hj
    exact ho.valid e (hes e he) j hid
  by_cases ht : ∃ t ∈ g.kids, t.data.id = some i
  · obtain ⟨t, ht, hid⟩ := ht
    obtain ⟨e', he', hee⟩ := (tierEntries_shuf h).exists (a := ⟨none, t⟩) (mem_tierEntries.2 ⟨rfl, ht⟩)
    have e1 : referrers c.allowed { igt := g, itemdict := c.index g } i ras = .ok ((tierEntries g).foldl (referrersObj c.allowed i ras) (referrersInit ras)) := by
      unfold referrers
      rw [contItem_tier ho ht hid]
    have e2 : referrers c.allowed { igt := g', itemdict := c.index g' } i ras = .ok ((tierEntries g').foldl (referrersObj c.allowed i ras) (referrersInit ras)) := by
      unfold referrers
      rw [contItem_tier ho' (mem_tierEntries.1 he').2 (i := i) (by rw [hee.data]; exact hid)]
    exact .inr ⟨_, _, e1, e2, fold_dshuf hal i ras (tierEntries_shuf h) _ (wf_referrers e1) (wf_referrers e2), hg ho _ fun e he => List.mem_append_left _ he⟩
  · have hn : ∀ t ∈ g.kids, t.data.id ≠ some i := fun t h1 h2 => ht ⟨t, h1, h2⟩
    have hn' : ∀ t ∈ g'.kids, t.data.id ≠ some i := by
      obtain ⟨-, -, l, hp, ha⟩ := id h
      exact (Shuf.forall (P := fun t : Obj => t.data.id ≠ some i) (Q := fun t : Obj => t.data.id ≠ some i) (R := Reord 1) (fun a b hab => by rw [(reord_data hab).1]) ⟨l, hp, ha⟩).1 hn
    have hx := getAny_shuf hf h ho hi
    simp only [getAny, contGet_none hi hn, contGet_none hi hn'] at hx
    rcases hx with ⟨h1, h2⟩ | ⟨e, e', h1, h2, -⟩
    · refine .inl ⟨.xigtLookupError, .xigtLookupError, ?_, ?_⟩
      · simp only [referrers, contItem_none hi hn, h1]
      · simp only [referrers, contItem_none hi hn', h2]
    · have e1 : referrers c.allowed { igt := g, itemdict := c.index g } i ras = .ok ((itemEntries g).foldl (referrersObj c.allowed i ras) (referrersInit ras)) := by
        simp only [referrers, contItem_none hi hn, h1]
      have e2 : referrers c.allowed { igt := g', itemdict := c.index g' } i ras = .ok ((itemEntries g').foldl (referrersObj c.allowed i ras) (referrersInit ras)) := by
        simp only [referrers, contItem_none hi hn', h2]
      exact .inr ⟨_, _, e1, e2, fold_dshuf hal i ras (itemEntries_shuf h) _ (wf_referrers e1) (wf_referrers e2), hg ho _ fun e he => List.mem_append_right _ he⟩

/-- IDs by which references find the same in any order: unique in the igt, and not numbers -/
structure Referable (g : Obj) : Prop where
  ok : IgtOK g
  own : ∀ i, g.data.id = some i → idAccepted i = true

theorem findRefs_shuf {c : PCfg} (hf : FreshAll c) (hal : ByType c.allowed) {g g' : Obj} (hg : g ∈ X.kids) (h : Reord 2 g g') (ho : IgtOK g) (r : Bool)
    {id : Option Str} (hi : ∀ i, id = some i → idAccepted i = true) (ras : Option (List Str)) :
    SameFound (PvL X Y) (findRefs c r g [X] id ras) (findRefs c r g' [Y] id ras) := by
  cases id with
  | none => trivial
  | some i =>
    have hi := hi i rfl
    unfold findRefs
    cases r with
    | true =>
      simp only [if_true, bind, Except.bind]
      rcases referrers_shuf hf hal h ho hi ras with ⟨e, e', h1, h2⟩ | ⟨d, d', h1, h2, h3, h4⟩
      · rw [h1, h2]; trivial
      · rw [h1, h2]
        exact flat_dshuf h3 fun k j hj => anyV_shuf hf hg h ho (h4 k j hj)
    | false =>
      simp only [Bool.false_eq_true, if_false, bind, Except.bind]
      rcases referents_shuf hf hal h ho hi ras with ⟨e, e', h1, h2⟩ | ⟨d, h1, h2, h3, h4⟩
      · rw [h1, h2]; trivial
      · rw [h1, h2]
        exact flat_dshuf ⟨h3, h3, fun k => ⟨.rfl, .refl _⟩⟩ fun k j hj => anyV_shuf hf hg h ho (h4 k j hj)

theorem refsOf_shuf {c : PCfg} (hX : X.WF) (hc : X.cls = .corpus) (hr : Reord 3 X Y) (hf : FreshAll c) (hal : ByType c.allowed) (hg : ∀ g ∈ X.kids, Referable g)
    {v v' : PV} (h : PvL X Y v v') (r : Bool) (ras : Option (List Str)) : SameFound (PvL X Y) (refsOf c r v ras) (refsOf c r v' ras) := by
  revert h
  rcases v with ⟨x, up⟩ | s | _ | l <;> rcases v' with ⟨y, up'⟩ | s' | _ | l' <;> intro h <;> try exact h.elim
  · obtain ⟨n, h⟩ := h
    have hF := h.facts hX hc hr
    have hcls : y.cls = x.cls := congrArg Data.cls hF.data
    have hk := hF.cls
    simp only [refsOf, hcls, hF.data]
    cases h with
    | root => simp only [hc]; trivial
    | igt hx hxx =>
      simp only [show x.cls = .igt from hk]
      exact findRefs_shuf hf hal hx hxx (hg _ hx).ok r (hg _ hx).own ras
    | tier hl ht htt =>
      cases hl with
      | igt hx hxx =>
        simp only [show x.cls = .tier from hk]
        exact findRefs_shuf hf hal hx hxx (hg _ hx).ok r (fun i hi => (hg _ hx).ok.valid ⟨none, x⟩ (List.mem_append_left _ (mem_tierEntries.2 ⟨rfl, ht⟩)) i hi) ras
    | item hl hi =>
      cases hl with
      | tier hl ht htt =>
        cases hl with
        | igt hx hxx =>
          simp only [show x.cls = .item from hk]
          exact findRefs_shuf hf hal hx hxx (hg _ hx).ok r
            (fun i hi' => (hg _ hx).ok.valid ⟨some _, x⟩ (List.mem_append_right _ (mem_itemEntries.2 ⟨_, ht, rfl, hi⟩)) i hi') ras
    | md => rcases hk with hk | hk | hk <;> simp only [hk] <;> trivial
    | sub => rcases hk with hk | hk | hk <;> simp only [hk] <;> trivial
  all_goals trivial

/-- what the functions of a path need in the igts -/
structure Needs (c : PCfg) (x : Obj) (fs : List Str) : Prop where
  value : lit! "value" ∈ fs → ∀ g ∈ x.kids, Named g
  refs : ∀ f ∈ fs, f ≠ lit! "text" → f ≠ lit! "value" → FreshAll c ∧ ByType c.allowed ∧ ∀ g ∈ x.kids, Referable g

theorem Needs.sub {c : PCfg} {x : Obj} {fs gs : List Str} (h : Needs c x gs) (hs : ∀ f ∈ fs, f ∈ gs) : Needs c x fs :=
  ⟨fun hv => h.value (hs _ hv), fun f hf => h.refs f (hs f hf)⟩

theorem function_shuf {c : PCfg} (hX : X.WF) (hc : X.cls = .corpus) (hr : Reord 3 X Y) {f : Str} (hn : Needs c X [f]) {v v' : PV} (h : PvL X Y v v') (args : List Str) :
    SameFound (PvL X Y) (function c v f args) (function c v' f args) := by
  unfold function
  by_cases h1 : f = lit! "text"
  · rw [if_pos h1, if_pos h1]
    revert h
    rcases v with ⟨x, up⟩ | s | _ | l <;> rcases v' with ⟨y, up'⟩ | s' | _ | l' <;> intro h <;> try exact h.elim
    · obtain ⟨n, h⟩ := h
      have hF := h.facts hX hc hr
      have hcls : y.cls = x.cls := congrArg Data.cls hF.data
      simp only [hcls, hF.data]
      split
      · exact .of_all2 (.cons (pvL_ofOpt _) .nil)
      · split
        · rename_i hm
          have hk : n = 4 := by
            have := hF.cls
            rw [hm] at this
            match n, this with
            | 0, h => cases h
            | 1, h => cases h
            | 2, h => cases h
            | 3, h => cases h
            | 4, _ => rfl
            | n + 5, _ => cases h
          rw [hF.eq (.inr hk)]
          exact .of_all2 (.cons rfl .nil)
        · trivial
    all_goals trivial
  · rw [if_neg h1, if_neg h1]
    by_cases h2 : f = lit! "value"
    · rw [if_pos h2, if_pos h2]
      have hv := hn.value (by simp [h2])
      revert h
      rcases v with ⟨x, up⟩ | s | _ | l <;> rcases v' with ⟨y, up'⟩ | s' | _ | l' <;> intro h <;> try exact h.elim
      · obtain ⟨n, h⟩ := h
        have hF := h.facts hX hc hr
        have hcls : y.cls = x.cls := congrArg Data.cls hF.data
        have hk := hF.cls
        simp only [hcls]
        cases h with
        | root => simp only [hc]; trivial
        | igt => simp only [show x.cls = .igt from hk]; trivial
        | tier => simp only [show x.cls = .tier from hk]; trivial
        | item hl hi =>
          cases hl with
          | tier hl ht htt =>
            cases hl with
            | igt hx hxx =>
              rename_i t t' g g'
              simp only [show x.cls = .item from hk, if_true, List.getElem?_cons_zero, List.getElem?_cons_succ]
              rw [value_sorted (hv _ hx) hxx c.depth t t' x ht (reord_data htt).1]
              cases value c.depth (some g) (some t) x with
              | error e => trivial
              | ok s => exact .of_all2 (.cons (pvL_ofOpt _) .nil)
        | md => rcases hk with hk | hk | hk <;> simp only [hk] <;> trivial
        | sub => rcases hk with hk | hk | hk <;> simp only [hk] <;> trivial
      all_goals trivial
    · rw [if_neg h2, if_neg h2]
      obtain ⟨hf, hal, hg⟩ := hn.refs f (by simp) h1 h2
      exact refsOf_shuf hX hc hr hf hal hg h _ _

/-! ### Paths -/

theorem pvL_isStr {v v' : PV} (h : PvL X Y v v') (s : Str) : PV.isStr s v = PV.isStr s v' := by
  revert h
  rcases v with ⟨x, up⟩ | t | _ | l <;> rcases v' with ⟨y, up'⟩ | t' | _ | l' <;> intro h <;> try exact h.elim
  · rfl
  · cases (show t = t' from h); rfl
  · rfl
  · rfl

theorem genS_one {v v' : PV} (h : PvL X Y v v') : GenS (PvL X Y) ⟨[v], none⟩ ⟨[v'], none⟩ := Shuf.of_all2 (.cons h .nil)

theorem genS_fail {R : PV → PV → Prop} {e e' : PyErr} : GenS R (.fail e) (.fail e') := trivial

mutual
theorem denPath_shuf {c : PCfg} (hX : X.WF) (hc : X.cls = .corpus) (hr : Reord 3 X Y) : ∀ (p : PPath) {v v' : PV}, Needs c X (fnsPath p) → PvL X Y v v' →
    GenS (PvL X Y) (denPath c p v) (denPath c p v')
  | .rel s, v, v', hn, h => by
    rw [denPath, denPath]
    exact denSteps_shuf hX hc hr s (hn.sub fun f hf => by simpa [fnsPath] using hf) (genS_one h)
  | .abs s, v, v', hn, h => by
    rw [denPath, denPath]
    rcases getCorpus_shuf hX hc hr h with ⟨e, e', h1, h2⟩ | ⟨w, w', h1, h2, h3⟩
    · rw [h1, h2]; exact genS_fail
    · rw [h1, h2]
      exact denSteps_shuf hX hc hr s (hn.sub fun f hf => by simpa [fnsPath] using hf) (genS_one h3)
  | .group a, v, v', hn, h => by
    rw [denPath, denPath]
    exact genS_ofPy (denAlts_shuf hX hc hr a (hn.sub fun f hf => by simpa [fnsPath] using hf) h)
theorem denSteps_shuf {c : PCfg} (hX : X.WF) (hc : X.cls = .corpus) (hr : Reord 3 X Y) : ∀ (s : PSteps) {g g' : Gen}, Needs c X (fnsSteps s) → GenS (PvL X Y) g g' →
    GenS (PvL X Y) (denSteps c s g) (denSteps c s g')
  | .last n ps, g, g', hn, h => by
    rw [denSteps, denSteps]
    exact denPreds_shuf hX hc hr ps (hn.sub fun f hf => by simp [fnsSteps, hf]) (denNode_shuf hX hc hr n (hn.sub fun f hf => by simp [fnsSteps, hf]) h)
  | .more n ps r, g, g', hn, h => by
    rw [denSteps, denSteps]
    exact denSteps_shuf hX hc hr r (hn.sub fun f hf => by simp [fnsSteps, hf])
      (denPreds_shuf hX hc hr ps (hn.sub fun f hf => by simp [fnsSteps, hf]) (denNode_shuf hX hc hr n (hn.sub fun f hf => by simp [fnsSteps, hf]) h))
theorem denNode_shuf {c : PCfg} (hX : X.WF) (hc : X.cls = .corpus) (hr : Reord 3 X Y) : ∀ (n : PNode) {g g' : Gen}, Needs c X (fnsNode n) → GenS (PvL X Y) g g' →
    GenS (PvL X Y) (denNode c n g) (denNode c n g')
  | .child n, g, g', hn, h => by
    rw [denNode, denNode]
    exact genS_bind (fun v v' hv => genS_ofPy (findChild_shuf hX hc hr hv n)) h
  | .desc n, g, g', hn, h => by
    rw [denNode, denNode]
    exact genS_bind (fun v v' hv => descSelf_shuf hX hc hr hv n) h
  | .attr n, g, g', hn, h => by
    rw [denNode, denNode]
    exact genS_bind (fun v v' hv => genS_ofPy (findAttr_shuf hX hc hr hv n)) h
  | .parent, g, g', hn, h => by
    rw [denNode, denNode]
    exact genS_bind (fun v v' hv => genS_ofPy (parentOf_shuf hX hc hr hv)) h
  | .self, g, g', hn, h => by
    rw [denNode, denNode]
    exact h
  | .fn f none, g, g', hn, h => by
    rw [denNode, denNode]
    exact genS_bind (fun v v' hv => genS_ofPy (function_shuf hX hc hr (hn.sub fun f hf => by simpa [fnsNode] using hf) hv _)) h
  | .fn f (some a), g, g', hn, h => by
    rw [denNode, denNode]
    exact genS_bind (fun v v' hv => genS_ofPy (function_shuf hX hc hr (hn.sub fun f hf => by simpa [fnsNode] using hf) hv _)) h
  | .alts a, g, g', hn, h => by
    rw [denNode, denNode]
    exact genS_force (fun v v' hv => denAlts_shuf hX hc hr a (hn.sub fun f hf => by simpa [fnsNode] using hf) hv) h
theorem denAlts_shuf {c : PCfg} (hX : X.WF) (hc : X.cls = .corpus) (hr : Reord 3 X Y) : ∀ (a : PAlts) {v v' : PV}, Needs c X (fnsAlts a) → PvL X Y v v' →
    SameFound (PvL X Y) (denAlts c a v) (denAlts c a v')
  | .one p, v, v', hn, h => by
    rw [denAlts, denAlts]
    exact denPath_shuf hX hc hr p (hn.sub fun f hf => by simpa [fnsAlts] using hf) h
  | .more p r, v, v', hn, h => by
    rw [denAlts, denAlts]
    have h1 := denPath_shuf hX hc hr p (hn.sub fun f hf => by simp [fnsAlts, hf]) h
    have h2 := denAlts_shuf hX hc hr r (hn.sub fun f hf => by simp [fnsAlts, hf]) h
    simp only [GenS] at h1
    revert h1 h2
    cases (denPath c p v).toList <;> cases (denPath c p v').toList <;> intro h1
    · intro _; trivial
    · exact h1.elim
    · exact h1.elim
    · cases denAlts c r v <;> cases denAlts c r v' <;> intro h2
      · trivial
      · exact h2
      · exact h2
      · exact Shuf.append h1 h2
theorem denPreds_shuf {c : PCfg} (hX : X.WF) (hc : X.cls = .corpus) (hr : Reord 3 X Y) : ∀ (ps : PPreds) {g g' : Gen}, Needs c X (fnsPreds ps) → GenS (PvL X Y) g g' →
    GenS (PvL X Y) (denPreds c ps g) (denPreds c ps g')
  | .nil, g, g', hn, h => by
    rw [denPreds, denPreds]
    exact h
  | .eq p s r, g, g', hn, h => by
    rw [denPreds, denPreds]
    refine denPreds_shuf hX hc hr r (hn.sub fun f hf => by simp [fnsPreds, hf]) (genS_filter (fun v v' hv => ?_) h)
    have h1 := denPath_shuf hX hc hr p (hn.sub fun f hf => by simp [fnsPreds, hf]) hv
    simp only [GenS] at h1
    revert h1
    cases (denPath c p v).toList <;> cases (denPath c p v').toList <;> intro h1 <;> try exact h1
    exact Shuf.any (R := PvL X Y) (fun a b hab => pvL_isStr hab s) h1
  | .ne p s r, g, g', hn, h => by
    rw [denPreds, denPreds]
    refine denPreds_shuf hX hc hr r (hn.sub fun f hf => by simp [fnsPreds, hf]) (genS_filter (fun v v' hv => ?_) h)
    have h1 := denPath_shuf hX hc hr p (hn.sub fun f hf => by simp [fnsPreds, hf]) hv
    simp only [GenS] at h1
    revert h1
    cases (denPath c p v).toList <;> cases (denPath c p v').toList <;> intro h1 <;> try exact h1
    exact Shuf.all (R := PvL X Y) (fun a b hab => by rw [pvL_isStr hab s]) h1
  | .ex p r, g, g', hn, h => by
    rw [denPreds, denPreds]
    refine denPreds_shuf hX hc hr r (hn.sub fun f hf => by simp [fnsPreds, hf]) (genS_filter (fun v v' hv => ?_) h)
    cases (denPath c p v).toList <;> cases (denPath c p v').toList <;> trivial
end

theorem pvL_sameVal (hX : X.WF) (hc : X.cls = .corpus) (hr : Reord 3 X Y) {v v' : PV} (h : PvL X Y v v') : SameVal v v' := by
  revert h
  rcases v with ⟨x, up⟩ | s | _ | l <;> rcases v' with ⟨y, up'⟩ | s' | _ | l' <;> intro h <;> try exact h
  obtain ⟨n, h⟩ := h
  have hF := h.facts hX hc hr
  exact ⟨hF.data, hF.md, hF.up⟩

/-- **C147**, paths in a sorted corpus: what is found is the same but for the order, if no function of the path needs more than the data -/
theorem C147_partial (cs : PCfg) (k : Nat) (a : Args) (x y : Obj) (hrun : run cs k a x = some (.ok y)) (hx : x.WF) (hcls : x.cls = .corpus)
    (c : PCfg) (p : PPath) (hp : p.Ok) (hn : Needs c x (fnsPath p)) :
    SameFound SameVal (XP.findall c (.node x []) p.render) (XP.findall c (.node y []) p.render) := by
  have hr : Reord 3 x y := C68_reorders cs k a x y hrun
  rw [findall_render hp, findall_render hp]
  have := denPath_shuf hx hcls hr p hn (show PvL x y (.node x []) (.node y []) from ⟨_, .root⟩)
  simp only [GenS] at this
  revert this
  cases (denPath c p (.node x [])).toList <;> cases (denPath c p (.node y [])).toList <;> intro h <;> try exact h
  exact Shuf.mono (fun _ _ h => pvL_sameVal hx hcls hr h) h

/-- **C147**, counts: as many results -/
theorem C147_count_partial (cs : PCfg) (k : Nat) (a : Args) (x y : Obj) (hrun : run cs k a x = some (.ok y)) (hx : x.WF) (hcls : x.cls = .corpus)
    (c : PCfg) (p : PPath) (hp : p.Ok) (hn : Needs c x (fnsPath p)) (l : List PV) (hl : XP.findall c (.node x []) p.render = .ok l) :
    ∃ l', XP.findall c (.node y []) p.render = .ok l' ∧ l'.length = l.length := by
  have h := C147_partial cs k a x y hrun hx hcls c p hp hn
  rw [hl] at h
  revert h
  cases XP.findall c (.node y []) p.render with
  | error e => intro h; exact h.elim
  | ok l' => intro h; exact ⟨l', rfl, (Shuf.length (R := SameVal) h).symm⟩

/-- **C147**, strings: texts, values, IDs and other attributes are the same ones, in another order -/
theorem C147_strings_partial (cs : PCfg) (k : Nat) (a : Args) (x y : Obj) (hrun : run cs k a x = some (.ok y)) (hx : x.WF) (hcls : x.cls = .corpus)
    (c : PCfg) (p : PPath) (hp : p.Ok) (hn : Needs c x (fnsPath p)) (ss : List Str) (hl : XP.findall c (.node x []) p.render = .ok (ss.map PV.str)) :
    ∃ ss' : List Str, XP.findall c (.node y []) p.render = .ok (ss'.map PV.str) ∧ ss'.Perm ss := by
  have h := C147_partial cs k a x y hrun hx hcls c p hp hn
  rw [hl] at h
  revert h
  cases XP.findall c (.node y []) p.render with
  | error e => intro h; exact h.elim
  | ok l' =>
    intro h
    obtain ⟨m, hm, ha⟩ := (show Shuf SameVal _ _ from h)
    obtain ⟨ss', h1, rfl⟩ : ∃ ss' : List Str, ss'.Perm ss ∧ ss'.map PV.str = m := by
      let f : PV → Option Str := fun v => match v with | .str s => some s | _ => none
      refine ⟨m.filterMap f, ?_, ?_⟩
      · have := hm.filterMap f
        rwa [List.filterMap_map, show f ∘ PV.str = some from rfl, List.filterMap_some] at this
      · have hall : ∀ v ∈ m, ∃ s, v = .str s := fun v hv => by
          obtain ⟨s, -, rfl⟩ := List.mem_map.1 (hm.mem_iff.1 hv)
          exact ⟨s, rfl⟩
        clear hm ha
        induction m with
        | nil => rfl
        | cons v m ih =>
          obtain ⟨s, rfl⟩ := hall v (List.mem_cons_self ..)
          rw [List.filterMap_cons]
          simp only [f, List.map_cons]
          rw [ih fun v hv => hall v (List.mem_cons_of_mem _ hv)]
    refine ⟨ss', ?_, h1⟩
    congr 1
    clear h hm h1 hl
    induction ss' generalizing l' with
    | nil => cases ha; rfl
    | cons s ss' ih =>
      cases ha with
      | cons hv ht =>
        rename_i v l'
        cases v with
        | str t => rw [ih _ ht, show s = t from hv]; rfl
        | _ => exact hv.elim

end

section
attribute [local instance] asciiUni
open Xigt.XP

/-- `igt/tier/item/` and more -/
def itemsThen (s : PSteps) : PPath := .rel (.more (.child (lit! "igt")) .nil (.more (.child (lit! "tier")) .nil (.more (.child (lit! "item")) .nil s)))

theorem itemsThen_ok {s : PSteps} (h : s.Ok) : (itemsThen s).Ok := ⟨⟨.inl plain_igt, trivial, .inl plain_tier, trivial, .inl plain_item, trivial, h⟩, rfl, rfl⟩

/-- `igt/tier/item/value()` -/
def valuesPath : PPath := itemsThen (.last (.fn (lit! "value") none) .nil)
/-- `igt/tier/item/referent("alignment")/text()` -/
def refTexts : PPath := itemsThen (.more (.fn (lit! "referent") (some (lit! "alignment"))) .nil (.last (.fn (lit! "text") none) .nil))

theorem valuesPath_ok : valuesPath.Ok := itemsThen_ok ⟨by simp [PNode.Ok, keywords], trivial⟩
theorem refTexts_ok : refTexts.Ok := itemsThen_ok ⟨⟨by simp [keywords], by unfold Quotable; decide⟩, trivial, by simp [PNode.Ok, keywords], trivial⟩

/-- an igt with one ID for the items of two tiers, one of which is referred to -/
def twiceIgt (j : Str) : Obj := .mk { cls := .igt, id := some (lit! "i") } [] [
  .mk { cls := .tier, id := some (lit! "b") } [] [.mk { cls := .item, id := some (lit! "x"), text := some (lit! "1") } [] []],
  .mk { cls := .tier, id := some (lit! "a") } [] [.mk { cls := .item, id := some j, text := some (lit! "2") } [] []],
  .mk { cls := .tier, id := some (lit! "c") } [] [.mk { cls := .item, id := some (lit! "c1"), attrs := [(ALIGN, lit! "x")] } [] []]]

def pathCorpus (g : Obj) : Obj := .mk { cls := .corpus } [] [g]

/-- the strings found -/
def strsOf : Py (List PV) → Option (List Str)
  | .ok l => l.mapM fun v => match v with | .str s => some s | _ => none
  | .error _ => none

/-- C147 is false of values where tiers are referred to by their place, and of references where IDs are repeated:
`igt/tier/item/value()` raises once the tiers are sorted, and `referent("alignment")` is another item. -/
theorem C147_refuted : (∃ (a : Args) (x y : Obj), run exCfg 10 a x = some (.ok y) ∧ x.WF ∧ x.cls = .corpus ∧ valuesPath.Ok ∧
      ¬SameFound SameVal (XP.findall stdCfg (.node x []) valuesPath.render) (XP.findall stdCfg (.node y []) valuesPath.render)) ∧
    ∃ (a : Args) (x y : Obj), run exCfg 10 a x = some (.ok y) ∧ x.WF ∧ x.cls = .corpus ∧ refTexts.Ok ∧
      strsOf (XP.findall stdCfg (.node x []) refTexts.render) = some [lit! "2"] ∧ strsOf (XP.findall stdCfg (.node y []) refTexts.render) = some [lit! "1"] := by
  constructor
  · have h : (match run exCfg 10 { tierKey := [lit! "@id"] } (pathCorpus (numIgt (lit! "0"))) with
      | some (.ok y) => (XP.findall stdCfg (.node (pathCorpus (numIgt (lit! "0"))) []) valuesPath.render).isOk && !(XP.findall stdCfg (.node y []) valuesPath.render).isOk
      | _ => false) = true := by decide +kernel
    split at h
    · rename_i y hy
      refine ⟨_, _, y, hy, wf_of_B (n := 9) (by decide +kernel), rfl, valuesPath_ok, ?_⟩
      revert h
      cases XP.findall stdCfg (.node (pathCorpus (numIgt (lit! "0"))) []) valuesPath.render <;> cases XP.findall stdCfg (.node y []) valuesPath.render <;>
        simp [Except.isOk, Except.toBool, SameFound]
    · cases h
  · have h : (match run exCfg 10 { tierKey := [lit! "@id"] } (pathCorpus (twiceIgt (lit! "x"))) with
      | some (.ok y) => decide (strsOf (XP.findall stdCfg (.node y []) refTexts.render) = some [lit! "1"])
      | _ => false) = true := by decide +kernel
    split at h
    · rename_i y hy
      exact ⟨_, _, y, hy, wf_of_B (n := 9) (by decide +kernel), rfl, refTexts_ok, by decide +kernel, of_decide_eq_true h⟩
    · cases h

theorem named_ex : Named (numIgt (lit! "b")) := by
  refine ⟨by decide +kernel, by decide +kernel, ?_⟩
  intro t ht ra v _ hv
  simp only [numIgt, Obj.kids, List.mem_cons, List.not_mem_nil, or_false] at ht
  rcases ht with rfl | rfl | rfl
  · cases hv
  · cases hv
  · simp only [Obj.data, Dict.get?] at hv
    split at hv
    · cases hv; exact .inl ⟨_, List.mem_cons_self .., rfl⟩
    · cases hv

/-- the hypotheses can be met, with another order after sorting -/
example : Needs stdCfg (pathCorpus (numIgt (lit! "b"))) (fnsPath valuesPath) ∧ Needs stdCfg (pathCorpus (twiceIgt (lit! "y"))) (fnsPath refTexts) ∧
    (match run exCfg 10 { tierKey := [lit! "@id"] } (pathCorpus (numIgt (lit! "b"))) with
      | some (.ok y) => decide (strsOf (XP.findall stdCfg (.node (pathCorpus (numIgt (lit! "b"))) []) valuesPath.render) = some [lit! "x", lit! "y", lit! "x"] ∧
          strsOf (XP.findall stdCfg (.node y []) valuesPath.render) = some [lit! "y", lit! "x", lit! "x"])
      | _ => false) = true ∧
    (match run exCfg 10 { tierKey := [lit! "@id"] } (pathCorpus (twiceIgt (lit! "y"))) with
      | some (.ok y) => decide (strsOf (XP.findall stdCfg (.node y []) refTexts.render) = some [lit! "1"])
      | _ => false) = true := by
  refine ⟨⟨fun _ g hg => ?_, fun f hf => ?_⟩, ⟨fun h => ?_, fun f hf h1 h2 => ⟨stdCfg_fresh.1, stdCfg_fresh.2, fun g hg => ?_⟩⟩, by decide +kernel, by decide +kernel⟩
  · rw [List.mem_singleton.1 hg]
    exact named_ex
  · simp [valuesPath, itemsThen, fnsPath, fnsSteps, fnsNode, fnsPreds] at hf
    intro _ h2
    exact absurd hf h2
  · exact absurd h (by decide)
  · rw [List.mem_singleton.1 hg]
    exact ⟨⟨by decide +kernel, by decide +kernel⟩, by decide +kernel⟩

end
end Xigt.Srt
