import Verif.Container.Props
/-
Assigning to the properties that stand for the contents (`igts`, `tiers`, `items`, `metas`, `children`,
`metadata`), and the methods containers inherit from `list`.

What is assigned or added is a list (or any iterable that does not change meanwhile), or a container, which is
read while it changes.
-/

set_option linter.unusedSectionVars false

namespace Xigt

/-! ### Model -/

/-- what is assigned or added -/
inductive Src where
  | list (l : List Nat)
  | cont (j : Nat)

section
variable {β : Type}

/-- mixins.py:115-117 `extend` with a container as argument: the list iterator looks at the list as it is at each
step; `i` is its position.  `n` bounds the number of steps; `none` is no end within `n` steps. -/
def extendLive : Nat → World β → Nat → Nat → Nat → Option (Out β)
  | 0, _, _, _, _ => none
  | n + 1, w, k, j, i =>
    match (w.cont j).list[i]? with
    | none => some (w, .ok ())
    | some a =>
      match append w k a with
      | (w, .error e) => some (w, .error e)
      | (w, .ok ()) => extendLive n w k j (i + 1)

/-- mixins.py:115-117 `extend` -/
def extendSrc (n : Nat) (w : World β) (k : Nat) : Src → Option (Out β)
  | .list l => some (extend w k l)
  | .cont j => extendLive n w k j 0

/-- model.py:112-115, 180-183, 297-300, metadata.py:114-117, 162-165, 203-206 (`value or []`, evaluated after the
clearing, makes no difference), and metadata.py:33-39 (which also raises XigtError for a single Metadata object,
not modelled): clear, then extend -/
def assign (n : Nat) (w : World β) (k : Nat) (s : Src) : Option (Out β) := extendSrc n (clear w k).1 k s

/-- what the source holds -/
def Src.now (w : World β) : Src → List Nat
  | .list l => l
  | .cont j => (w.cont j).list

/-- `c += l` for a container itself: `list.__iadd__`, which does not call `append` -/
def rawExtend (w : World β) (k : Nat) (l : List Nat) : World β := w.setList k ((w.cont k).list ++ l)

/-- `x.metadata += l` (metadata.py:30-39): the container is extended, and then assigned to itself -/
def iaddMetadata (n : Nat) (w : World β) (k : Nat) (l : List Nat) : Option (Out β) := assign n (rawExtend w k l) k (.cont k)

/-- `x.items += l`, likewise `tiers`, `igts`, `metas`, `children` (e.g. model.py:294-300): the property is a copy,
which is extended and assigned -/
def iaddCopy (n : Nat) (w : World β) (k : Nat) (l : List Nat) : Option (Out β) := assign n w k (.list ((w.cont k).list ++ l))

/-- the methods of `list` that containers inherit and that change the list -/
inductive Raw where
  | pop (i : Int)
  | reverse
  | iadd (l : List Nat)
  | imul (n : Int)
  | sort (key : Nat → Int)

/-- they change the list only -/
def rawStep (w : World β) (k : Nat) : Raw → Out β
  | .pop i =>
    match pyIdx (w.cont k).list.length i with
    | none => (w, .error .indexError)
    | some n => (w.setList k ((w.cont k).list.eraseIdx n), .ok ())
  | .reverse => (w.setList k (w.cont k).list.reverse, .ok ())
  | .iadd l => (rawExtend w k l, .ok ())
  | .imul n => (w.setList k (List.replicate n.toNat (w.cont k).list).flatten, .ok ())
  | .sort key => sortList w k key

/-- several of them, one after the other -/
def rawHist (w : World β) (k : Nat) : List Raw → World β
  | [] => w
  | r :: rs => rawHist (rawStep w k r).1 k rs

/-! ### What is expected -/

/-- `l` can be the contents of container `k` -/
def Fits (w : World β) (k : Nat) (l : List Nat) : Prop :=
  (∀ a ∈ l, (w.obj a).cls = (w.cont k).contained) ∧ (l.filterMap fun a => (w.obj a).id).Nodup

variable [Uni]

/-- the container holds `l` and nothing else, and everything else about it agrees with that -/
structure Holds (w : World β) (k : Nat) (l : List Nat) : Prop where
  list : (w.cont k).list = l
  exact : Exact w k
  distinct : Distinct w k
  parents : ∀ a ∈ l, (w.obj a).parent = some (w.cont k).owner

/-! ### Lemmas -/

theorem append_list {w w' : World β} {k a : Nat} (h : append w k a = (w', .ok ())) :
    (w'.cont k).list = (w.cont k).list ++ [a] ∧ (w'.obj a).parent = some (w.cont k).owner ∧
    (w.obj a).cls = (w.cont k).contained := by
  rcases addWith_cases (· ++ [a]) w k a with ⟨_, e⟩ | ⟨_, _, e⟩ | ⟨hc, _, e⟩ | ⟨hc, _, _, _, e⟩ <;>
    rw [← append_eq, h] at e <;> cases e
  · exact ⟨by simp, by simp [World.setList, World.setCont, setParent, World.setObj], hc⟩
  · exact ⟨by simp, by simp [World.setList, World.setDict, World.setCont, setParent, World.setObj], hc⟩

/-- parents change to the owner of the container only -/
theorem append_parent (w : World β) (k a b : Nat) :
    ((append w k a).1.obj b).parent = (w.obj b).parent ∨ ((append w k a).1.obj b).parent = some (w.cont k).owner := by
  have hp : ((setParent w k a).obj b).parent = (w.obj b).parent ∨ ((setParent w k a).obj b).parent = some (w.cont k).owner := by
    simp only [setParent, World.setObj]
    split
    · exact .inr rfl
    · exact .inl rfl
  rcases addWith_cases (· ++ [a]) w k a with ⟨_, e⟩ | ⟨_, _, e⟩ | ⟨_, _, e⟩ | ⟨_, _, _, _, e⟩ <;> rw [append_eq, e]
  · exact .inl rfl
  all_goals exact hp

theorem sync_append {w : World β} {k : Nat} (a : Nat) (h : SyncW w k) : SyncW (append w k a).1 k :=
  sync_addWith (append_perm a) h

theorem rel_append (w : World β) (k a : Nat) : Rel w (append w k a).1 k := rel_addWith (· ++ [a]) w k a

theorem extend_parent (k : Nat) (b : Nat) : ∀ (as : List Nat) (w : World β),
    ((extend w k as).1.obj b).parent = (w.obj b).parent ∨ ((extend w k as).1.obj b).parent = some (w.cont k).owner := by
  intro as
  induction as with
  | nil => intro w; exact .inl rfl
  | cons a as ih =>
    intro w
    have h := append_parent w k a b
    have hr := rel_append w k a
    rw [extend]
    match hq : append w k a with
    | (w', .error e) => rw [hq] at h; exact h
    | (w', .ok ()) =>
      rw [hq] at h hr
      simp only
      rcases ih w' with g | g
      · rw [g]; exact h
      · rw [g, hr.owner]; exact .inr rfl

/-- a call of `append` on a container with a right index succeeds exactly if the object fits -/
theorem append_ok_iff {w : World β} {k a : Nat} (hs : SyncW w k) : (append w k a).2 = .ok () ↔
    (w.obj a).cls = (w.cont k).contained ∧ ∀ b ∈ (w.cont k).list, (w.obj a).id ≠ none → (w.obj b).id ≠ (w.obj a).id := by
  rcases addWith_cases (· ++ [a]) w k a with ⟨hc, e⟩ | ⟨hc, ⟨i, b, h1, h2⟩, e⟩ | ⟨hc, hn, e⟩ | ⟨hc, i, h1, h2, e⟩ <;>
    rw [append_eq, e]
  · simp [hc]
  · obtain ⟨hb, he⟩ := (hs.map i b).1 h2
    simp only [reduceCtorEq, false_iff]
    rintro ⟨_, h⟩
    exact h b hb (by simp [h1]) (by rw [h1]; exact he)
  · simp [hc, hn]
  · simp only [hc, true_and, true_iff]
    intro b hb _ he
    rw [(hs.map i b).2 ⟨hb, by rw [he]; exact h1⟩] at h2
    cases h2

/-- `extend` adds all if they fit, and otherwise those before the first that does not -/
theorem extend_spec {k : Nat} : ∀ (as : List Nat) (w : World β), SyncW w k →
    (∀ a ∈ (w.cont k).list, (w.obj a).cls = (w.cont k).contained) →
    SyncW (extend w k as).1 k ∧ Rel w (extend w k as).1 k ∧
    ((Fits w k ((w.cont k).list ++ as) ∧ (extend w k as).2 = .ok () ∧
        ((extend w k as).1.cont k).list = (w.cont k).list ++ as ∧
        ∀ a ∈ as, ((extend w k as).1.obj a).parent = some (w.cont k).owner) ∨
     ∃ pre a post e, as = pre ++ a :: post ∧ Fits w k ((w.cont k).list ++ pre) ∧
        ¬ Fits w k ((w.cont k).list ++ pre ++ [a]) ∧ (extend w k as).2 = .error e ∧
        ((extend w k as).1.cont k).list = (w.cont k).list ++ pre ∧
        ∀ a ∈ pre, ((extend w k as).1.obj a).parent = some (w.cont k).owner) := by
  intro as
  induction as with
  | nil =>
    intro w hs hc
    refine ⟨hs, Rel.refl w k, .inl ⟨⟨by simpa using hc, by simpa using hs.nodup⟩, rfl, by simp [extend], by simp⟩⟩
  | cons a as ih =>
    intro w hs hc
    have hs' := sync_append a hs
    have hr := rel_append w k a
    have hok := append_ok_iff (a := a) hs
    rw [extend]
    match hq : append w k a with
    | (w', .error e) =>
      rw [hq] at hs' hr hok
      have hsame : (w'.cont k).list = (w.cont k).list := by
        have h := (C03_append_insert w k a 0).1 (by rw [hq]; simp) k
        rw [hq] at h; exact h.1
      refine ⟨hs', hr, .inr ⟨[], a, as, e, rfl, ⟨by simpa using hc, by simpa using hs.nodup⟩, ?_, rfl, by simp [hsame], by simp⟩⟩
      rintro ⟨h1, h2⟩
      refine absurd (hok.2 ⟨h1 a (by simp), fun b hb hn he => ?_⟩) (by simp)
      obtain ⟨i, hi⟩ := Option.ne_none_iff_exists'.1 hn
      simp only [List.append_nil, List.filterMap_append, List.filterMap_cons, hi, List.filterMap_nil] at h2
      exact (List.nodup_append.1 h2).2.2 i (List.mem_filterMap.2 ⟨b, hb, by rw [he, hi]⟩) i (by simp) rfl
    | (w', .ok ()) =>
      rw [hq] at hs' hr hok
      obtain ⟨hl, hp, hca⟩ := append_list hq
      have hids : (fun x => (w'.obj x).id) = fun x => (w.obj x).id := funext hr.ids
      have hfit : ∀ l, Fits w' k ((w'.cont k).list ++ l) ↔ Fits w k ((w.cont k).list ++ a :: l) := by
        intro l
        unfold Fits
        rw [hids, hl, hr.contained]
        have hcls : (fun x => (w'.obj x).cls) = fun x => (w.obj x).cls := funext hr.cls
        simp only [List.append_assoc, List.singleton_append, fun x => congrFun hcls x]
      have hfit2 : ∀ l b, Fits w' k ((w'.cont k).list ++ l ++ [b]) ↔ Fits w k ((w.cont k).list ++ a :: l ++ [b]) := by
        intro l b
        rw [List.append_assoc, hfit]
        simp
      have hpar : ((extend w' k as).1.obj a).parent = some (w.cont k).owner := by
        rcases extend_parent k a as w' with g | g
        · rw [g]; exact hp
        · rw [g, hr.owner]
      obtain ⟨i1, i2, i3⟩ := ih w' hs' (by
        intro b hb
        rw [hl] at hb
        rw [hr.cls, hr.contained]
        rcases List.mem_append.1 hb with h | h
        · exact hc b h
        · rw [List.mem_singleton.1 h]; exact hca)
      refine ⟨i1, hr.trans i2, ?_⟩
      rcases i3 with ⟨f, h1, h2, h3⟩ | ⟨pre, b, post, e, h0, f, g, h1, h2, h3⟩
      · refine .inl ⟨(hfit as).1 f, h1, by rw [h2, hl]; simp, fun c hcm => ?_⟩
        rcases List.mem_cons.1 hcm with rfl | hcm
        · exact hpar
        · rw [h3 c hcm, hr.owner]
      · refine .inr ⟨a :: pre, b, post, e, by rw [h0]; rfl, (hfit pre).1 f, fun h => g ((hfit2 pre b).2 h), h1,
          by rw [h2, hl]; simp, fun c hcm => ?_⟩
        rcases List.mem_cons.1 hcm with rfl | hcm
        · exact hpar
        · rw [h3 c hcm, hr.owner]

/-- reading another container while adding is the same as adding its contents -/
theorem extendLive_other {k j : Nat} (hkj : j ≠ k) : ∀ (n i : Nat) (w : World β), i ≤ (w.cont j).list.length →
    (w.cont j).list.length < n + i → extendLive n w k j i = some (extend w k ((w.cont j).list.drop i)) := by
  intro n
  induction n with
  | zero => intro i w h1 h2; exact absurd h2 (by rw [Nat.zero_add]; exact Nat.not_lt.2 h1)
  | succ n ih =>
    intro i w h1 h2
    rw [extendLive]
    match hg : (w.cont j).list[i]? with
    | none =>
      have : (w.cont j).list.length ≤ i := List.getElem?_eq_none_iff.1 hg
      rw [List.drop_eq_nil_of_le this]
      rfl
    | some a =>
      obtain ⟨hi, ha⟩ := List.getElem?_eq_some_iff.1 hg
      have hd : (w.cont j).list.drop i = a :: (w.cont j).list.drop (i + 1) := by
        rw [← ha]; exact List.drop_eq_getElem_cons hi
      have hr := rel_append w k a
      rw [hd, extend]
      simp only
      match hq : append w k a with
      | (w', .error e) => rfl
      | (w', .ok ()) =>
        rw [hq] at hr
        have hj : w'.cont j = w.cont j := hr.others j hkj
        simp only
        rw [ih (i + 1) w' (by rw [hj]; omega) (by rw [hj]; omega), hj]

theorem clear_spec (w : World β) (k : Nat) : ((clear w k).1.cont k).list = [] ∧ Rel w (clear w k).1 k := by
  refine ⟨by simp [clear, World.setList, World.setDict, World.setCont], ?_⟩
  exact rel_setCont w k _ rfl rfl

theorem now_clear {w : World β} {k : Nat} {s : Src} (hs : s ≠ .cont k) : s.now (clear w k).1 = s.now w := by
  match s with
  | .list l => rfl
  | .cont j =>
    have hj : j ≠ k := fun h => hs (by rw [h])
    simp only [Src.now]
    rw [(clear_spec w k).2.others j hj]

theorem extendSrc_eq {w : World β} {k n : Nat} {s : Src} (hs : s ≠ .cont k) (hn : (s.now w).length < n) :
    extendSrc n w k s = some (extend w k (s.now w)) := by
  match s with
  | .list l => rfl
  | .cont j =>
    have hj : j ≠ k := fun h => hs (by rw [h])
    simp only [Src.now] at hn
    rw [extendSrc, extendLive_other hj n 0 w (Nat.zero_le _) hn]
    rfl

theorem sync_clear (w : World β) (k : Nat) : SyncW (clear w k).1 k := by
  simp only [clear, SyncW, setCont_same, setCont_obj]; exact sync_nil _

/-! ### Assigning -/

/-- **C80** (partial): assigning a list, or a container other than the one assigned to, ends; if what is assigned
fits, the container then holds exactly that, in that order, with an exact index and parents; otherwise the call
raises and the container holds what comes before the first object that does not fit, likewise with an exact index
and parents.  No ID, no class and no other container changes.

Missing: a container assigned to itself, see `C80_refuted_self`. -/
theorem C80_partial {w : World β} {k n : Nat} {s : Src} (hs : s ≠ .cont k) (hn : (s.now w).length < n) :
    ∃ r, assign n w k s = some r ∧ (∀ a, (r.1.obj a).id = (w.obj a).id ∧ (r.1.obj a).cls = (w.obj a).cls) ∧
      (∀ j, j ≠ k → r.1.cont j = w.cont j) ∧
      (Fits w k (s.now w) → r.2 = .ok () ∧ Holds r.1 k (s.now w)) ∧
      (¬ Fits w k (s.now w) → (∃ e, r.2 = .error e) ∧ ∃ pre a post, s.now w = pre ++ a :: post ∧ Fits w k pre ∧
        ¬ Fits w k (pre ++ [a]) ∧ Holds r.1 k pre) := by
  obtain ⟨c1, c2⟩ := clear_spec w k
  have hnow := now_clear (w := w) hs
  refine ⟨extend (clear w k).1 k (s.now w), ?_, ?_⟩
  · rw [assign, extendSrc_eq hs (by rw [hnow]; exact hn), hnow]
  have h0 : SyncW (clear w k).1 k := sync_clear w k
  obtain ⟨hsync, hr, h⟩ := extend_spec (s.now w) (clear w k).1 h0 (by rw [c1]; simp)
  have hr' := c2.trans hr
  rw [c1] at h
  simp only [List.nil_append] at h
  have hfit : ∀ l, Fits (clear w k).1 k l ↔ Fits w k l := by
    intro l
    have hids : (fun x => ((clear w k).1.obj x).id) = fun x => (w.obj x).id := funext c2.ids
    have hcls : ∀ x, ((clear w k).1.obj x).cls = (w.obj x).cls := c2.cls
    unfold Fits
    rw [hids, c2.contained]
    simp only [hcls]
  simp only [hfit] at h
  refine ⟨fun a => ⟨hr'.ids a, hr'.cls a⟩, hr'.others, ?_, ?_⟩
  · intro f
    rcases h with ⟨_, h1, h2, h3⟩ | ⟨pre, a, post, e, h0, _, g, _⟩
    · exact ⟨h1, h2, exact_of_sync hsync, hsync.nodup, by rw [hr.owner]; exact h3⟩
    · refine absurd ?_ g
      rw [h0, show pre ++ a :: post = (pre ++ [a]) ++ post by simp] at f
      exact ⟨fun b hb => f.1 b (List.mem_append.2 (.inl hb)), by
        have := f.2; rw [List.filterMap_append] at this; exact (List.nodup_append.1 this).1⟩
  · intro f
    rcases h with ⟨f', _⟩ | ⟨pre, a, post, e, h0, g1, g2, h1, h2, h3⟩
    · exact absurd f' f
    · exact ⟨⟨e, h1⟩, pre, a, post, h0, g1, g2, h2, exact_of_sync hsync, hsync.nodup, by rw [hr.owner]; exact h3⟩

/-- **C80** refuted: a container assigned to itself (`x.metadata = x.metadata`, `tier.items = tier`) loses
everything, without an exception. -/
theorem C80_refuted_self (w : World β) (k n : Nat) :
    assign (n + 1) w k (.cont k) = some ((clear w k).1, .ok ()) ∧ ((clear w k).1.cont k).list = [] := by
  have h := (clear_spec w k).1
  refine ⟨?_, h⟩
  rw [assign, extendSrc, extendLive]
  have : ((clear w k).1.cont k).list[0]? = none := by rw [h]; rfl
  rw [this]

/-- **C80** refuted: `x.metadata += l` loses what was there and what was added, without an exception. -/
theorem C80_refuted_iadd (w : World β) (k n : Nat) (l : List Nat) :
    ∃ w', iaddMetadata (n + 1) w k l = some (w', .ok ()) ∧ (w'.cont k).list = [] :=
  ⟨_, (C80_refuted_self (rawExtend w k l) k n).1, (C80_refuted_self (rawExtend w k l) k n).2⟩

/-- `x.items += l`, `x.tiers += l`, … add what fits to what was there. -/
theorem C80_iadd {w : World β} {k n : Nat} {l : List Nat} (f : Fits w k ((w.cont k).list ++ l)) :
    ∃ w', iaddCopy n w k l = some (w', .ok ()) ∧ Holds w' k ((w.cont k).list ++ l) := by
  obtain ⟨r, h1, -, -, h2, -⟩ := C80_partial (w := w) (k := k) (n := ((w.cont k).list ++ l).length + 1)
    (s := .list ((w.cont k).list ++ l)) (by simp) (by simp [Src.now])
  obtain ⟨h3, h4⟩ := h2 f
  refine ⟨r.1, ?_, h4⟩
  have : iaddCopy n w k l = assign (((w.cont k).list ++ l).length + 1) w k (.list ((w.cont k).list ++ l)) := rfl
  rw [this, h1, ← h3]

/-! ### Extending a container by itself -/

theorem live_none {k : Nat} : ∀ (n i : Nat) (w : World β), i < (w.cont k).list.length →
    (∀ a ∈ (w.cont k).list, (w.obj a).cls = (w.cont k).contained ∧ (w.obj a).id = none) →
    extendLive n w k k i = none := by
  intro n
  induction n with
  | zero => intros; rfl
  | succ n ih =>
    intro i w hi h
    have ha := h _ (List.getElem_mem hi)
    rcases addWith_cases (· ++ [(w.cont k).list[i]]) w k (w.cont k).list[i] with ⟨hc, e⟩ | ⟨_, ⟨x, b, h1, _⟩, e⟩ | ⟨_, _, e⟩ | ⟨_, x, h1, _, e⟩
    · exact absurd ha.1 hc
    · rw [ha.2] at h1; cases h1
    · have hr := rel_append w k (w.cont k).list[i]
      rw [← append_eq] at e
      rw [extendLive, List.getElem?_eq_getElem hi]
      simp only
      rw [e]
      rw [e] at hr
      obtain ⟨hl, -, -⟩ := append_list e
      simp only
      refine ih (i + 1) _ (by rw [hl]; simp; exact hi) fun a hm => ?_
      rw [hr.cls, hr.contained, hr.ids]
      rw [hl] at hm
      rcases List.mem_append.1 hm with hm | hm
      · exact h a hm
      · rw [List.mem_singleton.1 hm]; exact ha
    · rw [ha.2] at h1; cases h1

theorem live_err {k : Nat} : ∀ (d n i : Nat) (w : World β) (a : Nat), SyncW w k →
    (∀ a ∈ (w.cont k).list, (w.obj a).cls = (w.cont k).contained) →
    (w.cont k).list[i + d]? = some a → (w.obj a).id ≠ none →
    (∀ m, m < d → ∀ b, (w.cont k).list[i + m]? = some b → (w.obj b).id = none) →
    ∃ w', extendLive (d + n + 1) w k k i = some (w', .error .xigtError) ∧
      (w'.cont k).list = (w.cont k).list ++ ((w.cont k).list.drop i).take d ∧ SyncW w' k := by
  intro d
  induction d with
  | zero =>
    intro n i w a hs hc hg hid _
    have hs' := sync_append a hs
    rw [Nat.add_zero] at hg
    have hm := List.mem_of_getElem? hg
    have hbad : (append w k a).2 ≠ .ok () := fun h => ((append_ok_iff hs).1 h).2 a hm hid rfl
    have hsame := ((C03_append_insert w k a 0).1 hbad k).1
    rw [extendLive, hg]
    simp only
    rcases addWith_cases (· ++ [a]) w k a with ⟨h1, e⟩ | ⟨_, _, e⟩ | ⟨_, _, e⟩ | ⟨_, _, _, _, e⟩ <;> rw [← append_eq] at e
    · exact absurd (hc a hm) h1
    · rw [e] at hs' hsame ⊢
      exact ⟨_, rfl, by simp, hs'⟩
    · rw [e] at hbad; exact absurd rfl hbad
    · rw [e] at hbad; exact absurd rfl hbad
  | succ d ih =>
    intro n i w a hs hc hg hid hno
    have hlen : i + (d + 1) < (w.cont k).list.length := (List.getElem?_eq_some_iff.1 hg).1
    have hi : i < (w.cont k).list.length := by omega
    have hgi := List.getElem?_eq_getElem hi
    have hb : (w.obj (w.cont k).list[i]).id = none := hno 0 (by omega) _ (by rw [Nat.add_zero]; exact hgi)
    have hcb := hc _ (List.getElem_mem hi)
    have hok : (append w k (w.cont k).list[i]).2 = .ok () := (append_ok_iff hs).2 ⟨hcb, fun _ _ h => absurd hb h⟩
    have hs' := sync_append (w.cont k).list[i] hs
    have hr := rel_append w k (w.cont k).list[i]
    rw [show d + 1 + n + 1 = (d + n + 1) + 1 by omega, extendLive, hgi]
    simp only
    match hq : append w k (w.cont k).list[i] with
    | (w', .error e) => rw [hq] at hok; cases hok
    | (w', .ok ()) =>
      rw [hq] at hs' hr
      obtain ⟨hl, -, -⟩ := append_list hq
      have hget : ∀ m, m < (w.cont k).list.length → (w'.cont k).list[m]? = (w.cont k).list[m]? := by
        intro m hm; rw [hl]; exact List.getElem?_append_left hm
      obtain ⟨w2, e1, e2, e3⟩ := ih n (i + 1) w' a hs' (by
          intro c hcm
          rw [hl] at hcm
          rw [hr.cls, hr.contained]
          rcases List.mem_append.1 hcm with h | h
          · exact hc c h
          · rw [List.mem_singleton.1 h]; exact hcb)
        (by rw [hget _ (by omega), show i + 1 + d = i + (d + 1) by omega]; exact hg) (by rw [hr.ids]; exact hid)
        (by
          intro m hm b hgb
          rw [hget _ (by omega), show i + 1 + m = i + (m + 1) by omega] at hgb
          rw [hr.ids]
          exact hno (m + 1) (by omega) b hgb)
      refine ⟨w2, e1, ?_, e3⟩
      rw [e2, hl, List.drop_eq_getElem_cons hi, List.take_succ_cons, List.drop_append_of_le_length (by omega),
        List.take_append_of_le_length (by rw [List.length_drop]; omega)]
      simp

theorem extend_self {w : World β} {k : Nat} (hs : SyncW w k)
    (hc : ∀ a ∈ (w.cont k).list, (w.obj a).cls = (w.cont k).contained) :
    ((∃ n r, extendSrc n w k (.cont k) = some r) ↔
      (w.cont k).list = [] ∨ ∃ a ∈ (w.cont k).list, (w.obj a).id ≠ none) ∧
    (∀ pre a post, (w.cont k).list = pre ++ a :: post → (∀ b ∈ pre, (w.obj b).id = none) → (w.obj a).id ≠ none →
      ∀ n, pre.length < n → ∃ w', extendSrc n w k (.cont k) = some (w', .error .xigtError) ∧
        (w'.cont k).list = (w.cont k).list ++ pre ∧ Exact w' k) := by
  have key : ∀ pre a post, (w.cont k).list = pre ++ a :: post → (∀ b ∈ pre, (w.obj b).id = none) → (w.obj a).id ≠ none →
      ∀ n, pre.length < n → ∃ w', extendSrc n w k (.cont k) = some (w', .error .xigtError) ∧
        (w'.cont k).list = (w.cont k).list ++ pre ∧ Exact w' k := by
    intro pre a post he hpre ha n hn
    obtain ⟨w', h1, h2, h3⟩ := live_err pre.length (n - pre.length - 1) 0 w a hs hc
      (by rw [he, Nat.zero_add]; simp) ha
      (by
        intro m hm b hb
        rw [he, Nat.zero_add, List.getElem?_append_left hm] at hb
        exact hpre b (List.mem_of_getElem? hb))
    refine ⟨w', ?_, ?_, exact_of_sync h3⟩
    · rw [extendSrc, ← h1]; congr 1; omega
    · rw [h2, he]; simp
  refine ⟨⟨?_, ?_⟩, key⟩
  · rintro ⟨n, r, h⟩
    refine Classical.or_iff_not_imp_left.2 fun hne => Classical.not_not.1 fun hno => ?_
    have := live_none n 0 w (List.length_pos_iff.2 hne) fun a ha =>
      ⟨hc a ha, Classical.not_not.1 fun hid => hno ⟨a, ha, hid⟩⟩
    rw [extendSrc, this] at h
    cases h
  · rintro (h | ⟨a, ha, hid⟩)
    · exact ⟨1, _, by rw [extendSrc, extendLive, h]; rfl⟩
    · have : ∀ l : List Nat, a ∈ l → ∃ pre b post, l = pre ++ b :: post ∧ (∀ c ∈ pre, (w.obj c).id = none) ∧ (w.obj b).id ≠ none := by
        intro l
        induction l with
        | nil => intro h; cases h
        | cons c l ih =>
          intro h
          rcases Classical.em ((w.obj c).id = none) with hn | hn
          · rcases List.mem_cons.1 h with rfl | h
            · exact absurd hn hid
            · obtain ⟨pre, b, post, e, h1, h2⟩ := ih h
              refine ⟨c :: pre, b, post, by rw [e]; rfl, fun d hd => ?_, h2⟩
              rcases List.mem_cons.1 hd with rfl | hd
              · exact hn
              · exact h1 d hd
          · exact ⟨[], c, l, rfl, by simp, hn⟩
      obtain ⟨pre, b, post, e, h1, h2⟩ := this _ ha
      obtain ⟨w', h, -⟩ := key pre b post e h1 h2 (pre.length + 1) (by omega)
      exact ⟨_, _, h⟩

/-- **C81** `c.extend(c)` ends exactly if the container is empty or some object in it has an ID; if one has, the
call raises XigtError, having added again the objects before the first with an ID, with the index still exact. -/
theorem C81 (beq : β → β → Bool) (w₀ : World β) (h0 : Fresh w₀) (hist : List (Nat × Op β))
    (hb : BenignHist beq w₀ hist) (k : Nat) :
    let w := runHist beq w₀ hist
    ((∃ n r, extendSrc n w k (.cont k) = some r) ↔
      (w.cont k).list = [] ∨ ∃ a ∈ (w.cont k).list, (w.obj a).id ≠ none) ∧
    (∀ pre a post, (w.cont k).list = pre ++ a :: post → (∀ b ∈ pre, (w.obj b).id = none) → (w.obj a).id ≠ none →
      ∀ n, pre.length < n → ∃ w', extendSrc n w k (.cont k) = some (w', .error .xigtError) ∧
        (w'.cont k).list = (w.cont k).list ++ pre ∧ Exact w' k) :=
  extend_self (sync_hist beq hist w₀ hb (sync_fresh h0) k) (C08_homogeneous beq w₀ h0 hist k)

/-! ### Inherited methods -/

/-- calls that add or remove no object with an ID -/
def Tame (w : World β) (k : Nat) : Raw → Prop
  | .pop i => ∀ n a, pyIdx (w.cont k).list.length i = some n → (w.cont k).list[n]? = some a → (w.obj a).id = none
  | .reverse => True
  | .iadd l => ∀ a ∈ l, (w.obj a).id = none
  | .imul n => n = 1 ∨ ∀ a ∈ (w.cont k).list, (w.obj a).id = none
  | .sort _ => True

def TameHist (w : World β) (k : Nat) : List Raw → Prop
  | [] => True
  | r :: rs => Tame w k r ∧ TameHist (rawStep w k r).1 k rs

theorem rawStep_rel (w : World β) (k : Nat) (r : Raw) : Rel w (rawStep w k r).1 k ∧ (rawStep w k r).1.obj = w.obj ∧
    ((rawStep w k r).1.cont k).dict = (w.cont k).dict := by
  have key : ∀ l, Rel w (w.setList k l) k ∧ (w.setList k l).obj = w.obj ∧ ((w.setList k l).cont k).dict = (w.cont k).dict :=
    fun l => ⟨rel_setList w k l, rfl, setList_dict w k l⟩
  match r with
  | .pop i =>
    simp only [rawStep]
    split
    · exact ⟨Rel.refl w k, rfl, rfl⟩
    · exact key _
  | .reverse => exact key _
  | .iadd l => exact key _
  | .imul n => exact key _
  | .sort _ => exact key _

theorem rawHist_rel (k : Nat) : ∀ (rs : List Raw) (w : World β), Rel w (rawHist w k rs) k ∧
    (rawHist w k rs).obj = w.obj ∧ ((rawHist w k rs).cont k).dict = (w.cont k).dict := by
  intro rs
  induction rs with
  | nil => intro w; exact ⟨Rel.refl w k, rfl, rfl⟩
  | cons r rs ih =>
    intro w
    obtain ⟨a1, a2, a3⟩ := rawStep_rel w k r
    obtain ⟨b1, b2, b3⟩ := ih (rawStep w k r).1
    exact ⟨a1.trans b1, b2.trans a2, b3.trans a3⟩

theorem sync_setList {w : World β} {k : Nat} {l : List Nat} (hs : SyncW w k)
    (hm : ∀ a i, (w.obj a).id = some i → (a ∈ l ↔ a ∈ (w.cont k).list))
    (hn : (l.filterMap fun a => (w.obj a).id).Nodup) : SyncW (w.setList k l) k := by
  have hobj : (w.setList k l).obj = w.obj := rfl
  unfold SyncW
  rw [hobj, setList_list, setList_dict]
  refine ⟨hs.wf, hn, fun i a => ?_⟩
  rw [hs.map i a]
  constructor
  · rintro ⟨h1, h2⟩; exact ⟨(hm a i h2).2 h1, h2⟩
  · rintro ⟨h1, h2⟩; exact ⟨(hm a i h2).1 h1, h2⟩

theorem filterMap_flatten_none {f : Nat → Option Str} {l : List Nat} (h : ∀ a ∈ l, f a = none) (n : Nat) :
    (List.replicate n l).flatten.filterMap f = [] := by
  refine List.filterMap_eq_nil_iff.2 fun a ha => ?_
  obtain ⟨m, hm, hal⟩ := List.mem_flatten.1 ha
  rw [List.eq_of_mem_replicate hm] at hal
  exact h a hal

theorem sync_rawStep {w : World β} {k : Nat} {r : Raw} (ht : Tame w k r) (hs : SyncW w k) : SyncW (rawStep w k r).1 k := by
  match r with
  | .pop i =>
    simp only [rawStep]
    split
    · exact hs
    · next n hn =>
      rcases Nat.lt_or_ge n (w.cont k).list.length with hl | hl
      · have hg := List.getElem?_eq_getElem hl
        have hid := ht n _ hn hg
        have he := List.eraseIdx_eq_take_drop_succ (w.cont k).list n
        have hsplit : (w.cont k).list = (w.cont k).list.take n ++ (w.cont k).list[n] :: (w.cont k).list.drop (n + 1) := by
          rw [← List.drop_eq_getElem_cons hl]; exact (List.take_append_drop n _).symm
        refine sync_setList hs (fun a i hi => ?_) ?_
        · rw [he]
          conv => rhs; rw [hsplit]
          simp only [List.mem_append, List.mem_cons]
          have : a ≠ (w.cont k).list[n] := by rintro rfl; rw [hid] at hi; cases hi
          simp [this]
        · have hnd := hs.nodup
          rw [hsplit] at hnd
          rw [List.filterMap_append, List.filterMap_cons, hid] at hnd
          rw [he, List.filterMap_append]
          exact hnd
      · rw [List.eraseIdx_of_length_le hl]
        exact sync_setList hs (fun _ _ _ => Iff.rfl) hs.nodup
  | .reverse =>
    refine sync_setList hs (fun a i _ => List.mem_reverse) ?_
    exact ((List.reverse_perm _).filterMap _).nodup_iff.2 hs.nodup
  | .iadd l =>
    refine sync_setList hs (fun a i hi => ?_) ?_
    · rw [List.mem_append]
      refine ⟨fun h => h.resolve_right fun h' => ?_, .inl⟩
      rw [ht a h'] at hi; cases hi
    · rw [List.filterMap_append, List.filterMap_eq_nil_iff.2 ht, List.append_nil]; exact hs.nodup
  | .imul n =>
    rcases ht with rfl | ht
    · have : (List.replicate (1 : Int).toNat (w.cont k).list).flatten = (w.cont k).list := by simp
      simp only [rawStep]
      rw [this]
      exact sync_setList hs (fun _ _ _ => Iff.rfl) hs.nodup
    · refine sync_setList hs (fun a i hi => ?_) (by rw [filterMap_flatten_none ht]; exact List.nodup_nil)
      constructor
      · intro ha
        obtain ⟨m, hm, hal⟩ := List.mem_flatten.1 ha
        rw [List.eq_of_mem_replicate hm] at hal
        exact hal
      · intro ha; rw [ht a ha] at hi; cases hi
  | .sort key =>
    refine sync_setList hs (fun a i _ => (sortBy_perm _ _).mem_iff) ?_
    exact ((sortBy_perm _ _).filterMap _).nodup_iff.2 hs.nodup

theorem sync_rawHist {k : Nat} : ∀ (rs : List Raw) (w : World β), TameHist w k rs → SyncW w k → SyncW (rawHist w k rs) k := by
  intro rs
  induction rs with
  | nil => intro w _ h; exact h
  | cons r rs ih => intro w ht h; exact ih _ ht.2 (sync_rawStep ht.1 h)

/-- **C82** (partial): methods inherited from `list` keep lookup by ID exact as long as no object with an ID comes
or goes.

Missing: `pop` and `+=` with such objects, see `C82_refuted_pop` and `C82_refuted_iadd`. -/
theorem C82_partial (beq : β → β → Bool) (w₀ : World β) (h0 : Fresh w₀) (hist : List (Nat × Op β))
    (hb : BenignHist beq w₀ hist) (k : Nat) (rs : List Raw) (ht : TameHist (runHist beq w₀ hist) k rs) :
    Exact (rawHist (runHist beq w₀ hist) k rs) k ∧ Distinct (rawHist (runHist beq w₀ hist) k rs) k := by
  have h := sync_rawHist rs _ ht (sync_hist beq hist w₀ hb (sync_fresh h0) k)
  exact ⟨exact_of_sync h, h.nodup⟩

/-- **C82** whatever inherited methods were called, `refresh_index` makes lookup by ID exact exactly if no two
contained objects share an ID, without changing the contents. -/
theorem C82_repair (w : World β) (k : Nat) (rs : List Raw) :
    let w' := rawHist w k rs
    w'.obj = w.obj ∧ (∀ j, j ≠ k → w'.cont j = w.cont j) ∧
    ((refreshIndex w' k).2 = .ok () ↔ Distinct w' k) ∧ ((refreshIndex w' k).1.cont k).list = (w'.cont k).list ∧
    (Distinct w' k → Exact (refreshIndex w' k).1 k) := by
  obtain ⟨h1, h2, -⟩ := rawHist_rel k rs w
  obtain ⟨-, g1, g2, -, g3⟩ := C06_refresh (rawHist w k rs) k
  exact ⟨h2, h1.others, g1, g2, fun hd => (g3 hd).1⟩

/-- **C82** refuted: an object with an ID that was popped can still be looked up by it. -/
theorem C82_refuted_pop (beq : β → β → Bool) (w₀ : World β) (h0 : Fresh w₀) (hist : List (Nat × Op β))
    (hb : BenignHist beq w₀ hist) (k : Nat) (i : Int) (n a : Nat) (x : Str) :
    let w := runHist beq w₀ hist
    pyIdx (w.cont k).list.length i = some n → (w.cont k).list[n]? = some a → (w.obj a).id = some x →
    (rawStep w k (.pop i)).2 = .ok () ∧ a ∉ ((rawStep w k (.pop i)).1.cont k).list ∧
    getItem (rawStep w k (.pop i)).1 k (.str x) = .ok (.one a) := by
  intro w hn hg hx
  have hs : SyncW w k := sync_hist beq hist w₀ hb (sync_fresh h0) k
  obtain ⟨-, -, hd⟩ := rawStep_rel w k (.pop i)
  refine ⟨by simp only [rawStep, hn], ?_, ?_⟩
  · simp only [rawStep, hn, setList_list]
    obtain ⟨hl, ha⟩ := List.getElem?_eq_some_iff.1 hg
    have hnd := hs.nodup
    rw [show (w.cont k).list = (w.cont k).list.take n ++ a :: (w.cont k).list.drop (n + 1) by
      rw [← ha, ← List.drop_eq_getElem_cons hl]; exact (List.take_append_drop n _).symm] at hnd
    rw [List.filterMap_append, List.filterMap_cons, hx] at hnd
    obtain ⟨-, h2, h3⟩ := List.nodup_append.1 hnd
    rw [List.eraseIdx_eq_take_drop_succ]
    intro hm
    rcases List.mem_append.1 hm with hm | hm
    · exact h3 x (List.mem_filterMap.2 ⟨a, hm, hx⟩) x (by simp) rfl
    · exact (List.nodup_cons.1 h2).1 (List.mem_filterMap.2 ⟨a, hm, hx⟩)
  · have := (hs.map x a).2 ⟨List.mem_of_getElem? hg, hx⟩
    simp only [getItem]
    rw [hd, this]

/-- **C82** refuted: an object added with `+=` to the container itself cannot be looked up by its ID. -/
theorem C82_refuted_iadd (beq : β → β → Bool) (w₀ : World β) (h0 : Fresh w₀) (hist : List (Nat × Op β))
    (hb : BenignHist beq w₀ hist) (k : Nat) (a : Nat) (x : Str) :
    let w := runHist beq w₀ hist
    (w.obj a).id = some x → idAccepted x = true → (∀ b ∈ (w.cont k).list, (w.obj b).id ≠ some x) →
    a ∈ ((rawStep w k (.iadd [a])).1.cont k).list ∧ getItem (rawStep w k (.iadd [a])).1 k (.str x) = .error .keyError := by
  intro w hx hacc hno
  have hs : SyncW w k := sync_hist beq hist w₀ hb (sync_fresh h0) k
  have he := exact_of_sync hs x hacc
  obtain ⟨-, -, hd⟩ := rawStep_rel w k (.iadd [a])
  refine ⟨by simp [rawStep, rawExtend], ?_⟩
  have hnone : Dict.get? (w.cont k).dict x = none := by
    match hg : Dict.get? (w.cont k).dict x with
    | none => rfl
    | some b => exact absurd ((hs.map x b).1 hg).2 (hno b ((hs.map x b).1 hg).1)
  have hint := pyInt_letter hacc
  simp only [getItem]
  rw [hd, hnone, hint]

end

section
attribute [local instance] asciiUni

/-! ### The hypotheses can be met -/

def exSet : World Nat := runHist (· == ·) exWorld [(0, .append 0), (0, .append 3)]

example : Fits exWorld 0 [0, 2, 3] ∧ ¬ Fits exWorld 0 [0, 2, 1] := by
  constructor
  · exact ⟨by decide +kernel, by decide +kernel⟩
  · intro h; exact absurd h.2 (by decide +kernel)

/-- C80: two items are replaced by others -/
example : ∃ r, assign 9 exSet 0 (.list [2, 3, 3]) = some r ∧ r.2 = .ok () ∧ (r.1.cont 0).list = [2, 3, 3] := by
  exact ⟨_, rfl, rfl, rfl⟩

/-- C80: the second item with ID `a` is rejected, the first is there -/
example : ∃ r, assign 9 exSet 0 (.list [2, 0, 1, 3]) = some r ∧ (∃ e, r.2 = .error e) ∧ (r.1.cont 0).list = [2, 0] := by
  exact ⟨_, rfl, ⟨_, rfl⟩, rfl⟩

/-- C80: the contents are lost -/
example : (exSet.cont 0).list = [0, 3] ∧ ∃ r, assign 9 exSet 0 (.cont 0) = some r ∧ r.2 = .ok () ∧ (r.1.cont 0).list = [] :=
  ⟨rfl, _, rfl, rfl, rfl⟩

/-- C81: without IDs, no end; with an ID, an error -/
example : (∀ n, extendSrc n (runHist (· == ·) exWorld [(0, .append 3)]) 0 (.cont 0) = none) ∧
    ∃ r, extendSrc 9 (runHist (· == ·) exWorld [(0, .append 3), (0, .append 0)]) 0 (.cont 0) = some r ∧ r.2 = .error .xigtError ∧
      (r.1.cont 0).list = [3, 0, 3] := by
  refine ⟨fun n => ?_, _, rfl, rfl, rfl⟩
  refine live_none n 0 _ (by decide +kernel) ?_
  have h : ((runHist (· == ·) exWorld [(0, .append 3)]).cont 0).list = [3] := by decide +kernel
  rw [h]
  intro a ha
  rw [List.mem_singleton.1 ha]
  exact ⟨by decide +kernel, by decide +kernel⟩

/-- C82: reversing and multiplying what has no IDs -/
example : TameHist exSet 0 [.reverse, .iadd [4, 4], .pop (-1), .sort fun n => n] := by
  refine ⟨trivial, ?_, ?_, trivial, trivial⟩
  · intro a ha
    have : a = 4 := by simpa using ha
    rw [this]; decide +kernel
  · intro n a hn ha
    have h1 : pyIdx ((rawStep (rawStep exSet 0 .reverse).1 0 (.iadd [4, 4])).1.cont 0).list.length (-1) = some 3 := by decide +kernel
    rw [h1] at hn
    cases hn
    have h2 : ((rawStep (rawStep exSet 0 .reverse).1 0 (.iadd [4, 4])).1.cont 0).list[3]? = some 4 := by decide +kernel
    rw [h2] at ha
    cases ha
    decide +kernel

/-- C82: `a` is still found after it was popped -/
example : ((rawStep exSet 0 (.pop 0)).1.cont 0).list = [3] ∧
    getItem (rawStep exSet 0 (.pop 0)).1 0 (.str ['a']) = .ok (.one 0) := ⟨by decide +kernel, by decide +kernel⟩

end
end Xigt
