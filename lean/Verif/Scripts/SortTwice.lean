import Verif.Scripts.SortStages
import Verif.Path.Props
/-
C110: sorting what is sorted.
-/
set_option linter.unusedSectionVars false

namespace Xigt.Srt

section
variable [Uni]

/-! ### Specification -/

/-- `../../@name`, with so many `../` -/
def upAttr : Nat → Str → Str
  | 0, a => '@' :: a
  | k + 1, a => lit! "../" ++ upAttr k a

/-- sort keys that are attributes of the object or of what it is in, or its text -/
def OwnKey (sk : Str) : Prop := sk = lit! "text()" ∨ ∃ k a, (XP.PlainName a ∨ a = lit! "*") ∧ sk = upAttr k a

/-- the same but for contents -/
def SameData (l l' : List Obj) : Prop := l.map Obj.data = l'.map Obj.data

/-- the keys do not depend on the contents of anything -/
def Local (c : XP.PCfg) (sks : List Str) : Prop := ∀ x x' up up', x.data = x'.data → SameData up up' → x.cls ≠ .metadata →
  sortKey c (.node x up) sks = sortKey c (.node x' up') sks

/-! ### Own keys are local -/

theorem nsmapOf_same : ∀ {l l' : List Obj}, SameData l l' → nsmapOf l = nsmapOf l'
  | [], [], _ => rfl
  | [], _ :: _, h => by simp [SameData] at h
  | _ :: _, [], h => by simp [SameData] at h
  | x :: l, y :: l', h => by
    obtain ⟨h1, h2⟩ := List.cons.inj h
    rw [nsmapOf, nsmapOf, h1, nsmapOf_same h2]

theorem getAttr1_same {l l' : List Obj} (h : SameData l l') (ns : Option Str) (a : Str) : XP.getAttr1 l ns a = XP.getAttr1 l' ns a := by
  unfold XP.getAttr1
  congr 1
  cases l with
  | nil => cases l' with
    | nil => rfl
    | cons y l' => simp [SameData] at h
  | cons x l => cases l' with
    | nil => simp [SameData] at h
    | cons y l' =>
      obtain ⟨h1, h2⟩ := List.cons.inj h
      simp only [getAttribute, nsmapOf_same h, h1, Bool.false_eq_true, false_and, if_false]

theorem findAttr_same {x x' : Obj} {up up' : List Obj} (h : x.data = x'.data) (hu : SameData up up') (a : Str) :
    XP.findAttr (.node x up) a = XP.findAttr (.node x' up') a := by
  have hs : SameData (x :: up) (x' :: up') := by simp only [SameData, List.map_cons, h]; rw [show up.map Obj.data = up'.map Obj.data from hu]
  have hm : member x a = member x' a := by unfold member Obj.cls; rw [h]
  unfold XP.findAttr
  simp only [hm, h]
  rw [getAttr1_same hs]
  have : XP.getAttr1 (x :: up) (XP.splitNs a).1 = XP.getAttr1 (x' :: up') (XP.splitNs a).1 := funext fun b => getAttr1_same hs _ b
  rw [this]

def upSteps : Nat → Str → XP.PSteps
  | 0, a => .last (.attr a) .nil
  | k + 1, a => .more .parent .nil (upSteps k a)

theorem upSteps_render (k : Nat) (a : Str) : (upSteps k a).toks.flatten = upAttr k a := by
  induction k with
  | zero => simp [upSteps, upAttr, XP.PSteps.toks, XP.PNode.toks, XP.PPreds.toks]
  | succ k ih =>
    have : XP.sep (upSteps k a) = [lit! "/"] := by cases k <;> rfl
    simp [upSteps, upAttr, XP.PSteps.toks, XP.PNode.toks, XP.PPreds.toks, this, ih]

theorem upSteps_ok {a : Str} (ha : XP.PlainName a ∨ a = lit! "*") (k : Nat) : (upSteps k a).Ok := by
  induction k with
  | zero => simp [upSteps, XP.PSteps.Ok, XP.PNode.Ok, XP.PPreds.Ok, ha]
  | succ k ih => simp [upSteps, XP.PSteps.Ok, XP.PNode.Ok, XP.PPreds.Ok, ih]

theorem up_same (c : XP.PCfg) (a : Str) : ∀ (k : Nat) (x x' : Obj) (up up' : List Obj), x.data = x'.data → SameData up up' →
    XP.denSteps c (upSteps k a) ⟨[.node x up], none⟩ = XP.denSteps c (upSteps k a) ⟨[.node x' up'], none⟩ := by
  intro k
  induction k with
  | zero =>
    intro x x' up up' h hu
    simp only [upSteps, XP.denSteps, XP.denPreds, XP.denNode, XP.Gen.bind, XP.Gen.bindL, findAttr_same h hu]
  | succ k ih =>
    intro x x' up up' h hu
    simp only [upSteps, XP.denSteps, XP.denPreds, XP.denNode, XP.Gen.bind, XP.Gen.bindL]
    cases up with
    | nil => cases up' with
      | nil =>
        have : x.cls = x'.cls := by rw [Obj.cls, Obj.cls, h]
        simp only [XP.parentOf, this]
      | cons y l => simp [SameData] at hu
    | cons p up => cases up' with
      | nil => simp [SameData] at hu
      | cons p' up' =>
        obtain ⟨h1, h2⟩ := List.cons.inj hu
        simpa [XP.parentOf, Except.map, XP.Gen.ofPy] using ih p p' up up' h1 h2

/-- values that are no objects -/
def NoNode : XP.PV → Prop
  | .node _ _ => False
  | .list _ => False
  | _ => True

theorem keyStr_same {c : XP.PCfg} {v v' : XP.PV} {sk : Str} (h : XP.iterfind c v sk = XP.iterfind c v' sk) : keyStr c v sk = keyStr c v' sk := by
  unfold keyStr XP.find
  rw [h]

theorem own_keyStr {c : XP.PCfg} {sk : Str} (hs : OwnKey sk) {x x' : Obj} {up up' : List Obj} (h : x.data = x'.data) (hu : SameData up up') (hc : x.cls ≠ .metadata) :
    keyStr c (.node x up) sk = keyStr c (.node x' up') sk := by
  rcases hs with rfl | ⟨k, a, ha, rfl⟩
  · apply keyStr_same
    have hr : (lit! "text()") = XP.PPath.render (.rel (.last (.fn (lit! "text") none) .nil)) := by decide
    have hok : XP.PPath.Ok (.rel (.last (.fn (lit! "text") none) .nil)) := by
      simp [XP.PPath.Ok, XP.PSteps.Ok, XP.PNode.Ok, XP.PPreds.Ok, XP.keywords, XP.PSteps.first, XP.PNode.isDesc, XP.PNode.isAlts]
    have hcls : x.cls = x'.cls := by rw [Obj.cls, Obj.cls, h]
    rw [hr, XP.iterfind_render hok, XP.iterfind_render hok]
    simp only [XP.denPath, XP.denSteps, XP.denPreds, XP.denNode, XP.Gen.bind, XP.Gen.bindL, XP.function, if_true, h, ← hcls, hc, if_false]
  · apply keyStr_same
    have hr : upAttr k a = XP.PPath.render (.rel (upSteps k a)) := by rw [XP.PPath.render, XP.PPath.toks, upSteps_render]
    have hok : XP.PPath.Ok (.rel (upSteps k a)) := by
      refine ⟨upSteps_ok ha k, ?_, ?_⟩ <;> cases k <;> rfl
    rw [hr, XP.iterfind_render hok, XP.iterfind_render hok]
    exact up_same c a k x x' up up' h hu

theorem own_local (c : XP.PCfg) (sks : List Str) (hs : ∀ sk ∈ sks, OwnKey sk) : Local c sks := by
  intro x x' up up' h hu hc
  induction sks with
  | nil => rfl
  | cons sk sks ih =>
    rw [sortKey, sortKey, own_keyStr (hs sk (by simp)) h hu hc, ih fun k hk => hs k (by simp [hk])]

/-! ### Sorting twice -/

theorem py_bind {α β : Type} {m : Py α} {f : α → Py β} {b : β} (h : (m >>= f) = .ok b) : ∃ a, m = .ok a ∧ f a = .ok b := by
  cases m with
  | error e => cases h
  | ok a => exact ⟨a, rfl, h⟩

theorem keyLt_asymm : ∀ {a b : List KPart}, keyLt a b = .ok true → keyLt b a = .ok false
  | [], [], h => by simp [keyLt] at h
  | [], _ :: _, _ => rfl
  | _ :: _, [], h => by simp [keyLt] at h
  | x :: xs, y :: ys, h => by
    rw [keyLt] at h ⊢
    by_cases he : x = y
    · rw [if_pos he] at h
      rw [if_pos he.symm]
      exact keyLt_asymm h
    · rw [if_neg he] at h
      rw [if_neg (Ne.symm he)]
      cases x <;> cases y <;> simp only [partLt, Except.ok.injEq, decide_eq_true_eq, reduceCtorEq, decide_eq_false_iff_not] at h ⊢
      · omega
      · exact List.lt_asymm h

/-- each element is not greater than the next -/
def Asc {α : Type} (lt : α → α → Py Bool) : List α → Prop
  | [] => True
  | [_] => True
  | a :: b :: l => lt b a = .ok false ∧ Asc lt (b :: l)

theorem insert_asc {α : Type} {lt : α → α → Py Bool} (hlt : ∀ a b, lt a b = .ok true → lt b a = .ok false) (x : α) :
    ∀ {l r : List α}, Asc lt l → insertPy lt x l = .ok r → Asc lt r ∧ (r.head? = some x ∨ r.head? = l.head?)
  | [], r, _, h => by
    rw [insertPy] at h
    cases h
    exact ⟨trivial, .inl rfl⟩
  | y :: ys, r, ha, h => by
    rw [insertPy] at h
    obtain ⟨b, hb, h⟩ := py_bind h
    cases b with
    | false => cases h; exact ⟨⟨hb, ha⟩, .inl rfl⟩
    | true =>
      obtain ⟨r', hr, h⟩ := py_bind h
      cases h
      have hys : Asc lt ys := by
        cases ys with
        | nil => trivial
        | cons z zs => exact ha.2
      obtain ⟨g1, g2⟩ := insert_asc hlt x hys hr
      refine ⟨?_, .inr rfl⟩
      cases r' with
      | nil => trivial
      | cons z zs =>
        refine ⟨?_, g1⟩
        rcases g2 with g2 | g2
        · cases g2
          exact hlt _ _ hb
        · cases ys with
          | nil => cases g2
          | cons w ws =>
            cases g2
            exact ha.1

theorem sort_asc {α : Type} {lt : α → α → Py Bool} (hlt : ∀ a b, lt a b = .ok true → lt b a = .ok false) :
    ∀ {l r : List α}, sortPy lt l = .ok r → Asc lt r
  | [], r, h => by cases h; trivial
  | x :: l, r, h => by
    rw [sortPy] at h
    obtain ⟨r', hr, h⟩ := py_bind h
    exact (insert_asc hlt x (sort_asc hlt hr) h).1

theorem asc_sort {α : Type} {lt : α → α → Py Bool} : ∀ {l : List α}, Asc lt l → sortPy lt l = .ok l
  | [], _ => rfl
  | [x], _ => rfl
  | x :: y :: l, h => by
    rw [sortPy, asc_sort h.2]
    simp only [bind, Except.bind, insertPy, h.1]
    rfl

theorem withKeys_iff {c : XP.PCfg} {sks : List Str} {up : List Obj} : ∀ {l : List Obj} {kl : List (List KPart × Obj)},
    withKeys c sks up l = .ok kl ↔ kl.map Prod.snd = l ∧ ∀ q ∈ kl, sortKey c (.node q.2 up) sks = .ok q.1
  | [], kl => by
    rw [withKeys]
    constructor
    · intro h; cases h; simp
    · rintro ⟨h, _⟩
      rw [List.map_eq_nil_iff] at h
      rw [h]
  | x :: l, kl => by
    rw [withKeys]
    constructor
    · intro h
      obtain ⟨k, hk, h⟩ := py_bind h
      obtain ⟨r, hr, h⟩ := py_bind h
      cases h
      obtain ⟨g1, g2⟩ := withKeys_iff.1 hr
      refine ⟨by simp [g1], fun q hq => ?_⟩
      rcases List.mem_cons.1 hq with rfl | hq
      · exact hk
      · exact g2 q hq
    · rintro ⟨h1, h2⟩
      cases kl with
      | nil => simp at h1
      | cons q kl =>
        obtain ⟨k, o⟩ := q
        simp only [List.map_cons, List.cons.injEq] at h1
        obtain ⟨rfl, h1⟩ := h1
        have hk := h2 (k, o) (by simp)
        have hr := withKeys_iff.2 ⟨h1, fun q hq => h2 q (by simp [hq])⟩
        simp only at hk
        simp only [hk, hr, bind, Except.bind]

/-- what was sorted remains as it is, also when the contents of its contents have changed -/
theorem sortKids_again {c : XP.PCfg} {sks : List Str} (hl : Local c sks) {x y z : Obj} {up up' : List Obj} (hx : ∀ k ∈ x.kids, k.cls ≠ .metadata)
    (h : sortKids c sks x up = .ok y) (hd : z.data = y.data) (hk : SameData y.kids z.kids) (hu : SameData up up') : sortKids c sks z up' = .ok z := by
  rw [sortKids] at h
  obtain ⟨l, h1, h⟩ := py_bind h
  obtain ⟨r, h2, h⟩ := py_bind h
  cases h
  obtain ⟨g1, g2⟩ := withKeys_iff.1 h1
  have hp := sortPy_perm _ _ _ h2
  have hr : ∀ q ∈ r, sortKey c (.node q.2 (.mk x.data x.md [] :: up)) sks = .ok q.1 ∧ q.2.cls ≠ .metadata := fun q hq =>
    have hq' := hp.subset hq
    ⟨g2 q hq', hx q.2 (by rw [← g1]; exact List.mem_map_of_mem hq')⟩
  have hasc := sort_asc (lt := fun a b : List KPart × Obj => keyLt a.1 b.1) (fun a b => keyLt_asymm) h2
  simp only [Obj.kids, Obj.data] at hk hd
  have hu' : SameData (Obj.mk x.data x.md [] :: up) (Obj.mk z.data z.md [] :: up') := by
    simp only [SameData, List.map_cons, Obj.data]
    rw [show up.map Obj.data = up'.map Obj.data from hu]
    congr 1
    exact hd.symm
  clear h1 g1 g2 hp h2
  -- the keys, with the new objects
  have hex : ∀ (r : List (List KPart × Obj)) (zs : List Obj), SameData (r.map Prod.snd) zs → Asc (fun a b : List KPart × Obj => keyLt a.1 b.1) r →
      (∀ q ∈ r, sortKey c (.node q.2 (.mk x.data x.md [] :: up)) sks = .ok q.1 ∧ q.2.cls ≠ .metadata) →
      ∃ r', r'.map Prod.snd = zs ∧ r'.map Prod.fst = r.map Prod.fst ∧ Asc (fun a b : List KPart × Obj => keyLt a.1 b.1) r' ∧
        ∀ q ∈ r', sortKey c (.node q.2 (.mk z.data z.md [] :: up')) sks = .ok q.1 := by
    intro r
    induction r with
    | nil =>
      intro zs hz _ _
      have : zs = [] := by simpa [SameData] using hz
      subst this
      exact ⟨[], rfl, rfl, trivial, by simp⟩
    | cons q r ih =>
      intro zs hz ha hk
      cases zs with
      | nil => simp [SameData] at hz
      | cons w zs =>
        obtain ⟨hz1, hz2⟩ := List.cons.inj hz
        have ha' : Asc (fun a b : List KPart × Obj => keyLt a.1 b.1) r := by
          cases r with
          | nil => trivial
          | cons _ _ => exact ha.2
        obtain ⟨r', e1, e2, e3, e4⟩ := ih zs hz2 ha' fun p hp => hk p (by simp [hp])
        refine ⟨(q.1, w) :: r', by simp [e1], by simp [e2], ?_, fun p hp => ?_⟩
        · cases r' with
          | nil => trivial
          | cons p' r' =>
            cases r with
            | nil => simp at e2
            | cons p r =>
              refine ⟨?_, e3⟩
              have : p'.1 = p.1 := by simpa using congrArg List.head? e2
              have h0 := ha.1
              simp only at h0 ⊢
              rw [this]
              exact h0
        · rcases List.mem_cons.1 hp with rfl | hp
          · obtain ⟨k1, k2⟩ := hk q (by simp)
            rw [← hl q.2 w _ _ hz1 hu' k2]
            exact k1
          · exact e4 p hp
  obtain ⟨r', e1, e2, e3, e4⟩ := hex r z.kids hk hasc hr
  have hw : withKeys c sks (.mk z.data z.md [] :: up') z.kids = .ok r' := withKeys_iff.2 ⟨e1, e4⟩
  rw [sortKids]
  simp only [hw, bind, Except.bind, asc_sort e3, e1]
  cases z
  rfl

theorem eachKid_same {f : Obj → List Obj → Run Obj} {x : Obj} {up : List Obj} (h : ∀ k ∈ x.kids, f k (x :: up) = some (.ok k)) : eachKid f x up = some (.ok x) := by
  have : ∀ l : List Obj, (∀ k ∈ l, f k (x :: up) = some (.ok k)) → forKids f x up l = some (.ok l) := by
    intro l
    induction l with
    | nil => intro _; rfl
    | cons y l ih =>
      intro h
      rw [forKids, h y (by simp)]
      simp only [ih fun k hk => h k (by simp [hk])]
  rw [eachKid, this x.kids h]
  cases x
  rfl

theorem sameData_all2 {R : Obj → Obj → Prop} (h : ∀ a b, R a b → b.data = a.data) {l l' : List Obj} (hr : All2 R l l') : SameData l l' := by
  induction hr with
  | nil => rfl
  | cons h1 _ ih => simp only [SameData, List.map_cons, h _ _ h1]; rw [show _ = _ from ih]

theorem kid_cls {x : Obj} (hx : x.WF) (h : x.cls = .corpus ∨ x.cls = .igt ∨ x.cls = .tier) : ∀ k ∈ x.kids, k.cls ≠ .metadata := by
  cases hx with
  | mk _ _ _ _ _ hk _ _ =>
    intro k hk'
    have := hk k hk'
    simp only [Obj.cls, Obj.data] at h
    rcases h with h | h | h <;> rw [h] at this <;> intro e <;> rw [e] at this <;> cases this

theorem kid_of {x : Obj} (hx : x.WF) : ∀ k ∈ x.kids, k.WF ∧ some k.cls = x.cls.contained := by
  cases hx with
  | mk _ _ _ _ _ hk _ hw => exact fun k h => ⟨hw k h, hk k h⟩

theorem all2_right {α β : Type} {R : α → β → Prop} {as : List α} {bs : List β} (hr : All2 R as bs) : ∀ {b}, b ∈ bs → ∃ a ∈ as, R a b := by
  induction hr with
  | nil => intro b hb; cases hb
  | cons h1 _ ih =>
    intro b hb
    rcases List.mem_cons.1 hb with rfl | hb
    · exact ⟨_, by simp, h1⟩
    · obtain ⟨a, ha, hr⟩ := ih hb
      exact ⟨a, by simp [ha], hr⟩

theorem all2_weaken {α β : Type} {R S : α → β → Prop} (h : ∀ a b, R a b → S a b) {as : List α} {bs : List β} (hr : All2 R as bs) : All2 S as bs := by
  induction hr with
  | nil => exact .nil
  | cons h1 _ ih => exact .cons (h _ _ h1) ih

theorem some_sort {c sks x up y} (h : (some (sortKids c sks x up) : Run Obj) = some (.ok y)) : sortKids c sks x up = .ok y := Option.some.inj h

theorem sortKids_perm {c sks x up y} (h : sortKids c sks x up = .ok y) : y.data = x.data ∧ y.kids.Perm x.kids :=
  have h := sortKids_byKey h
  ⟨h.data, h.perm⟩

/-- **C110** (partial: by keys that are attributes or the text of the objects sorted; for tier
dependencies see `C110_deps`).  Sorting a second time changes nothing. -/
theorem C110_partial (c : XP.PCfg) (n : Nat) (a : Args) (x y : Obj) (hx : x.WF) (hc : x.cls = .corpus) (hd : a.tierDeps = [] ∨ a.tierKey ≠ [])
    (h1 : ∀ k ∈ a.igtKey, OwnKey k) (h2 : ∀ k ∈ a.tierKey, OwnKey k) (h3 : ∀ k ∈ a.itemKey, OwnKey k) (h : run c n a x = some (.ok y)) :
    run c n a y = some (.ok y) := by
  rw [run] at h
  obtain ⟨x1, e1, h⟩ := thenRun_ok h
  obtain ⟨x2, e2, e3⟩ := thenRun_ok h
  -- classes
  have k1 : ∀ g ∈ x.kids, g.WF ∧ g.cls = .igt := by
    intro g hg
    obtain ⟨w, h⟩ := kid_of hx g hg
    rw [hc] at h
    exact ⟨w, Option.some.inj h⟩
  have k2 : ∀ g ∈ x.kids, ∀ t ∈ g.kids, t.WF ∧ t.cls = .tier := by
    intro g hg t ht
    obtain ⟨w, hgc⟩ := k1 g hg
    obtain ⟨w, h⟩ := kid_of w t ht
    rw [hgc] at h
    exact ⟨w, Option.some.inj h⟩
  have q1 : x1.kids.Perm x.kids := by
    split at e1
    · exact (sortKids_perm (some_sort e1)).2
    · cases e1; exact List.Perm.refl _
  -- the second stage
  have q2 : x2.data = x1.data ∧ All2 (fun g g' => g'.data = g.data ∧ g'.kids.Perm g.kids ∧
      (a.tierKey ≠ [] → sortKids c a.tierKey g [x1] = .ok g')) x1.kids x2.kids := by
    by_cases ht : a.tierKey ≠ []
    · rw [if_pos ht] at e2
      obtain ⟨d1, _, d3⟩ := eachKid_inside (R := fun g up g' => sortKids c a.tierKey g up = .ok g') (fun _ _ _ h => some_sort h) _ _ _ e2
      exact ⟨d1, all2_weaken (fun g g' h => ⟨(sortKids_perm h).1, (sortKids_perm h).2, fun _ => h⟩) d3⟩
    · rw [if_neg ht] at e2
      have hdep : a.tierDeps = [] := hd.resolve_right ht
      rw [if_neg (by simp [hdep])] at e2
      cases e2
      exact ⟨rfl, all2_self (fun g => ⟨rfl, List.Perm.refl _, fun h => absurd h ht⟩) _⟩
  -- the third
  have q3 : y.data = x2.data ∧ All2 (fun g g' => g'.data = g.data ∧ All2 (fun t t' => t'.data = t.data ∧
      (a.itemKey ≠ [] → sortKids c a.itemKey t [g, x2] = .ok t')) g.kids g'.kids) x2.kids y.kids := by
    by_cases ht : a.itemKey ≠ []
    · rw [if_pos ht] at e3
      obtain ⟨d1, _, d3⟩ := eachKid_inside (R := fun g up g' => eachKid (fun tier up => some (sortKids c a.itemKey tier up)) g up = some (.ok g')) (fun _ _ _ h => h) _ _ _ e3
      refine ⟨d1, all2_weaken (fun g g' h => ?_) d3⟩
      obtain ⟨f1, _, f3⟩ := eachKid_inside (R := fun t up t' => sortKids c a.itemKey t up = .ok t') (fun _ _ _ h => some_sort h) _ _ _ h
      exact ⟨f1, all2_weaken (fun t t' h => ⟨(sortKids_perm h).1, fun _ => h⟩) f3⟩
    · rw [if_neg ht] at e3
      cases e3
      exact ⟨rfl, all2_self (fun g => ⟨rfl, all2_self (fun t => ⟨rfl, fun h => absurd h ht⟩) _⟩) _⟩
  have d12 : SameData x1.kids x2.kids := sameData_all2 (fun _ _ h => h.1) q2.2
  have d2y : SameData x2.kids y.kids := sameData_all2 (fun _ _ h => h.1) q3.2
  -- again
  have r1 : (if a.igtKey ≠ [] then some (sortKids c a.igtKey y []) else some (.ok y)) = (some (.ok y) : Run Obj) := by
    split
    · rename_i ht
      rw [if_pos ht] at e1
      rw [sortKids_again (own_local c _ h1) (fun k hk => by rw [(k1 k hk).2]; decide) (some_sort e1) (q3.1.trans q2.1) (Eq.trans d12 d2y) rfl]
    · rfl
  have r2 : a.tierKey ≠ [] → eachKid (fun igt up => some (sortKids c a.tierKey igt up)) y [] = some (.ok y) := by
    intro ht
    refine eachKid_same fun g' hg' => ?_
    obtain ⟨g2, m2, s1, s2⟩ := all2_right q3.2 hg'
    obtain ⟨g1, m1, t1, t2, t3⟩ := all2_right q2.2 m2
    rw [sortKids_again (own_local c _ h2) (fun k hk => by rw [(k2 g1 (q1.subset m1) k hk).2]; decide) (t3 ht) s1 (sameData_all2 (fun _ _ h => h.1) s2)
      (by simp [SameData, q3.1, q2.1])]
  have r3 : a.itemKey ≠ [] → eachKid (fun igt up => eachKid (fun tier up => some (sortKids c a.itemKey tier up)) igt up) y [] = some (.ok y) := by
    intro ht
    refine eachKid_same fun g' hg' => eachKid_same fun t' ht' => ?_
    obtain ⟨g2, m2, s1, s2⟩ := all2_right q3.2 hg'
    obtain ⟨g1, m1, t1, t2, t3⟩ := all2_right q2.2 m2
    obtain ⟨u, mu, u1, u2⟩ := all2_right s2 ht'
    rw [sortKids_again (own_local c _ h3) (kid_cls (k2 g1 (q1.subset m1) u (t2.subset mu)).1 (.inr (.inr (k2 g1 (q1.subset m1) u (t2.subset mu)).2))) (u2 ht) rfl rfl
      (by simp [SameData, q3.1, s1])]
  rw [run, r1]
  simp only [thenRun]
  by_cases ht : a.tierKey ≠ []
  · rw [if_pos ht, r2 ht]
    simp only
    split
    · rename_i hi; rw [r3 hi]
    · rfl
  · rw [if_neg ht, if_neg (by simp [hd.resolve_right ht])]
    simp only
    split
    · rename_i hi; rw [r3 hi]
    · rfl

end

section
attribute [local instance] asciiUni

/-- the identifiers of the IGTs -/
def igtIds (r : Run Obj) : List Str := match r with
  | some (.ok y) => y.kids.filterMap fun k => k.data.id
  | _ => []

def twiceCorpus : Obj := .mk { cls := .corpus } []
  [.mk { cls := .igt, id := some (lit! "i1") } [] [.mk { cls := .tier, id := some (lit! "c") } [] [], .mk { cls := .tier, id := some (lit! "a") } [] []],
   .mk { cls := .igt, id := some (lit! "i2") } [] [.mk { cls := .tier, id := some (lit! "b") } [] []]]

/-- **C110** refuted: IGTs are sorted before their tiers are (xigt_sort.py:13-24), so by a key that looks at
the tiers they may be out of order in the result, and sorting this again changes it -/
theorem C110_refuted : ∃ (c : XP.PCfg) (n : Nat) (a : Args) (x y : Obj), run c n a x = some (.ok y) ∧
    y.kids.filterMap (fun k => k.data.id) = [lit! "i2", lit! "i1"] ∧ igtIds (run c n a y) = [lit! "i1", lit! "i2"] := by
  have h : (match run exCfg 10 { igtKey := [lit! "tier/@id"], tierKey := [lit! "@id"] } twiceCorpus with
    | some (.ok y) => decide (y.kids.filterMap (fun k => k.data.id) = [lit! "i2", lit! "i1"] ∧
        igtIds (run exCfg 10 { igtKey := [lit! "tier/@id"], tierKey := [lit! "@id"] } y) = [lit! "i1", lit! "i2"])
    | _ => false) = true := by decide +kernel
  split at h
  · rename_i y hy
    exact ⟨_, _, _, _, y, hy, of_decide_eq_true h⟩
  · cases h

theorem id_plain : XP.PlainName (lit! "id") where
  chars := by decide
  head := ⟨'i', lit! "d", rfl, by decide, by decide, by decide, by decide⟩
  last := ⟨'d', lit! "i", rfl, by decide⟩
  kw := by decide

/-- keys that C110 is about -/
example : OwnKey (lit! "@id") ∧ OwnKey (lit! "../@id") ∧ OwnKey (lit! "text()") :=
  ⟨.inr ⟨0, lit! "id", .inl id_plain, rfl⟩, .inr ⟨1, lit! "id", .inl id_plain, rfl⟩, .inl rfl⟩

/-- and a corpus that is changed when it is sorted by them -/
example : twiceCorpus.WF ∧ igtIds (run exCfg 10 { igtKey := [lit! "@n", lit! "@id"], tierKey := [lit! "@id"] } twiceCorpus) = [lit! "i1", lit! "i2"] ∧
    runIds (run exCfg 10 { igtKey := [lit! "@id"], tierKey := [lit! "@id"] } twiceCorpus) = [lit! "a", lit! "c", lit! "b"] := by
  refine ⟨?_, by decide +kernel, by decide +kernel⟩
  refine .mk (by unfold Dict.WF; decide) (by simp) (by simp) (by simp) (by simp) (by simp [Cls.contained, Obj.cls, Obj.data]) (by simp) ?_
  intro g hg
  simp only [List.mem_cons, List.not_mem_nil, or_false] at hg
  rcases hg with rfl | rfl
  all_goals
    refine .mk (by unfold Dict.WF; decide) (by simp) (by simp) (by simp) (by simp) (by simp [Cls.contained, Obj.cls, Obj.data]) (by simp) ?_
    intro t ht
    simp only [List.mem_cons, List.not_mem_nil, or_false] at ht
  · rcases ht with rfl | rfl <;> exact .mk (by unfold Dict.WF; decide) (by simp) (by simp) (by simp) (by simp) (by simp) (by simp) (by simp)
  · subst ht; exact .mk (by unfold Dict.WF; decide) (by simp) (by simp) (by simp) (by simp) (by simp) (by simp) (by simp)

end
end Xigt.Srt
