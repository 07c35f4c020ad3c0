import Verif.Path.Machine
import Verif.Attr.Props
/-
C43-C48: location paths.
-/

set_option linter.unusedSectionVars false

namespace Xigt.XP
section
variable [Uni]

theorem toList_ok {g : Gen} {l} : g.toList = .ok l ↔ g.err = none ∧ g.vals = l := by
  rw [Gen.toList]
  cases g.err <;> simp

/-! ### C43 -/

/-- **C43** `find` is the first result of `findall`, None without results -/
theorem C43_find_first (c : PCfg) (v : PV) (path : Str) (l : List PV) (h : findall c v path = .ok l) :
    find c v path = .ok (l.head?.getD .none) := by
  obtain ⟨h1, h2⟩ := toList_ok.1 h
  rw [find, h2, h1]
  cases l <;> rfl

/-- more: whenever `find` raises an exception, so does `findall`, the same one -/
theorem C43_find_raises (c : PCfg) (v : PV) (path : Str) (e : PyErr) (h : find c v path = .error e) :
    findall c v path = .error e := by
  rw [find] at h
  rw [findall, Gen.toList]
  cases hv : (iterfind c v path).vals with
  | cons x xs => rw [hv] at h; cases h
  | nil =>
    rw [hv] at h
    cases he : (iterfind c v path).err with
    | none => rw [he] at h; cases h
    | some x => rw [he] at h; simpa using h

/-! ### C44 -/

theorem forEach_congr {f f' : PV → Py (List PV)} (h : ∀ v l, f v = .ok l ↔ f' v = .ok l) {vs l} :
    ForEach f vs l ↔ ForEach f' vs l := by
  constructor
  · intro hf
    induction hf with
    | nil => exact .nil
    | cons h1 _ ih => exact .cons ((h _ _).1 h1) ih
  · intro hf
    induction hf with
    | nil => exact .nil
    | cons h1 _ ih => exact .cons ((h _ _).2 h1) ih

theorem forEach_nil {f : PV → Py (List PV)} {l} : ForEach f [] l ↔ l = [] := by
  constructor
  · intro h; cases h; rfl
  · rintro rfl; exact .nil

theorem forEach_cons {f : PV → Py (List PV)} {v vs l} : ForEach f (v :: vs) l ↔ ∃ a b, f v = .ok a ∧ ForEach f vs b ∧ l = a ++ b := by
  constructor
  · intro h
    cases h with
    | cons h1 h2 => exact ⟨_, _, h1, h2, rfl⟩
  · rintro ⟨a, b, h1, h2, rfl⟩; exact .cons h1 h2

theorem forEach_single {f : PV → Py (List PV)} {v l} : ForEach f [v] l ↔ f v = .ok l := by
  rw [forEach_cons]
  constructor
  · rintro ⟨a, b, h1, h2, rfl⟩
    rw [forEach_nil] at h2; subst h2; simpa using h1
  · intro h; exact ⟨l, [], h, .nil, by simp⟩

theorem forEach_append {f : PV → Py (List PV)} : ∀ {us vs l}, ForEach f (us ++ vs) l ↔ ∃ a b, ForEach f us a ∧ ForEach f vs b ∧ l = a ++ b := by
  intro us
  induction us with
  | nil =>
    intro vs l
    constructor
    · intro h; exact ⟨[], l, .nil, h, rfl⟩
    · rintro ⟨a, b, h1, h2, rfl⟩; rw [forEach_nil] at h1; subst h1; exact h2
  | cons u us ih =>
    intro vs l
    rw [List.cons_append, forEach_cons]
    constructor
    · rintro ⟨a, b, h1, h2, rfl⟩
      obtain ⟨a', b', h3, h4, rfl⟩ := ih.1 h2
      exact ⟨a ++ a', b', .cons h1 h3, h4, by simp⟩
    · rintro ⟨a, b, h1, h2, rfl⟩
      obtain ⟨a', b', h3, h4, rfl⟩ := forEach_cons.1 h1
      exact ⟨a', b' ++ b, h3, ih.2 ⟨b', b, h4, h2, rfl⟩, by simp⟩

/-- works on one object at a time -/
def Lin (F : Gen → Gen) : Prop :=
  ∀ g l, (F g).toList = .ok l ↔ g.err = none ∧ ForEach (fun v => (F ⟨[v], none⟩).toList) g.vals l

theorem lin_id : Lin id := by
  intro g l
  rw [id, toList_ok]
  have : ∀ vs l, ForEach (fun v => (id (⟨[v], none⟩ : Gen)).toList) vs l ↔ vs = l := by
    intro vs
    induction vs with
    | nil => intro l; rw [forEach_nil]; exact eq_comm
    | cons v vs ih =>
      intro l
      rw [forEach_cons]
      constructor
      · rintro ⟨a, b, h1, h2, rfl⟩
        rw [ih] at h2; subst h2
        have := (toList_ok.1 h1).2
        simp only [id] at this
        subst this; rfl
      · rintro rfl
        exact ⟨[v], vs, rfl, (ih vs).2 rfl, rfl⟩
  rw [this]

theorem lin_comp {F G : Gen → Gen} (hF : Lin F) (hG : Lin G) : Lin fun g => G (F g) := by
  intro g l
  rw [hG, show (F g).err = none ∧ ForEach (fun v => (G ⟨[v], none⟩).toList) (F g).vals l ↔
    ∃ m, (F g).toList = .ok m ∧ ForEach (fun v => (G ⟨[v], none⟩).toList) m l from ?_]
  · have key : ∀ vs l, (∃ m, ForEach (fun v => (F ⟨[v], none⟩).toList) vs m ∧ ForEach (fun v => (G ⟨[v], none⟩).toList) m l) ↔
        ForEach (fun v => (G (F ⟨[v], none⟩)).toList) vs l := by
      intro vs
      induction vs with
      | nil =>
        intro l
        constructor
        · rintro ⟨m, h1, h2⟩
          rw [forEach_nil] at h1; subst h1
          rw [forEach_nil] at h2; subst h2; exact .nil
        · intro h
          rw [forEach_nil] at h; subst h
          exact ⟨[], .nil, .nil⟩
      | cons v vs ih =>
        intro l
        constructor
        · rintro ⟨m, h1, h2⟩
          obtain ⟨a, b, h3, h4, rfl⟩ := forEach_cons.1 h1
          obtain ⟨a', b', h5, h6, rfl⟩ := forEach_append.1 h2
          refine .cons ?_ ((ih b').1 ⟨b, h4, h6⟩)
          rw [hG]
          obtain ⟨e1, e2⟩ := toList_ok.1 h3
          exact ⟨e1, by rw [e2]; exact h5⟩
        · intro h
          obtain ⟨a, b, h1, h2, rfl⟩ := forEach_cons.1 h
          obtain ⟨m, h3, h4⟩ := (ih b).2 h2
          obtain ⟨e1, e2⟩ := (hG _ _).1 h1
          exact ⟨(F ⟨[v], none⟩).vals ++ m, .cons (toList_ok.2 ⟨e1, rfl⟩) h3, forEach_append.2 ⟨a, b, e2, h4, rfl⟩⟩
    rw [← key]
    constructor
    · rintro ⟨m, h1, h2⟩
      obtain ⟨e1, e2⟩ := (hF _ _).1 h1
      exact ⟨e1, m, e2, h2⟩
    · rintro ⟨e1, m, e2, h2⟩
      exact ⟨m, (hF _ _).2 ⟨e1, e2⟩, h2⟩
  · constructor
    · rintro ⟨h1, h2⟩; exact ⟨_, toList_ok.2 ⟨h1, rfl⟩, h2⟩
    · rintro ⟨m, h1, h2⟩
      obtain ⟨e1, rfl⟩ := toList_ok.1 h1
      exact ⟨e1, h2⟩

/-- enough for `Lin` -/
theorem lin_of {F : Gen → Gen} (f : PV → Py (List PV)) (h : ∀ g l, (F g).toList = .ok l ↔ g.err = none ∧ ForEach f g.vals l) : Lin F := by
  intro g l
  rw [h, forEach_congr (f := f) (f' := fun v => (F ⟨[v], none⟩).toList)]
  intro v m
  rw [h]
  simp [forEach_single]

theorem lin_bind (f : PV → Gen) : Lin fun g => g.bind f := by
  refine lin_of (fun v => (f v).toList) ?_
  rintro ⟨vals, err⟩ l
  simp only [Gen.bind]
  induction vals generalizing l with
  | nil =>
    rw [Gen.bindL, toList_ok, forEach_nil]
    exact and_congr_right fun _ => eq_comm
  | cons v vs ih =>
    rw [Gen.bindL, forEach_cons]
    cases he : (f v).err with
    | some e =>
      simp only [toList_ok]
      constructor
      · rintro ⟨h, _⟩; cases h
      · rintro ⟨_, a, b, h, _⟩
        rw [he] at h; cases h.1
    | none =>
      simp only [toList_ok]
      constructor
      · rintro ⟨h1, rfl⟩
        obtain ⟨e1, e2⟩ := (ih _).1 (toList_ok.2 ⟨h1, rfl⟩)
        exact ⟨e1, _, _, ⟨he, rfl⟩, e2, rfl⟩
      · rintro ⟨h1, a, b, ⟨_, rfl⟩, h2, rfl⟩
        obtain ⟨e1, rfl⟩ := toList_ok.1 ((ih b).2 ⟨h1, h2⟩)
        exact ⟨e1, rfl⟩

theorem lin_filter (t : PV → Py Bool) : Lin fun g => g.filter t := by
  refine lin_of (fun v => (t v).map fun b => if b = true then [v] else []) ?_
  rintro ⟨vals, err⟩ l
  simp only [Gen.filter]
  induction vals generalizing l with
  | nil =>
    rw [Gen.filterL, toList_ok, forEach_nil]
    exact and_congr_right fun _ => eq_comm
  | cons v vs ih =>
    rw [Gen.filterL, forEach_cons]
    cases ht : t v with
    | error e =>
      constructor
      · intro h; cases h
      · rintro ⟨_, a, b, h, _⟩; simp [Except.map] at h
    | ok b =>
      cases b with
      | true =>
        simp only [toList_ok]
        constructor
        · rintro ⟨h1, rfl⟩
          obtain ⟨e1, e2⟩ := (ih _).1 (toList_ok.2 ⟨h1, rfl⟩)
          exact ⟨e1, [v], _, rfl, e2, rfl⟩
        · rintro ⟨h1, a, b, h, h2, rfl⟩
          obtain ⟨e1, rfl⟩ := toList_ok.1 ((ih b).2 ⟨h1, h2⟩)
          simp [Except.map] at h; subst h
          exact ⟨e1, rfl⟩
      | false =>
        simp only
        rw [ih]
        refine and_congr_right fun h1 => ?_
        constructor
        · intro h; exact ⟨[], l, rfl, h, rfl⟩
        · rintro ⟨a, b, h, h2, rfl⟩
          simp [Except.map] at h; subst h; exact h2

theorem forEach_mapPy {f : PV → Py (List PV)} : ∀ {vs ls}, mapPy f vs = .ok ls → ForEach f vs ls.flatten := by
  intro vs
  induction vs with
  | nil => intro ls h; simp [mapPy] at h; cases h; exact .nil
  | cons v vs ih =>
    intro ls h
    simp only [mapPy, bind, Except.bind] at h
    split at h
    · cases h
    · rename_i a ha
      split at h
      · cases h
      · rename_i b hb
        simp only [pure, Except.pure, Except.ok.injEq] at h; subst h
        exact .cons ha (ih hb)

theorem mapPy_forEach {f : PV → Py (List PV)} {vs l} (h : ForEach f vs l) : ∃ ls, mapPy f vs = .ok ls ∧ l = ls.flatten := by
  induction h with
  | nil => exact ⟨[], rfl, rfl⟩
  | cons h1 _ ih =>
    obtain ⟨ls, h2, rfl⟩ := ih
    exact ⟨_ :: ls, by simp only [mapPy, h1, h2, bind, Except.bind, pure, Except.pure], rfl⟩

theorem lin_force (f : PV → Py (List PV)) : Lin (force f) := by
  refine lin_of f ?_
  rintro ⟨vals, err⟩ l
  simp only [force]
  constructor
  · intro h
    cases hm : mapPy f vals with
    | error e => rw [hm] at h; cases h
    | ok ls =>
      rw [hm] at h
      cases err with
      | some e => cases h
      | none =>
        refine ⟨rfl, ?_⟩
        have : ls.flatten = l := (toList_ok.1 h).2
        subst this
        exact forEach_mapPy hm
  · rintro ⟨h1, h2⟩
    subst h1
    obtain ⟨ls, hm, rfl⟩ := mapPy_forEach h2
    rw [hm]; rfl

theorem lin_node {c} (n : PNode) : Lin (denNode c n) := by
  cases n with
  | child n => exact lin_bind _
  | desc n => exact lin_bind _
  | attr n => exact lin_bind _
  | parent => exact lin_bind _
  | self => exact lin_id
  | fn f a => cases a <;> exact lin_bind _
  | alts a => exact lin_force _

theorem lin_preds {c} : ∀ ps : PPreds, Lin (denPreds c ps)
  | .nil => lin_id
  | .eq _ _ r => lin_comp (G := denPreds c r) (F := fun g => g.filter _) (lin_filter _) (lin_preds r)
  | .ne _ _ r => lin_comp (G := denPreds c r) (F := fun g => g.filter _) (lin_filter _) (lin_preds r)
  | .ex _ r => lin_comp (G := denPreds c r) (F := fun g => g.filter _) (lin_filter _) (lin_preds r)

theorem lin_steps {c} : ∀ s : PSteps, Lin (denSteps c s)
  | .last n ps => lin_comp (F := denNode c n) (G := denPreds c ps) (lin_node n) (lin_preds ps)
  | .more n ps r => lin_comp (F := fun g => denPreds c ps (denNode c n g)) (G := denSteps c r)
      (lin_comp (F := denNode c n) (G := denPreds c ps) (lin_node n) (lin_preds ps)) (lin_steps r)

/-- steps one after the other -/
def PSteps.append : PSteps → PSteps → PSteps
  | .last n ps, s => .more n ps s
  | .more n ps r, s => .more n ps (r.append s)

theorem append_ok : ∀ {r s : PSteps}, r.Ok → s.Ok → (r.append s).Ok
  | .last _ _, _, h, hs => ⟨h.1, h.2, hs⟩
  | .more _ _ _, _, h, hs => ⟨h.1, h.2.1, append_ok h.2.2 hs⟩

theorem append_first {r s : PSteps} : (r.append s).first = r.first := by cases r <;> rfl

theorem append_toks : ∀ {r s : PSteps}, (r.append s).toks = r.toks ++ (sep s ++ s.toks)
  | .last _ _, _ => by simp [PSteps.append, PSteps.toks]
  | .more _ _ r, s => by
    have : sep (r.append s) = sep r := by rw [sep, sep, append_first]
    rw [PSteps.append, PSteps.toks, PSteps.toks, append_toks, this]
    simp

theorem append_den {c} : ∀ {r s : PSteps} {g}, denSteps c (r.append s) g = denSteps c s (denSteps c r g)
  | .last _ _, _, _ => rfl
  | .more _ _ r, _, _ => by rw [PSteps.append, denSteps, append_den, denSteps]

/-- a path followed by further steps -/
def PPath.append : PPath → PSteps → PPath
  | .rel r, s => .rel (r.append s)
  | .abs r, s => .abs (r.append s)
  | .group a, _ => .group a

theorem path_append {c} {A : PPath} {s : PSteps} (hA : A.Ok) (hg : A.isGroup = false) (hs : s.Ok) :
    (A.append s).Ok ∧ (A.append s).render = A.render ++ (sep s ++ s.toks).flatten ∧
      ∀ v, denPath c (A.append s) v = denSteps c s (denPath c A v) := by
  cases A with
  | rel r =>
    refine ⟨⟨append_ok hA.1 hs, ?_, ?_⟩, ?_, fun v => ?_⟩
    · rw [append_first]; exact hA.2.1
    · rw [append_first]; exact hA.2.2
    · simp [PPath.append, PPath.render, PPath.toks, append_toks]
    · rw [PPath.append, denPath, append_den, denPath]
  | abs r =>
    have : sep (r.append s) = sep r := by rw [sep, sep, append_first]
    refine ⟨append_ok hA hs, ?_, fun v => ?_⟩
    · simp [PPath.append, PPath.render, PPath.toks, append_toks, this]
    · rw [PPath.append, denPath, denPath]
      cases getCorpus v with
      | error e => exact (denSteps_dead fail_dead).symm
      | ok x => exact append_den
  | group a => simp [PPath.isGroup] at hg

theorem append_findall {c} {A : PPath} {s : PSteps} {v l} (hA : A.Ok) (hg : A.isGroup = false) (hs : s.Ok) :
    findall c v (A.render ++ (sep s ++ s.toks).flatten) = .ok l ↔
      ∃ ys, findall c v A.render = .ok ys ∧ ForEach (fun y => (denSteps c s ⟨[y], none⟩).toList) ys l := by
  obtain ⟨h1, h2, h3⟩ := path_append (c := c) hA hg hs
  rw [← h2, findall_render h1, findall_render hA, h3, lin_steps s]
  constructor
  · rintro ⟨h4, h5⟩; exact ⟨_, toList_ok.2 ⟨h4, rfl⟩, h5⟩
  · rintro ⟨m, h4, h5⟩
    obtain ⟨e1, rfl⟩ := toList_ok.1 h4
    exact ⟨e1, h5⟩

/-- **C44** (partial: `A` is not of the form `(...)`, see `C44_refuted`; paths as in `PPath.Ok`)
`A/B` finds what `B` finds at the results of `A`, one after the other -/
theorem C44_partial (c : PCfg) (v : PV) (A B : PPath) (hA : A.Ok) (hB : B.Ok) (hg : A.isGroup = false) (ha : B.isAbs = false)
    (l : List PV) : findall c v (A.render ++ '/' :: B.render) = .ok l ↔
      ∃ ys, findall c v A.render = .ok ys ∧ ForEach (fun y => findall c y B.render) ys l := by
  cases B with
  | abs s => simp [PPath.isAbs] at ha
  | rel s =>
    have e : (sep s ++ s.toks).flatten = '/' :: (PPath.rel s).render := by
      simp [sep, hB.2.1, PPath.render, PPath.toks]
    rw [← e, append_findall hA hg hB.1]
    simp only [findall_render hB, denPath]
  | group a =>
    have e : (sep (.last (.alts a) .nil) ++ PSteps.toks (.last (.alts a) .nil)).flatten = '/' :: (PPath.group a).render := by
      simp [sep, PSteps.first, PNode.isDesc, PPath.render, PPath.toks, PSteps.toks, PNode.toks, PPreds.toks]
    rw [← e, append_findall hA hg (s := .last (.alts a) .nil) ⟨hB, trivial⟩]
    simp only [findall_render hB, denPath]
    have : ∀ y, (denSteps c (.last (.alts a) .nil) ⟨[y], none⟩).toList = (Gen.ofPy (denAlts c a y)).toList := by
      intro y
      simp only [denSteps, denPreds, denNode, force, mapPy, bind, Except.bind]
      cases denAlts c a y with
      | error e => rfl
      | ok l => simp [pure, Except.pure, Gen.ofPy]
    simp only [this]

/-- the descendant axis as a further step: `A//n` finds what `.//n` finds at the results of `A` -/
theorem C44_desc (c : PCfg) (v : PV) (A : PPath) (s : PSteps) (hA : A.Ok) (hs : s.Ok) (hg : A.isGroup = false)
    (hd : s.first.isDesc = true) (l : List PV) : findall c v (A.render ++ (PPath.abs s).render) = .ok l ↔
      ∃ ys, findall c v A.render = .ok ys ∧ ForEach (fun y => findall c y ('.' :: (PPath.abs s).render)) ys l := by
  have e : (PPath.abs s).render = (sep s ++ s.toks).flatten := rfl
  have e' : '.' :: (PPath.abs s).render = (PPath.rel (.more .self .nil s)).render := by
    rw [e]; simp [PPath.render, PPath.toks, PSteps.toks, PNode.toks, PPreds.toks]
  have hok : (PPath.rel (.more .self .nil s)).Ok := ⟨⟨trivial, trivial, hs⟩, rfl, rfl⟩
  rw [e', e, append_findall hA hg hs]
  simp only [findall_render hok, denPath, denSteps, denNode, denPreds]

/-! ### C45 -/

theorem splitNs_plain {n : Str} (h : ':' ∉ n) : splitNs n = (none, n) := by
  rw [splitNs, splitOnce_none h]

theorem objName_tagOf {x : Obj} {n : Str} (h1 : n ≠ lit! "xigt-corpus") (h2 : n ≠ lit! "xigtcorpus") :
    objName x = some n ↔ tagOf x = some n := by
  rw [objName, tagOf]
  cases x.cls <;> simp [Ne.symm h1, Ne.symm h2]

theorem wf_item {d md kids} (h : (Obj.mk d md kids).WF) (hc : d.cls = .item) : md = [] ∧ kids = [] := by
  cases h with
  | mk _ _ _ h4 _ h6 _ _ =>
    refine ⟨h4 (by rw [hc]; rfl), ?_⟩
    cases kids with
    | nil => rfl
    | cons k ks =>
      have := h6 k (by simp)
      rw [hc] at this; cases this

/-- what the descendant axis tests -/
def isTag (n : Str) (p : Obj × List Obj) : Bool := decide (tagOf p.1 = some n)

theorem descObjs_eq {n : Str} {up} : ∀ {xs : List Obj}, (∀ x ∈ xs, ∀ up, descObj n up x = ((allIn up x).filter (isTag n)).map asNode) →
    descObjs n up xs = ((allOf up xs).filter (isTag n)).map asNode := by
  intro xs
  induction xs with
  | nil => intro _; rfl
  | cons x xs ih =>
    intro h
    rw [descObjs, allOf, h x (by simp), ih fun y hy => h y (by simp [hy])]
    simp

theorem descObj_eq {n : Str} (h0 : ':' ∉ n) (h1 : n ≠ lit! "xigt-corpus") (h2 : n ≠ lit! "xigtcorpus") :
    ∀ x : Obj, x.WF → ∀ up, descObj n up x = ((allIn up x).filter (isTag n)).map asNode := by
  refine Obj.ind (P := fun x => x.WF → ∀ up, descObj n up x = ((allIn up x).filter (isTag n)).map asNode) ?_
  intro d md kids hmd hkids hwf up
  rw [descObj, allIn, splitNs_plain h0]
  simp only
  have hn : (if (True ∨ d.ns = none) ∧ objName (.mk d md kids) = some n then [PV.node (.mk d md kids) up] else []) =
      ([(Obj.mk d md kids, up)].filter (isTag n)).map asNode := by
    by_cases h : tagOf (.mk d md kids) = some n
    · have := (objName_tagOf (x := .mk d md kids) h1 h2).2 h
      simp [isTag, h, this, asNode]
    · have : objName (.mk d md kids) ≠ some n := fun e => h ((objName_tagOf h1 h2).1 e)
      simp [isTag, h, this]
  rw [show ∀ l : List (Obj × List Obj), (Obj.mk d md kids, up) :: l = [(Obj.mk d md kids, up)] ++ l from fun _ => rfl,
    List.filter_append, List.map_append, ← hn]
  congr 1
  by_cases hi : d.cls = .item
  · obtain ⟨rfl, rfl⟩ := wf_item hwf hi
    simp [hi, allOf]
  · rw [if_neg hi, List.filter_append, List.map_append]
    cases hwf with
    | mk _ _ _ _ _ _ h7 h8 =>
      rw [descObjs_eq fun x hx up => hmd x hx (h7 x hx) up, descObjs_eq fun x hx up => hkids x hx (h8 x hx) up]

/-- **C45** (partial: no prefixes, and not the name of the corpus, see `C45_refuted`)
`.//n` finds every descendant-or-self with the name, once and in document order -/
theorem C45_partial (c : PCfg) (x : Obj) (up : List Obj) (n : Str) (hx : x.WF) (hn : PlainName n) (h0 : ':' ∉ n)
    (h1 : n ≠ lit! "xigt-corpus") (h2 : n ≠ lit! "xigtcorpus") : findall c (.node x up) (lit! ".//" ++ n) =
      .ok (((allIn up x).filter fun p => decide (tagOf p.1 = some n)).map asNode) := by
  have hok : (PPath.rel (.more .self .nil (.last (.desc n) .nil))).Ok := ⟨⟨trivial, trivial, Or.inl hn, trivial⟩, rfl, rfl⟩
  have e : lit! ".//" ++ n = (PPath.rel (.more .self .nil (.last (.desc n) .nil))).render := by
    simp [PPath.render, PPath.toks, PSteps.toks, PNode.toks, PPreds.toks, sep, PSteps.first, PNode.isDesc]
  rw [e, findall_render hok, denPath]
  simp only [denSteps, denNode, denPreds, Gen.bind, Gen.bindL, descSelf, List.append_nil]
  rw [descObj_eq h0 h1 h2 x hx up]
  rfl

/-- the same from the corpus, wherever one is -/
theorem C45_root (c : PCfg) (x root : Obj) (up pre : List Obj) (n : Str) (hup : x :: up = pre ++ [root])
    (hpre : ∀ y ∈ pre, y.cls ≠ .corpus) (hroot : root.cls = .corpus) (hx : root.WF) (hn : PlainName n) (h0 : ':' ∉ n)
    (h1 : n ≠ lit! "xigt-corpus") (h2 : n ≠ lit! "xigtcorpus") : findall c (.node x up) (lit! "//" ++ n) =
      .ok (((allIn [] root).filter fun p => decide (tagOf p.1 = some n)).map asNode) := by
  have hok : (PPath.abs (.last (.desc n) .nil)).Ok := ⟨Or.inl hn, trivial⟩
  have e : lit! "//" ++ n = (PPath.abs (.last (.desc n) .nil)).render := by
    simp [PPath.render, PPath.toks, PSteps.toks, PNode.toks, PPreds.toks, sep, PSteps.first, PNode.isDesc]
  have hg : getCorpus (.node x up) = .ok (.node root []) := by
    have := (takeWhile_all (q := fun y : Obj => decide (y.cls ≠ .corpus)) (l := pre) (e := root) (r := [])
      (fun y hy => by simpa using hpre y hy) (by simp [hroot])).2
    rw [getCorpus, hup, this]
  rw [e, findall_render hok, denPath, hg]
  simp only [denSteps, denNode, denPreds, Gen.bind, Gen.bindL, descSelf, List.append_nil]
  rw [descObj_eq h0 h1 h2 root hx []]
  rfl

/-! ### C46 -/

theorem filter_kept {t : PV → Py Bool} {g : Gen} {l} : (g.filter t).toList = .ok l ↔
    g.err = none ∧ Kept (fun v => t v = .ok true) (fun v => t v = .ok false) g.vals l := by
  obtain ⟨vals, err⟩ := g
  simp only [Gen.filter]
  induction vals generalizing l with
  | nil =>
    rw [Gen.filterL, toList_ok]
    constructor
    · rintro ⟨h, rfl⟩; exact ⟨h, .nil⟩
    · rintro ⟨h, hk⟩; cases hk; exact ⟨h, rfl⟩
  | cons v vs ih =>
    rw [Gen.filterL]
    cases ht : t v with
    | error e =>
      constructor
      · intro h; cases h
      · rintro ⟨_, hk⟩
        cases hk with
        | keep h _ => rw [ht] at h; cases h
        | drop h _ => rw [ht] at h; cases h
    | ok b =>
      cases b with
      | true =>
        simp only [toList_ok]
        constructor
        · rintro ⟨h, rfl⟩
          obtain ⟨e1, e2⟩ := ih.1 (toList_ok.2 ⟨h, rfl⟩)
          exact ⟨e1, .keep ht e2⟩
        · rintro ⟨h, hk⟩
          cases hk with
          | keep h1 h2 =>
            obtain ⟨e1, e2⟩ := toList_ok.1 (ih.2 ⟨h, h2⟩)
            exact ⟨e1, by rw [e2]⟩
          | drop h1 _ => rw [ht] at h1; cases h1
      | false =>
        simp only
        rw [ih]
        refine and_congr_right fun h => ?_
        constructor
        · intro hk; exact .drop ht hk
        · intro hk
          cases hk with
          | keep h1 _ => rw [ht] at h1; cases h1
          | drop _ h2 => exact h2

theorem kept_congr {k d k' d' : PV → Prop} (hk : ∀ v, k v ↔ k' v) (hd : ∀ v, d v ↔ d' v) {vs l} :
    Kept k d vs l ↔ Kept k' d' vs l := by
  have e1 : k = k' := funext fun v => propext (hk v)
  have e2 : d = d' := funext fun v => propext (hd v)
  rw [e1, e2]

theorem any_isStr {v : Str} {l : List PV} : l.any (PV.isStr v) = true ↔ .str v ∈ l := by
  rw [List.any_eq_true]
  constructor
  · rintro ⟨w, hw, h⟩
    cases w <;> simp [PV.isStr] at h
    subst h; exact hw
  · intro h; exact ⟨_, h, by simp [PV.isStr]⟩

/-- predicates one after the other -/
def PPreds.append : PPreds → PPreds → PPreds
  | .nil, q => q
  | .eq p v r, q => .eq p v (r.append q)
  | .ne p v r, q => .ne p v (r.append q)
  | .ex p r, q => .ex p (r.append q)

theorem pappend_ok : ∀ {r q : PPreds}, r.Ok → q.Ok → (r.append q).Ok
  | .nil, _, _, h => h
  | .eq _ _ _, _, h, hq => ⟨h.1, h.2.1, h.2.2.1, pappend_ok h.2.2.2 hq⟩
  | .ne _ _ _, _, h, hq => ⟨h.1, h.2.1, h.2.2.1, pappend_ok h.2.2.2 hq⟩
  | .ex _ _, _, h, hq => ⟨h.1, h.2.1, pappend_ok h.2.2 hq⟩

theorem pappend_toks : ∀ {r q : PPreds}, (r.append q).toks = r.toks ++ q.toks
  | .nil, _ => rfl
  | .eq _ _ r, q => by simp [PPreds.append, PPreds.toks, pappend_toks (r := r) (q := q)]
  | .ne _ _ r, q => by simp [PPreds.append, PPreds.toks, pappend_toks (r := r) (q := q)]
  | .ex _ r, q => by simp [PPreds.append, PPreds.toks, pappend_toks (r := r) (q := q)]

theorem pappend_den {c} : ∀ {r q : PPreds} {g}, denPreds c (r.append q) g = denPreds c q (denPreds c r g)
  | .nil, _, _ => rfl
  | .eq _ _ r, q, g => by rw [PPreds.append, denPreds, pappend_den, denPreds]
  | .ne _ _ r, q, g => by rw [PPreds.append, denPreds, pappend_den, denPreds]
  | .ex _ r, q, g => by rw [PPreds.append, denPreds, pappend_den, denPreds]

/-- predicates on the last step -/
def PSteps.addPreds : PSteps → PPreds → PSteps
  | .last n ps, q => .last n (ps.append q)
  | .more n ps r, q => .more n ps (r.addPreds q)

theorem addPreds_ok : ∀ {s : PSteps} {q}, s.Ok → q.Ok → (s.addPreds q).Ok
  | .last _ _, _, h, hq => ⟨h.1, pappend_ok h.2 hq⟩
  | .more _ _ _, _, h, hq => ⟨h.1, h.2.1, addPreds_ok h.2.2 hq⟩

theorem addPreds_first {s : PSteps} {q} : (s.addPreds q).first = s.first := by cases s <;> rfl

theorem addPreds_toks : ∀ {s : PSteps} {q}, (s.addPreds q).toks = s.toks ++ q.toks
  | .last _ _, _ => by simp [PSteps.addPreds, PSteps.toks, pappend_toks]
  | .more _ _ r, q => by
    have : sep (r.addPreds q) = sep r := by rw [sep, sep, addPreds_first]
    simp [PSteps.addPreds, PSteps.toks, addPreds_toks (s := r) (q := q), this]

theorem addPreds_den {c} : ∀ {s : PSteps} {q g}, denSteps c (s.addPreds q) g = denPreds c q (denSteps c s g)
  | .last _ _, _, _ => pappend_den
  | .more _ _ _, _, _ => by rw [PSteps.addPreds, denSteps, addPreds_den, denSteps]

theorem addPreds_findall {c} {A : PPath} {q : PPreds} {v} (hA : A.Ok) (hg : A.isGroup = false) (hq : q.Ok) :
    findall c v (A.render ++ q.toks.flatten) = (denPreds c q (denPath c A v)).toList := by
  cases A with
  | group a => simp [PPath.isGroup] at hg
  | rel s =>
    have hok : (PPath.rel (s.addPreds q)).Ok := ⟨addPreds_ok hA.1 hq, by rw [addPreds_first]; exact hA.2.1, by rw [addPreds_first]; exact hA.2.2⟩
    have e : (PPath.rel s).render ++ q.toks.flatten = (PPath.rel (s.addPreds q)).render := by
      simp [PPath.render, PPath.toks, addPreds_toks]
    rw [e, findall_render hok, denPath, denPath, addPreds_den]
  | abs s =>
    have hok : (PPath.abs (s.addPreds q)).Ok := addPreds_ok hA hq
    have hs : sep (s.addPreds q) = sep s := by rw [sep, sep, addPreds_first]
    have e : (PPath.abs s).render ++ q.toks.flatten = (PPath.abs (s.addPreds q)).render := by
      simp [PPath.render, PPath.toks, addPreds_toks, hs]
    rw [e, findall_render hok, denPath, denPath]
    cases getCorpus v with
    | error e => rw [denPreds_dead fail_dead]
    | ok x => simp only [addPreds_den]

theorem pred_findall {c} {A : PPath} {q : PPreds} {t} {v l} (hA : A.Ok) (hg : A.isGroup = false) (hq : q.Ok)
    (hd : ∀ g, denPreds c q g = g.filter t) : findall c v (A.render ++ q.toks.flatten) = .ok l ↔
      ∃ ys, findall c v A.render = .ok ys ∧ Kept (fun v => t v = .ok true) (fun v => t v = .ok false) ys l := by
  rw [addPreds_findall hA hg hq, hd, filter_kept, findall_render hA]
  constructor
  · rintro ⟨h1, h2⟩; exact ⟨_, toList_ok.2 ⟨h1, rfl⟩, h2⟩
  · rintro ⟨ys, h1, h2⟩
    obtain ⟨e1, rfl⟩ := toList_ok.1 h1
    exact ⟨e1, h2⟩

theorem map_ok {α β} {x : Py α} {f : α → β} {b} : x.map f = .ok b ↔ ∃ a, x = .ok a ∧ f a = b := by
  cases x <;> simp [Except.map]

/-- **C46**, `=` (partial: `A` not of the form `(...)`, no predicates in `P`)
`A[P="v"]` keeps the results of `A` at which some result of `P` is the string `v` -/
theorem C46_eq_partial (c : PCfg) (x : PV) (A P : PPath) (v : Str) (hA : A.Ok) (hg : A.isGroup = false) (hP : P.Ok) (hn : P.NoPred)
    (hv : Quotable v) (l : List PV) :
    findall c x (A.render ++ lit! "[" ++ P.render ++ lit! "=\"" ++ v ++ lit! "\"]") = .ok l ↔
      ∃ ys, findall c x A.render = .ok ys ∧
        Kept (fun y => ∃ zs, findall c y P.render = .ok zs ∧ .str v ∈ zs)
          (fun y => ∃ zs, findall c y P.render = .ok zs ∧ .str v ∉ zs) ys l := by
  have e : A.render ++ lit! "[" ++ P.render ++ lit! "=\"" ++ v ++ lit! "\"]" = A.render ++ (PPreds.eq P v .nil).toks.flatten := by
    simp [PPreds.toks, PPath.render, quote]
  rw [e, pred_findall hA hg (q := .eq P v .nil) ⟨hP, hn, hv, trivial⟩ (fun g => rfl)]
  refine exists_congr fun ys => and_congr_right fun _ => kept_congr (fun y => ?_) (fun y => ?_)
  · rw [map_ok, findall_render hP]; simp only [any_isStr]
  · rw [map_ok, findall_render hP]
    refine exists_congr fun zs => and_congr_right fun _ => ?_
    rw [← any_isStr]; simp

/-- **C46**, `!=` (partial as above): the results of `A` at which no result of `P` is the string `v` -/
theorem C46_ne_partial (c : PCfg) (x : PV) (A P : PPath) (v : Str) (hA : A.Ok) (hg : A.isGroup = false) (hP : P.Ok) (hn : P.NoPred)
    (hv : Quotable v) (l : List PV) :
    findall c x (A.render ++ lit! "[" ++ P.render ++ lit! "!=\"" ++ v ++ lit! "\"]") = .ok l ↔
      ∃ ys, findall c x A.render = .ok ys ∧
        Kept (fun y => ∃ zs, findall c y P.render = .ok zs ∧ .str v ∉ zs)
          (fun y => ∃ zs, findall c y P.render = .ok zs ∧ .str v ∈ zs) ys l := by
  have e : A.render ++ lit! "[" ++ P.render ++ lit! "!=\"" ++ v ++ lit! "\"]" = A.render ++ (PPreds.ne P v .nil).toks.flatten := by
    simp [PPreds.toks, PPath.render, quote]
  have hall : ∀ zs : List PV, (zs.all fun w => !PV.isStr v w) = !zs.any (PV.isStr v) := by
    intro zs; induction zs <;> simp_all
  rw [e, pred_findall hA hg (q := .ne P v .nil) ⟨hP, hn, hv, trivial⟩ (fun g => rfl)]
  refine exists_congr fun ys => and_congr_right fun _ => kept_congr (fun y => ?_) (fun y => ?_)
  · rw [map_ok, findall_render hP]
    refine exists_congr fun zs => and_congr_right fun _ => ?_
    rw [← any_isStr, hall]; simp
  · rw [map_ok, findall_render hP]
    refine exists_congr fun zs => and_congr_right fun _ => ?_
    rw [← any_isStr, hall]; simp

/-- the opposite of C46 for `A[P]`: it is never of use, as soon as `A` finds something it raises an
exception -/
theorem C46_exists_raises (c : PCfg) (x : PV) (A P : PPath) (hA : A.Ok) (hg : A.isGroup = false) (hP : P.Ok) (hn : P.NoPred)
    (l : List PV) : findall c x (A.render ++ lit! "[" ++ P.render ++ lit! "]") = .ok l ↔
      findall c x A.render = .ok [] ∧ l = [] := by
  have e : A.render ++ lit! "[" ++ P.render ++ lit! "]" = A.render ++ (PPreds.ex P .nil).toks.flatten := by
    simp [PPreds.toks, PPath.render]
  have hno : ∀ y b, ((denPath c P y).toList.bind fun _ => (.error .typeError : Py Bool)) ≠ .ok b := by
    intro y b; cases (denPath c P y).toList <;> simp [Except.bind]
  rw [e, pred_findall hA hg (q := .ex P .nil) ⟨hP, hn, trivial⟩ (fun g => rfl)]
  constructor
  · rintro ⟨ys, h1, h2⟩
    cases h2 with
    | nil => exact ⟨h1, rfl⟩
    | keep h _ => exact absurd h (hno _ _)
    | drop h _ => exact absurd h (hno _ _)
  · rintro ⟨h1, rfl⟩; exact ⟨[], h1, .nil⟩

/-! ### C47 -/

/-- alternatives -/
def altsOf (p : PPath) : List PPath → PAlts
  | [] => .one p
  | q :: qs => .more p (altsOf q qs)

theorem altsOf_ok : ∀ {ps : List PPath} {p}, (∀ q ∈ p :: ps, q.Ok ∧ q.Tight) → (altsOf p ps).Ok
  | [], p, h => h p (by simp)
  | q :: qs, p, h => ⟨(h p (by simp)).1, (h p (by simp)).2, altsOf_ok fun r hr => h r (by simp [hr])⟩

theorem altsOf_render : ∀ {ps : List PPath} {p}, (altsOf p ps).toks.flatten = join (lit! "|") ((p :: ps).map PPath.render)
  | [], p => by simp [altsOf, PAlts.toks, join, PPath.render]
  | q :: qs, p => by
    have := altsOf_render (ps := qs) (p := q)
    simp only [List.map_cons] at this
    simp [altsOf, PAlts.toks, join, PPath.render, this]

theorem altsOf_den {c v} : ∀ {ps : List PPath} {p l}, denAlts c (altsOf p ps) v = .ok l ↔
    ∃ ls, All2 (fun q m => (denPath c q v).toList = .ok m) (p :: ps) ls ∧ l = ls.flatten
  | [], p, l => by
    rw [altsOf, denAlts]
    constructor
    · intro h; exact ⟨[l], .cons h .nil, by simp⟩
    · rintro ⟨ls, h, rfl⟩
      cases h with
      | cons h1 h2 => cases h2; simpa using h1
  | q :: qs, p, l => by
    rw [altsOf, denAlts]
    constructor
    · intro h
      cases h1 : (denPath c p v).toList with
      | error e => rw [h1] at h; cases h
      | ok a =>
        cases h2 : denAlts c (altsOf q qs) v with
        | error e => rw [h1, h2] at h; cases h
        | ok b =>
          rw [h1, h2] at h
          cases h
          obtain ⟨ls, h3, rfl⟩ := altsOf_den.1 h2
          exact ⟨a :: ls, .cons h1 h3, rfl⟩
    · rintro ⟨ls, h, rfl⟩
      cases h with
      | cons h1 h2 => simp [h1, altsOf_den.2 ⟨_, h2, rfl⟩]

/-- **C47** (partial: no alternatives inside of alternatives after the first step of a path, see
`C47_refuted`) `(A|B|...)` finds what `A`, then what `B`, ... finds -/
theorem C47_partial (c : PCfg) (v : PV) (p : PPath) (ps : List PPath) (h : ∀ q ∈ p :: ps, q.Ok ∧ q.Tight) (l : List PV) :
    findall c v (lit! "(" ++ join (lit! "|") ((p :: ps).map PPath.render) ++ lit! ")") = .ok l ↔
      ∃ ls, All2 (fun q m => findall c v q.render = .ok m) (p :: ps) ls ∧ l = ls.flatten := by
  have hok : (PPath.group (altsOf p ps)).Ok := altsOf_ok h
  have e : lit! "(" ++ join (lit! "|") ((p :: ps).map PPath.render) ++ lit! ")" = (PPath.group (altsOf p ps)).render := by
    rw [← altsOf_render]; simp [PPath.render, PPath.toks]
  have hd : findall c v (PPath.group (altsOf p ps)).render = .ok l ↔ denAlts c (altsOf p ps) v = .ok l := by
    rw [findall_render hok, denPath]
    cases denAlts c (altsOf p ps) v <;> simp [Gen.ofPy, Gen.fail, Gen.toList]
  rw [e, hd, altsOf_den]
  have : ∀ {qs : List PPath} {ls}, (∀ q ∈ qs, q.Ok) → (All2 (fun q m => (denPath c q v).toList = .ok m) qs ls ↔
      All2 (fun q m => findall c v q.render = .ok m) qs ls) := by
    intro qs
    induction qs with
    | nil =>
      intro ls _
      constructor <;> (intro h; cases h; exact .nil)
    | cons q qs ih =>
      intro ls hq
      constructor
      · intro h
        cases h with
        | cons h1 h2 => exact .cons (by rw [findall_render (hq q (by simp))]; exact h1) ((ih fun r hr => hq r (by simp [hr])).1 h2)
      · intro h
        cases h with
        | cons h1 h2 => exact .cons (by rw [findall_render (hq q (by simp))] at h1; exact h1) ((ih fun r hr => hq r (by simp [hr])).2 h2)
  refine exists_congr fun ls => and_congr_left fun _ => this fun q hq => (h q hq).1

/-- alternatives as a further step: for each object the results of the first, then those of the others -/
theorem C47_step_partial (c : PCfg) (v : PV) (A p : PPath) (ps : List PPath) (hA : A.Ok) (hg : A.isGroup = false)
    (h : ∀ q ∈ p :: ps, q.Ok ∧ q.Tight) (l : List PV) :
    findall c v (A.render ++ '/' :: (lit! "(" ++ join (lit! "|") ((p :: ps).map PPath.render) ++ lit! ")")) = .ok l ↔
      ∃ ys, findall c v A.render = .ok ys ∧
        ForEach (fun y => findall c y (lit! "(" ++ join (lit! "|") ((p :: ps).map PPath.render) ++ lit! ")")) ys l := by
  have e : lit! "(" ++ join (lit! "|") ((p :: ps).map PPath.render) ++ lit! ")" = (PPath.group (altsOf p ps)).render := by
    rw [← altsOf_render]; simp [PPath.render, PPath.toks]
  rw [e]
  exact C44_partial c v A (.group (altsOf p ps)) hA (altsOf_ok (p := p) h) hg rfl l

/-! ### C48 -/

theorem name_step {c : PCfg} {v : PV} {n : Str} (hn : PlainName n) : findall c v n = (Gen.ofPy (findChild v n)).toList := by
  have hok : (PPath.rel (.last (.child n) .nil)).Ok := ⟨⟨Or.inl hn, trivial⟩, rfl, rfl⟩
  have e : n = (PPath.rel (.last (.child n) .nil)).render := by
    simp [PPath.render, PPath.toks, PSteps.toks, PNode.toks, PPreds.toks]
  have h := findall_render (c := c) (v := v) hok
  rw [← e] at h
  rw [h, denPath]
  simp only [denSteps, denNode, denPreds, Gen.bind, Gen.bindL]
  cases findChild v n <;> simp [Gen.ofPy, Gen.fail, Gen.toList]

theorem attr_step {c : PCfg} {v : PV} {a : Str} (hn : PlainName a) : findall c v ('@' :: a) = (Gen.ofPy (findAttr v a)).toList := by
  have hok : (PPath.rel (.last (.attr a) .nil)).Ok := ⟨⟨Or.inl hn, trivial⟩, rfl, rfl⟩
  have e : '@' :: a = (PPath.rel (.last (.attr a) .nil)).render := by
    simp [PPath.render, PPath.toks, PSteps.toks, PNode.toks, PPreds.toks]
  have h := findall_render (c := c) (v := v) hok
  rw [← e] at h
  rw [h, denPath]
  simp only [denSteps, denNode, denPreds, Gen.bind, Gen.bindL]
  cases findAttr v a <;> simp [Gen.ofPy, Gen.fail, Gen.toList]

theorem ofPy_toList {x : Py (List PV)} : (Gen.ofPy x).toList = x := by cases x <;> rfl

theorem plain_star {n : Str} (h : PlainName n) : n ≠ lit! "*" := by
  rintro rfl
  obtain ⟨c, cs, e, _, _, h3, _⟩ := h.head
  cases e; exact h3 rfl

theorem filter_none {α} {p : α → Bool} {l : List α} (h : ∀ x ∈ l, p x = false) : l.filter p = [] := by
  rw [List.filter_eq_nil_iff]; simpa using h
theorem filter_all {α} {p : α → Bool} {l : List α} (h : ∀ x ∈ l, p x = true) : l.filter p = l := by
  rw [List.filter_eq_self]; exact h

theorem tag_filter {ks : List Obj} {w n : Str} (h : ∀ k ∈ ks, tagOf k = some w) :
    (n = w → ks.filter (fun k => decide (tagOf k = some n)) = ks) ∧ (n ≠ w → ks.filter (fun k => decide (tagOf k = some n)) = []) :=
  ⟨fun e => filter_all fun k hk => by simp [h k hk, e], fun e => filter_none fun k hk => by simp [h k hk, Ne.symm e]⟩

theorem select_all {m} {xs : List Obj} : select (some m) xs (crit none none) = .ok xs := by
  have : Dict.has (crit none none) (lit! "namespace") = false := rfl
  rw [select, this]
  simp [crit]

theorem select_name {m} {xs : List Obj} {n : Str} :
    select (some m) xs (crit none (some n)) = .ok (xs.filter fun x => decide (x.data.name = some n)) := by
  have : Dict.has (crit none (some n)) (lit! "namespace") = false := rfl
  rw [select, this]
  simp [crit, member]

/-- **C48**, elements (partial: names as in `PlainName`, see `C48_refuted`, without prefix)
`n` finds the children with the name `n`, metadata and contents alike -/
theorem C48_child_partial (c : PCfg) (x : Obj) (up : List Obj) (n : Str) (hx : x.WF) (hn : PlainName n) (h0 : ':' ∉ n) :
    findall c (.node x up) n =
      .ok (((x.md ++ x.kids).filter fun k => decide (tagOf k = some n)).map fun k => .node k (x :: up)) := by
  obtain ⟨d, md, kids⟩ := x
  have hst := plain_star hn
  rw [name_step hn, ofPy_toList, findChild, splitNs_plain h0]
  simp only [selectKids, select_all, select_name, mdKids, Obj.md, Obj.kids]
  rw [if_neg (fun h => hst h.1)]
  cases hx with
  | mk _ _ hname hmd hmdc hkc _ hkw =>
    have tmd : ∀ k ∈ md, tagOf k = some (lit! "metadata") := fun k hk => by rw [tagOf, hmdc k hk]
    obtain ⟨fmd', fmd⟩ := tag_filter (n := n) tmd
    have hcls : (Obj.mk d md kids).cls = d.cls := rfl
    rw [List.filter_append, hcls]
    cases hc : d.cls with
    | corpus =>
      have tk : ∀ k ∈ kids, tagOf k = some (lit! "igt") := fun k hk => by
        have := hkc k hk; rw [hc] at this; simp [Cls.contained] at this; rw [tagOf, this]
      by_cases e1 : n = lit! "igt"
      · rw [if_pos (by rw [e1]; rfl), fmd (by rw [e1]; decide), (tag_filter tk).1 e1]; rfl
      · rw [if_neg (by simp [kidName]; exact fun h => e1 h.symm), (tag_filter tk).2 e1]
        by_cases e2 : n = lit! "metadata"
        · rw [if_pos ⟨e2, rfl⟩, fmd' e2]; simp
        · rw [if_neg (fun h => e2 h.1), if_neg (by simp), fmd e2]; rfl
    | igt =>
      have tk : ∀ k ∈ kids, tagOf k = some (lit! "tier") := fun k hk => by
        have := hkc k hk; rw [hc] at this; simp [Cls.contained] at this; rw [tagOf, this]
      by_cases e1 : n = lit! "tier"
      · rw [if_pos (by rw [e1]; rfl), fmd (by rw [e1]; decide), (tag_filter tk).1 e1]; rfl
      · rw [if_neg (by simp [kidName]; exact fun h => e1 h.symm), (tag_filter tk).2 e1]
        by_cases e2 : n = lit! "metadata"
        · rw [if_pos ⟨e2, rfl⟩, fmd' e2]; simp
        · rw [if_neg (fun h => e2 h.1), if_neg (by simp), fmd e2]; rfl
    | tier =>
      have tk : ∀ k ∈ kids, tagOf k = some (lit! "item") := fun k hk => by
        have := hkc k hk; rw [hc] at this; simp [Cls.contained] at this; rw [tagOf, this]
      by_cases e1 : n = lit! "item"
      · rw [if_pos (by rw [e1]; rfl), fmd (by rw [e1]; decide), (tag_filter tk).1 e1]; rfl
      · rw [if_neg (by simp [kidName]; exact fun h => e1 h.symm), (tag_filter tk).2 e1]
        by_cases e2 : n = lit! "metadata"
        · rw [if_pos ⟨e2, rfl⟩, fmd' e2]; simp
        · rw [if_neg (fun h => e2 h.1), if_neg (by simp), fmd e2]; rfl
    | item =>
      obtain ⟨rfl, rfl⟩ := wf_item (.mk ‹_› ‹_› hname hmd hmdc hkc ‹_› hkw) hc
      rw [if_neg (by simp [kidName]), if_neg (by simp [Cls.hasMd]), if_neg (by simp)]; rfl
    | metadata =>
      have tk : ∀ k ∈ kids, tagOf k = some (lit! "meta") := fun k hk => by
        have := hkc k hk; rw [hc] at this; simp [Cls.contained] at this; rw [tagOf, this]
      have := hmd (by rw [hc]; rfl)
      subst this
      by_cases e1 : n = lit! "meta"
      · rw [if_pos (by rw [e1]; rfl), (tag_filter tk).1 e1]; rfl
      · rw [if_neg (by simp [kidName]; exact fun h => e1 h.symm), (tag_filter tk).2 e1,
          if_neg (by simp [Cls.hasMd]), if_neg (by simp)]; rfl
    | metaC =>
      have tk : ∀ k ∈ kids, tagOf k = k.data.name := fun k hk => by
        have := hkc k hk; rw [hc] at this; simp [Cls.contained] at this; rw [tagOf, this]
      have := hmd (by rw [hc]; rfl)
      subst this
      rw [if_neg (by simp [kidName]), if_neg (by simp [Cls.hasMd]), if_pos (Or.inl rfl),
        List.filter_congr (l := kids) (p := fun k => decide (tagOf k = some n)) (q := fun x => decide (x.data.name = some n)) fun k hk => by rw [tk k hk]]
      rfl
    | metaChild =>
      have tk : ∀ k ∈ kids, tagOf k = k.data.name := fun k hk => by
        have := hkc k hk; rw [hc] at this; simp [Cls.contained] at this; rw [tagOf, this]
      have := hmd (by rw [hc]; rfl)
      subst this
      rw [if_neg (by simp [kidName]), if_neg (by simp [Cls.hasMd]), if_pos (Or.inr rfl),
        List.filter_congr (l := kids) (p := fun k => decide (tagOf k = some n)) (q := fun x => decide (x.data.name = some n)) fun k hk => by rw [tk k hk]]
      rfl

/-- **C48**, `*` finds all children, the metadata before the contents; an item has none -/
theorem C48_star (c : PCfg) (x : Obj) (up : List Obj) (hx : x.WF) :
    findall c (.node x up) (lit! "*") = .ok ((x.md ++ x.kids).map fun k => .node k (x :: up)) := by
  have hok : (PPath.rel (.last (.child (lit! "*")) .nil)).Ok := ⟨⟨Or.inr rfl, trivial⟩, rfl, rfl⟩
  have e : lit! "*" = (PPath.rel (.last (.child (lit! "*")) .nil)).render := by
    simp [PPath.render, PPath.toks, PSteps.toks, PNode.toks, PPreds.toks]
  have h := findall_render (c := c) (v := .node x up) hok
  rw [← e] at h
  rw [h, denPath]
  simp only [denSteps, denNode, denPreds, Gen.bind, Gen.bindL]
  have hs : splitNs (lit! "*") = (none, lit! "*") := by decide
  have : findChild (.node x up) (lit! "*") = .ok ((x.md ++ x.kids).map fun k => .node k (x :: up)) := by
    rw [findChild, hs]
    simp only
    by_cases hi : x.cls = .item
    · rw [if_neg (fun h => h.2 hi), if_neg (by rw [hi]; simp [kidName]), if_neg (by simp), if_neg (by simp [hi])]
      obtain ⟨d, md, kids⟩ := x
      obtain ⟨rfl, rfl⟩ := wf_item hx hi
      rfl
    · rw [if_pos ⟨trivial, hi⟩, selectKids, select_all]
      simp [mdKids, Except.map]
  rw [this]
  simp [Gen.ofPy, Gen.toList]

/-- **C48**, children of meta elements with a prefix: by name and by the namespace of the prefix (the
prefix itself if it is not declared) -/
theorem C48_prefixed_partial (c : PCfg) (x : Obj) (up : List Obj) (p n : Str) (hc : x.cls = .metaC ∨ x.cls = .metaChild)
    (hn : PlainName (p ++ ':' :: n)) (hp : ':' ∉ p) (hs : n ≠ lit! "*") :
    findall c (.node x up) (p ++ ':' :: n) = .ok ((x.kids.filter fun k =>
      decide (k.data.ns = some (((nsmapOf (x :: up)).get? p).getD p) ∧ k.data.name = some n)).map fun k => .node k (x :: up)) := by
  have e : splitNs (p ++ ':' :: n) = (some p, n) := by rw [splitNs, splitOnce_some _ _ hp]
  rw [name_step hn, ofPy_toList, findChild, e]
  simp only
  have h1 : kidName x.cls = none := by rcases hc with h | h <;> rw [h] <;> rfl
  have h2 : x.cls.hasMd = false := by rcases hc with h | h <;> rw [h] <;> rfl
  rw [if_neg (fun h => hs h.1), h1, if_neg (by simp), h2, if_neg (by simp), if_pos hc, selectKids, select]
  have h3 : Dict.has (crit (some p) (some n)) (lit! "namespace") = true := rfl
  rw [h3, if_pos rfl]
  have h4 : nsCriterion (nsmapOf (x :: up)) (crit (some p) (some n)) =
      crit (some (((nsmapOf (x :: up)).get? p).getD p)) (some n) := by
    rw [nsCriterion]
    have : Dict.get? (crit (some p) (some n)) (lit! "namespace") = some (some p) := rfl
    rw [this]
    simp only
    cases Dict.get? (nsmapOf (x :: up)) p <;> rfl
  rw [h4]
  simp [crit, Except.map, member]

/-- **C48**, attributes (partial as above): `@a` finds the value of the attribute `a`, None without it -/
theorem C48_attr_partial (c : PCfg) (x : Obj) (up : List Obj) (a : Str) (hn : PlainName a) (h0 : ':' ∉ a)
    (h1 : a ≠ lit! "type" ∧ a ≠ lit! "id" ∧ a ≠ lit! "name") :
    findall c (.node x up) ('@' :: a) = .ok [PV.ofOpt (x.data.attrs.get? a)] := by
  rw [attr_step hn, ofPy_toList, findAttr, if_neg (by simp [h1])]
  simp only [splitNs_plain h0]
  rw [if_neg (plain_star hn), getAttr1, getAttribute, qualify]
  have : (if a.head? = some '{' then none else splitOnce ':' a) = none := by
    rw [splitOnce_none h0]; split <;> rfl
  rw [this]
  simp only
  cases Dict.get? x.data.attrs a <;> simp [Except.map]

/-- **C48**, attributes with a prefix: by the namespace of the prefix (the prefix itself if it is not
declared) -/
theorem C48_attr_prefixed_partial (c : PCfg) (x : Obj) (up : List Obj) (p a : Str) (hn : PlainName (p ++ ':' :: a)) (hp : ':' ∉ p)
    (hp' : p ≠ []) (ha : ':' ∉ a) (hs : a ≠ lit! "*") : findall c (.node x up) ('@' :: (p ++ ':' :: a)) =
      .ok [PV.ofOpt (x.data.attrs.get? ('{' :: (((nsmapOf (x :: up)).get? p).getD p ++ '}' :: a)))] := by
  have e : splitNs (p ++ ':' :: a) = (some p, a) := by rw [splitNs, splitOnce_some _ _ hp]
  have hne : ∀ w : Str, ':' ∉ w → p ++ ':' :: a ≠ w := by
    rintro w hw rfl; exact hw (by simp)
  rw [attr_step hn, ofPy_toList, findAttr, if_neg (by simp [hne (lit! "type") (by decide), hne (lit! "id") (by decide), hne (lit! "name") (by decide)])]
  simp only [e]
  rw [if_neg hs, getAttr1, getAttribute, qualify]
  have : (if a.head? = some '{' then none else splitOnce ':' a) = none := by
    rw [splitOnce_none ha]; split <;> rfl
  rw [this]
  simp only
  cases h : Dict.get? (nsmapOf (x :: up)) p with
  | some u =>
    simp only [qual, Option.getD_some]
    cases Dict.get? x.data.attrs ('{' :: (u ++ '}' :: a)) <;> simp [Except.map]
  | none =>
    simp only [if_neg hp', qual, Option.getD_none]
    cases Dict.get? x.data.attrs ('{' :: (p ++ '}' :: a)) <;> simp [Except.map]

/-- the members that are attributes in documents -/
theorem C48_member (c : PCfg) (x : Obj) (up : List Obj) :
    findall c (.node x up) (lit! "@id") = .ok (x.data.id.toList.map .str) ∧
    findall c (.node x up) (lit! "@type") = .ok (x.data.type.toList.map .str) ∧
    findall c (.node x up) (lit! "@name") = .ok (x.data.name.toList.map .str) := by
  have h1 : PlainName (lit! "id") := ⟨by decide, ⟨'i', lit! "d", rfl, by decide, by decide, by decide, space_graph (by decide) (by decide)⟩,
    ⟨'d', lit! "i", rfl, space_graph (by decide) (by decide)⟩, by decide⟩
  have h2 : PlainName (lit! "type") := ⟨by decide, ⟨'t', lit! "ype", rfl, by decide, by decide, by decide, space_graph (by decide) (by decide)⟩,
    ⟨'e', lit! "typ", rfl, space_graph (by decide) (by decide)⟩, by decide⟩
  have h3 : PlainName (lit! "name") := ⟨by decide, ⟨'n', lit! "ame", rfl, by decide, by decide, by decide, space_graph (by decide) (by decide)⟩,
    ⟨'e', lit! "nam", rfl, space_graph (by decide) (by decide)⟩, by decide⟩
  refine ⟨?_, ?_, ?_⟩
  · rw [attr_step h1, ofPy_toList, findAttr, if_pos (by decide), member]
    cases h : x.data.id <;> simp [h]
  · rw [attr_step h2, ofPy_toList, findAttr, if_pos (by decide), member]
    cases h : x.data.type <;> simp [h]
  · rw [attr_step h3, ofPy_toList, findAttr, if_pos (by decide), member]
    cases h : x.data.name <;> simp [h]

end
end Xigt.XP
