import Verif.Scripts.ValidateModel
import Verif.Ref.Props
import Verif.Igt.ValueLemmas
import Verif.Scripts.QueryProps
/- Properties of xigt_validate.py: C52, C53, C54, C69. -/

set_option linter.unusedSectionVars false
set_option linter.unusedVariables false

namespace Xigt.Vld

/-! ### Vocabulary -/

/-- there is a problem of some level or above, here or below -/
inductive Problem (lvl : Nat) : Report → Prop
  | here {rs cs x} : x ∈ rs → lvl ≤ x.level → Problem lvl (.node rs cs)
  | within {rs cs c} : c ∈ cs → Problem lvl c → Problem lvl (.node rs cs)

/-- the report at a position of the tree: `[i, j]` is the j-th child of the i-th child -/
def Report.sub : Report → List Nat → Option Report
  | r, [] => some r
  | r, i :: p => match r.children[i]? with
    | some c => c.sub p
    | none => none

/-- a record is in the report at a position -/
def Reported (r : Report) (p : List Nat) (x : Rec) : Prop := ∃ s, r.sub p = some s ∧ x ∈ s.records

/-- an earlier one of the objects has the same ID, which is not empty -/
def Repeated (xs : List Obj) (k : Nat) (x : Obj) : Prop :=
  ∃ s, x.data.id = some s ∧ s ≠ [] ∧ ∃ k' y, k' < k ∧ xs[k']? = some y ∧ y.data.id = some s

/-- without ID, or the ID is empty -/
def Missing (o : Option Str) : Prop := o = none ∨ o = some []

/-- what is wrong with a corpus, where, and how severe (spans aside).  `seen` are the IDs of the
corpora checked before, `igts` are the igts. -/
inductive Finding [Uni] (seen : List Str) (xc : Obj) (igts : List Obj) : List Nat → Nat → Msg → Prop
  | corpusId : Missing xc.data.id → Finding seen xc igts [] INFO .noId
  | corpusDup {s} : xc.data.id = some s → s ≠ [] → s ∈ seen → Finding seen xc igts [] ERROR .notUnique
  | igtId {i g} : igts[i]? = some g → Missing g.data.id → Finding seen xc igts [i] WARNING .noId
  | igtDup {i g} : igts[i]? = some g → Repeated igts i g → Finding seen xc igts [i] ERROR .notUnique
  | tierId {i g j t} : igts[i]? = some g → g.kids[j]? = some t → Missing t.data.id →
      Finding seen xc igts [i, j] WARNING .noId
  | tierType {i g j t} : igts[i]? = some g → g.kids[j]? = some t → Missing t.data.type →
      Finding seen xc igts [i, j] WARNING .noType
  | tierDup {i g j t} : igts[i]? = some g → g.kids[j]? = some t → Repeated g.kids j t →
      Finding seen xc igts [i, j] ERROR .notUnique
  | tierRef {i g j t ra s} : igts[i]? = some g → g.kids[j]? = some t → ra ∈ refAttrs →
      Dict.get? t.data.attrs ra = some s → s ≠ [] → (∀ u ∈ g.kids, u.data.id ≠ some s) →
      Finding seen xc igts [i, j] ERROR (.tierRef ra)
  | tierAttrs {i g j t l} : igts[i]? = some g → g.kids[j]? = some t → l ≠ [] →
      List.Sublist l [ALIGNMENT, CONTENT, SEGMENTATION] →
      (∀ ra, ra ∈ l ↔ ra ∈ refAttrs ∧ Dict.get? t.data.attrs ra = none ∧
        ∃ x ∈ t.kids, Dict.get? x.data.attrs ra ≠ none) →
      Finding seen xc igts [i, j] ERROR (.refattrs l)
  | itemId {i g j t k x} : igts[i]? = some g → g.kids[j]? = some t → t.kids[k]? = some x → Missing x.data.id →
      Finding seen xc igts [i, j, k] WARNING .noId
  | itemDup {i g j t k x} : igts[i]? = some g → g.kids[j]? = some t → t.kids[k]? = some x →
      Repeated t.kids k x → Finding seen xc igts [i, j, k] ERROR .notUnique
  | itemDupIgt {i g j t k x s j' t' y} : igts[i]? = some g → g.kids[j]? = some t → t.kids[k]? = some x →
      x.data.id = some s → s ≠ [] → j' < j → g.kids[j']? = some t' → y ∈ t'.kids → y.data.id = some s →
      Finding seen xc igts [i, j, k] ERROR .notUnique
  | itemRef {i g j t k x ra s e u is l} : igts[i]? = some g → g.kids[j]? = some t → t.kids[k]? = some x →
      ra ∈ refAttrs → Dict.get? t.data.attrs ra = some s → s ≠ [] →
      g.kids.find? (fun u => u.data.id == some s) = some u →
      Dict.get? x.data.attrs ra = some e → IdSplit e is →
      l = is.filter (fun y => u.kids.all fun z => z.data.id != some y) → l ≠ [] →
      Finding seen xc igts [i, j, k] ERROR (.idsMissing ra s l)

/-- tier references are IDs (not positions), and tiers that are referred to are not empty -/
def PlainRefs [Uni] (g : Obj) : Prop :=
  ∀ t ∈ g.kids, ∀ ra ∈ refAttrs, ∀ s, Dict.get? t.data.attrs ra = some s →
    ((∀ u ∈ g.kids, u.data.id ≠ some s) → ∀ n, pyInt s ≠ .ok n) ∧
    ∀ u ∈ g.kids, u.data.id = some s → u.kids ≠ []

/-- messages about spans -/
def Msg.aboutSpans : Msg → Bool
  | .spansOut _ => true
  | .overlap _ => true
  | _ => false

/-! ### C52 -/

theorem filterEmptyL_eq (lvl : Nat) (cs : List Report) : filterEmptyL lvl cs = cs.map (filterEmpty lvl) := by
  induction cs with
  | nil => rw [filterEmptyL]; rfl
  | cons c cs ih => rw [filterEmptyL, ih]; rfl

/-- a report without problems is dropped, others are kept -/
theorem filterEmpty_true (lvl : Nat) : ∀ r : Report, (filterEmpty lvl r).isTrue = true ↔ Problem lvl r
  | .empty => by
    rw [filterEmpty]
    constructor
    · intro h; cases h
    · intro h; cases h
  | .node rs cs => by
    have ih : ∀ c ∈ cs, (filterEmpty lvl c).isTrue = true ↔ Problem lvl c := fun c hc => filterEmpty_true lvl c
    have key : isEmpty (some lvl) (.node rs (cs.map (filterEmpty lvl))) = false ↔ Problem lvl (.node rs cs) := by
      simp only [isEmpty, Report.records, Report.children, Bool.not_eq_false', Bool.or_eq_true, List.any_eq_true,
        decide_eq_true_eq, List.mem_map]
      constructor
      · rintro (⟨x, hx, hl⟩ | ⟨_, ⟨c, hc, rfl⟩, h⟩)
        · exact .here hx hl
        · exact .within hc ((ih c hc).1 h)
      · intro h
        cases h with
        | here hx hl => exact .inl ⟨_, hx, hl⟩
        | within hc h => exact .inr ⟨_, ⟨_, hc, rfl⟩, (ih _ hc).2 h⟩
    rw [filterEmpty, filterEmptyL_eq, ← key]
    cases isEmpty (some lvl) (.node rs (cs.map (filterEmpty lvl))) <;> simp [Report.isTrue]

/-- C52: a filtered report counts as empty exactly if there is no problem anywhere in the tree. -/
theorem C52_filter (lvl : Nat) (r : Report) : isEmpty none (filterEmpty lvl r) = true ↔ ¬ Problem lvl r := by
  rw [← filterEmpty_true]
  cases r with
  | empty => simp [filterEmpty, isEmpty, Report.records, Report.children, Report.isTrue]
  | node rs cs =>
    rw [filterEmpty, filterEmptyL_eq]
    cases h : isEmpty (some lvl) (.node rs (cs.map (filterEmpty lvl))) with
    | true => simp [isEmpty, Report.records, Report.children, Report.isTrue]
    | false =>
      simp only [isEmpty, Report.records, Report.children, Bool.not_eq_false', Bool.or_eq_true, List.any_eq_true] at h
      have : isEmpty none (.node rs (cs.map (filterEmpty lvl))) = false := by
        simp only [isEmpty, Report.records, Report.children, Bool.not_eq_false', Bool.or_eq_true, List.any_eq_true]
        rcases h with ⟨x, hx, _⟩ | h
        · exact .inl ⟨x, hx, trivial⟩
        · exact .inr h
      simp [this, Report.isTrue]

section
variable [Uni]

/-- the reports of the files that could be opened, in order; corpora know the IDs of earlier ones -/
inductive Reports (depth : Nat) : List Str → List (Py Opened) → List Report → Prop
  | nil {seen} : Reports depth seen [] []
  | skip {seen fs rs} : Reports depth seen fs rs → Reports depth seen (.error .parseError :: fs) rs
  | take {seen xc fs r rs} : validateCorpus depth seen xc = .ok r →
      Reports depth (seen ++ xc.corpus.data.id.toList) fs rs → Reports depth seen (.ok xc :: fs) (r :: rs)

theorem addId_eq (seen : List Str) (x : Obj) : addId seen x = seen ++ x.data.id.toList := by
  unfold addId; cases x.data.id <;> simp

theorem runFiles_reports {lvl depth : Nat} : ∀ {fs : List (Py Opened)} {seen bs}, runFiles lvl depth fs seen = .ok bs →
    ∃ rs, Reports depth seen fs rs ∧ bs = rs.map fun r => isEmpty none (filterEmpty lvl r)
  | [], seen, bs, h => by simp only [runFiles] at h; cases h; exact ⟨[], .nil, rfl⟩
  | .error e :: fs, seen, bs, h => by
    simp only [runFiles] at h
    split at h
    · next he =>
      subst he
      obtain ⟨rs, h1, h2⟩ := runFiles_reports h
      exact ⟨rs, .skip h1, h2⟩
    · cases h
  | .ok xc :: fs, seen, bs, h => by
    simp only [runFiles, bind, Except.bind] at h
    split at h
    · cases h
    · next r hr =>
      split at h
      · cases h
      · next b hb =>
        cases h
        obtain ⟨rs, h1, h2⟩ := runFiles_reports hb
        exact ⟨r :: rs, .take hr (by rwa [addId_eq] at h1), by rw [List.map_cons, h2]⟩

theorem reports_runFiles {lvl depth : Nat} {fs : List (Py Opened)} {seen rs} (h : Reports depth seen fs rs) :
    runFiles lvl depth fs seen = .ok (rs.map fun r => isEmpty none (filterEmpty lvl r)) := by
  induction h with
  | nil => rfl
  | skip _ ih => simp only [runFiles, if_true, ih]
  | take h1 _ ih => simp only [runFiles, h1, addId_eq, bind, Except.bind, ih, List.map_cons]

/-- C52: `xigt validate` says yes or no exactly if every file is unparsable from the start or can be
checked, and says yes exactly if no report has a problem of the level or above, anywhere. -/
theorem C52_run (lvl depth : Nat) (files : List (Py Opened)) (b : Bool) :
    run lvl depth files = .ok b ↔ ∃ rs, Reports depth [] files rs ∧ (b = true ↔ ∀ r ∈ rs, ¬ Problem lvl r) := by
  constructor
  · intro h
    simp only [run, bind, Except.bind] at h
    split at h
    · cases h
    · next bs hb =>
      cases h
      obtain ⟨rs, h1, h2⟩ := runFiles_reports hb
      refine ⟨rs, h1, ?_⟩
      simp only [h2, List.all_eq_true, List.mem_map, id, forall_exists_index, and_imp, forall_apply_eq_imp_iff₂, C52_filter]
  · rintro ⟨rs, h1, h2⟩
    simp only [run, bind, Except.bind, reports_runFiles h1]
    congr 1
    rw [Bool.eq_iff_iff, h2]
    simp only [List.all_eq_true, List.mem_map, id, forall_exists_index, and_imp, forall_apply_eq_imp_iff₂, C52_filter]

/-! ### C54: conditions -/

theorem cond_ok {lvl r a} (h : cond lvl r = .ok a) : ∃ o, r = .ok o ∧ ∀ x, x ∈ a ↔ ∃ m, o = some m ∧ x = ⟨lvl, m⟩ := by
  simp only [cond, bind, Except.bind] at h
  split at h
  · cases h
  · next o =>
    refine ⟨o, rfl, ?_⟩
    cases o with
    | none => cases h; simp
    | some m =>
      simp only at h
      split at h
      · cases h
      · cases h; simp

theorem conds_mem {rs} : ∀ {l : List (Py (List Rec))}, conds l = .ok rs → ∀ x, x ∈ rs ↔ ∃ r ∈ l, ∃ a, r = .ok a ∧ x ∈ a
  | [], h => by simp only [conds] at h; cases h; simp
  | r :: l, h => by
    simp only [conds, bind, Except.bind] at h
    split at h
    · cases h
    · next a =>
      split at h
      · cases h
      · next b hb =>
        cases h
        intro x
        simp [conds_mem hb x]

theorem conds_all {rs} : ∀ {l : List (Py (List Rec))}, conds l = .ok rs → ∀ r ∈ l, ∃ a, r = .ok a
  | [], h => by simp
  | r :: l, h => by
    simp only [conds, bind, Except.bind] at h
    split at h
    · cases h
    · next a =>
      split at h
      · cases h
      · next b hb =>
        intro r hr
        rcases List.mem_cons.1 hr with rfl | hr
        · exact ⟨a, rfl⟩
        · exact conds_all hb r hr

theorem hasId_iff {x : Obj} {m} : hasId x = some m ↔ m = .noId ∧ Missing x.data.id := by
  unfold hasId Missing
  rcases h : x.data.id with _ | _ | ⟨c, cs⟩ <;> simp [truthy, eq_comm]

theorem hasType_iff {x : Obj} {m} : hasType x = some m ↔ m = .noType ∧ Missing x.data.type := by
  unfold hasType Missing
  rcases h : x.data.type with _ | _ | ⟨c, cs⟩ <;> simp [truthy, eq_comm]

theorem idIsUnique_iff {seen} {x : Obj} {m} : idIsUnique seen x = some m ↔
    m = .notUnique ∧ ∃ s, x.data.id = some s ∧ s ≠ [] ∧ s ∈ seen := by
  unfold idIsUnique
  cases h : x.data.id with
  | none => simp
  | some s => by_cases hs : s ≠ [] ∧ s ∈ seen <;> simp [hs, eq_comm]

/-- IDs of the first objects -/
def idsBefore (xs : List Obj) (k : Nat) : List Str := (xs.take k).filterMap (·.data.id)

theorem mem_idsBefore {xs : List Obj} {k s} : s ∈ idsBefore xs k ↔ ∃ k' y, k' < k ∧ xs[k']? = some y ∧ y.data.id = some s := by
  simp only [idsBefore, List.mem_filterMap]
  constructor
  · rintro ⟨y, hm, hy⟩
    obtain ⟨k', h⟩ := List.mem_iff_getElem?.1 hm
    rw [List.getElem?_take] at h
    split at h
    · next hk => exact ⟨k', y, hk, h, hy⟩
    · cases h
  · rintro ⟨k', y, hk, h, hy⟩
    refine ⟨y, List.mem_iff_getElem?.2 ⟨k', ?_⟩, hy⟩
    rw [List.getElem?_take, if_pos hk]; exact h

theorem unique_before {xs : List Obj} {k x m} : idIsUnique (idsBefore xs k) x = some m ↔ m = .notUnique ∧ Repeated xs k x := by
  rw [idIsUnique_iff]
  simp only [mem_idsBefore, Repeated]

theorem idsBefore_cons (x : Obj) (xs : List Obj) (k : Nat) : idsBefore (x :: xs) (k + 1) = x.data.id.toList ++ idsBefore xs k := by
  unfold idsBefore
  rw [List.take_succ_cons, List.filterMap_cons]
  cases x.data.id <;> rfl

/-! ### C54: loops -/

theorem validateItems_get {depth : Nat} {igt tier : Obj} : ∀ {xs : List Obj} {seen l}, validateItems depth igt tier xs seen = .ok l →
    l.length = xs.length ∧ ∀ k x, xs[k]? = some x → ∃ rs us, l[k]? = some (.node (rs ++ us) []) ∧
      validateItem depth igt tier x = .ok rs ∧ cond ERROR (.ok (idIsUnique (seen ++ idsBefore xs k) x)) = .ok us
  | [], seen, l, h => by simp only [validateItems] at h; cases h; simp
  | x :: xs, seen, l, h => by
    simp only [validateItems, bind, Except.bind] at h
    split at h
    · cases h
    · next rs hrs =>
      split at h
      · cases h
      · next us hus =>
        split at h
        · cases h
        · next l' hl =>
          cases h
          obtain ⟨h1, h2⟩ := validateItems_get hl
          refine ⟨by simp [h1], ?_⟩
          intro k y hk
          cases k with
          | zero =>
            simp only [List.getElem?_cons_zero, Option.some.injEq] at hk
            subst hk
            exact ⟨rs, us, rfl, hrs, by simpa [idsBefore] using hus⟩
          | succ k =>
            obtain ⟨a, b, h3, h4, h5⟩ := h2 k y hk
            exact ⟨a, b, h3, h4, by rwa [addId_eq, List.append_assoc, ← idsBefore_cons] at h5⟩

theorem igtItems_get : ∀ {xs : List Obj} {rs : List Report} {seen p}, rs.length = xs.length → igtItems (xs.zip rs) seen = .ok p →
    p.1.length = xs.length ∧ p.2 = seen ++ xs.filterMap (·.data.id) ∧ ∀ k x r, xs[k]? = some x → rs[k]? = some r → ∃ us,
      p.1[k]? = some (extend us r) ∧ cond ERROR (.ok (idIsUnique (seen ++ idsBefore xs k) x)) = .ok us
  | [], [], seen, p, hl, h => by simp only [List.zip_nil_left, igtItems] at h; cases h; simp
  | [], _ :: _, _, _, hl, _ => by cases hl
  | _ :: _, [], _, _, hl, _ => by cases hl
  | x :: xs, r :: rs, seen, p, hl, h => by
    simp only [List.zip_cons_cons, igtItems, bind, Except.bind] at h
    split at h
    · cases h
    · next us hus =>
      split at h
      · cases h
      · next q hq =>
        cases h
        obtain ⟨h1, h2, h3⟩ := igtItems_get (by simpa using hl) hq
        refine ⟨by simp [h1], ?_, ?_⟩
        · rw [h2, addId_eq, List.filterMap_cons]
          cases x.data.id <;> simp
        · intro k y s hk hs
          cases k with
          | zero =>
            simp only [List.getElem?_cons_zero, Option.some.injEq] at hk hs
            subst hk hs
            exact ⟨us, rfl, by simpa [idsBefore] using hus⟩
          | succ k =>
            obtain ⟨a, h4, h5⟩ := h3 k y s hk hs
            exact ⟨a, h4, by rwa [addId_eq, List.append_assoc, ← idsBefore_cons] at h5⟩

/-- the items of the first tiers -/
def itemsBefore (ts : List Obj) (j : Nat) : List Str := ((ts.take j).flatMap (·.kids)).filterMap (·.data.id)

theorem mem_itemsBefore {ts : List Obj} {j s} : s ∈ itemsBefore ts j ↔
    ∃ j' t y, j' < j ∧ ts[j']? = some t ∧ y ∈ t.kids ∧ y.data.id = some s := by
  simp only [itemsBefore, List.mem_filterMap, List.mem_flatMap]
  constructor
  · rintro ⟨y, ⟨t, ht, hy⟩, hs⟩
    obtain ⟨j', hj⟩ := List.mem_iff_getElem?.1 ht
    rw [List.getElem?_take] at hj
    split at hj
    · next h => exact ⟨j', t, y, h, hj, hy, hs⟩
    · cases hj
  · rintro ⟨j', t, y, hj, ht, hy, hs⟩
    refine ⟨y, ⟨t, List.mem_iff_getElem?.2 ⟨j', ?_⟩, hy⟩, hs⟩
    rw [List.getElem?_take, if_pos hj]; exact ht

theorem validateTier_node {depth : Nat} {igt tier : Obj} {r} (h : validateTier depth igt tier = .ok r) : ∃ rs cs, r = .node rs cs ∧
    conds ([cond WARNING (.ok (hasId tier)), cond WARNING (.ok (hasType tier)),
      cond ERROR (.ok (itemRefattrs tier))] ++ refAttrs.map fun ra => cond ERROR (.ok (refIdInIgt igt tier ra))) = .ok rs ∧
    validateItems depth igt tier tier.kids [] = .ok cs := by
  simp only [validateTier, bind, Except.bind] at h
  split at h
  · cases h
  · next rs hrs =>
    split at h
    · cases h
    · next cs hcs => cases h; exact ⟨rs, cs, rfl, hrs, hcs⟩

theorem validateTiers_get {depth : Nat} {igt : Obj} : ∀ {ts : List Obj} {tseen iseen l}, validateTiers depth igt ts tseen iseen = .ok l →
    l.length = ts.length ∧ ∀ j t, ts[j]? = some t → ∃ r us p, validateTier depth igt t = .ok r ∧
      cond ERROR (.ok (idIsUnique (tseen ++ idsBefore ts j) t)) = .ok us ∧
      igtItems (t.kids.zip r.children) (iseen ++ itemsBefore ts j) = .ok p ∧
      l[j]? = some (.node (r.records ++ us) p.1)
  | [], _, _, l, h => by simp only [validateTiers] at h; cases h; simp
  | t :: ts, tseen, iseen, l, h => by
    simp only [validateTiers, bind, Except.bind] at h
    split at h
    · cases h
    · next r hr =>
      split at h
      · cases h
      · next us hus =>
        split at h
        · cases h
        · next p hp =>
          split at h
          · cases h
          · next l' hl =>
            cases h
            obtain ⟨h1, h2⟩ := validateTiers_get hl
            refine ⟨by simp [h1], ?_⟩
            intro j y hj
            cases j with
            | zero =>
              simp only [List.getElem?_cons_zero, Option.some.injEq] at hj
              subst hj
              exact ⟨r, us, p, hr, by simpa [idsBefore] using hus, by simpa [itemsBefore] using hp, rfl⟩
            | succ j =>
              obtain ⟨a, b, c, h3, h4, h5, h6⟩ := h2 j y hj
              refine ⟨a, b, c, h3, by rwa [addId_eq, List.append_assoc, ← idsBefore_cons] at h4, ?_, h6⟩
              have hlen : r.children.length = t.kids.length := by
                obtain ⟨_, cs, rfl, _, hcs⟩ := validateTier_node hr
                exact (validateItems_get hcs).1
              rw [(igtItems_get hlen hp).2.1, List.append_assoc] at h5
              simpa [itemsBefore] using h5

theorem validateIgts_get {depth : Nat} : ∀ {xs : List (Py Obj)} {seen l}, validateIgts depth xs seen = .ok l →
    ∃ igts : List Obj, xs = igts.map .ok ∧ l.length = igts.length ∧ ∀ i g, igts[i]? = some g → ∃ r us,
      validateIgt depth g = .ok r ∧ cond ERROR (.ok (idIsUnique (seen ++ idsBefore igts i) g)) = .ok us ∧
      l[i]? = some (extend us r)
  | [], _, l, h => by simp only [validateIgts] at h; cases h; exact ⟨[], rfl, rfl, by simp⟩
  | .error e :: xs, _, l, h => by simp only [validateIgts, bind, Except.bind] at h; cases h
  | .ok x :: xs, seen, l, h => by
    simp only [validateIgts, bind, Except.bind] at h
    split at h
    · cases h
    · next r hr =>
      split at h
      · cases h
      · next us hus =>
        split at h
        · cases h
        · next l' hl =>
          cases h
          obtain ⟨igts, h0, h1, h2⟩ := validateIgts_get hl
          refine ⟨x :: igts, by rw [h0]; rfl, by simp [h1], ?_⟩
          intro i g hi
          cases i with
          | zero =>
            simp only [List.getElem?_cons_zero, Option.some.injEq] at hi
            subst hi
            exact ⟨r, us, hr, by simpa [idsBefore] using hus, rfl⟩
          | succ i =>
            obtain ⟨a, b, h3, h4, h5⟩ := h2 i g hi
            exact ⟨a, b, h3, by rwa [addId_eq, List.append_assoc, ← idsBefore_cons] at h4, h5⟩

/-! ### C54: references -/

theorem idAccepted_of {i : Str} (h : IdOK i) : idAccepted i = true := by
  obtain ⟨c, cs, rfl, hc, _⟩ := h
  exact (idAccepted_iff _).2 ⟨c, cs, rfl, hc⟩

theorem find_beq (xs : List Obj) (s : Str) : xs.find? (fun x => decide (x.data.id = some s)) =
    xs.find? (fun x => x.data.id == some s) := by
  congr 1; funext x; rw [Bool.eq_iff_iff]; simp

theorem find_none {xs : List Obj} {s : Str} : xs.find? (fun x => x.data.id == some s) = none ↔ ∀ u ∈ xs, u.data.id ≠ some s := by
  simp

theorem contGet_plain {xs : List Obj} {s : Str} (h : (∀ u ∈ xs, u.data.id ≠ some s) → ∀ n, pyInt s ≠ .ok n) :
    contGet xs s = xs.find? (fun x => x.data.id == some s) := by
  unfold contGet
  rw [find_beq]
  cases hf : xs.find? (fun x => x.data.id == some s) with
  | some u => rfl
  | none =>
    have := h (find_none.1 hf)
    cases hp : pyInt s with
    | ok n => exact absurd hp (this n)
    | error e => rfl

theorem refIdInIgt_iff {g t : Obj} (hg : PlainRefs g) (ht : t ∈ g.kids) {ra} (hra : ra ∈ refAttrs) {m} :
    refIdInIgt g t ra = some m ↔ m = .tierRef ra ∧ ∃ s, Dict.get? t.data.attrs ra = some s ∧ s ≠ [] ∧
      ∀ u ∈ g.kids, u.data.id ≠ some s := by
  unfold refIdInIgt
  cases h : Dict.get? t.data.attrs ra with
  | none => simp
  | some s =>
    have hc := contGet_plain (hg t ht ra hra s h).1
    simp only [hc, Option.isNone_iff_eq_none, find_none, Option.some.injEq, exists_eq_left']
    by_cases hs : s ≠ [] ∧ ∀ u ∈ g.kids, u.data.id ≠ some s
    · rw [if_pos hs]
      constructor
      · intro h; cases h; exact ⟨rfl, hs⟩
      · rintro ⟨rfl, _⟩; rfl
    · rw [if_neg hs]
      constructor
      · intro h; cases h
      · rintro ⟨rfl, h⟩; exact absurd h hs

theorem has_ne_none {d : Dict Str Str} {k} : Dict.has d k = true ↔ Dict.get? d k ≠ none := by
  simp [Dict.has, Option.isSome_iff_ne_none]

theorem mem_refAttrs {ra : Str} : ra ∈ refAttrs ↔ ra ∈ [ALIGNMENT, CONTENT, SEGMENTATION] := by
  simp only [refAttrs, List.mem_cons, List.not_mem_nil, or_false]
  constructor <;> (rintro (h | h | h) <;> simp [h])

theorem sublist_ext {α : Type} {l l' m : List α} (hm : m.Nodup) (h : l.Sublist m) (h' : l'.Sublist m)
    (he : ∀ a, a ∈ l ↔ a ∈ l') : l = l' := by
  induction m generalizing l l' with
  | nil => rw [List.eq_nil_of_sublist_nil h, List.eq_nil_of_sublist_nil h']
  | cons a m ih =>
    rw [List.nodup_cons] at hm
    rcases List.sublist_cons_iff.1 h with h | ⟨r, rfl, h⟩ <;> rcases List.sublist_cons_iff.1 h' with h' | ⟨r', rfl, h'⟩
    · exact ih hm.2 h h' he
    · exact absurd (h.mem ((he a).2 (by simp))) hm.1
    · exact absurd (h'.mem ((he a).1 (by simp))) hm.1
    · next hr hr' =>
      rw [ih hm.2 hr hr']
      intro b
      have := he b
      simp only [List.mem_cons] at this
      constructor
      · intro hb
        rcases this.1 (.inr hb) with rfl | h2
        · exact absurd (hr.mem hb) hm.1
        · exact h2
      · intro hb
        rcases this.2 (.inr hb) with rfl | h2
        · exact absurd (hr'.mem hb) hm.1
        · exact h2

theorem itemRefattrs_iff {t : Obj} {m} : itemRefattrs t = some m ↔ ∃ l, m = .refattrs l ∧ l ≠ [] ∧
    List.Sublist l [ALIGNMENT, CONTENT, SEGMENTATION] ∧
    ∀ ra, ra ∈ l ↔ ra ∈ refAttrs ∧ Dict.get? t.data.attrs ra = none ∧ ∃ x ∈ t.kids, Dict.get? x.data.attrs ra ≠ none := by
  have key : ∀ ra, ra ∈ [ALIGNMENT, CONTENT, SEGMENTATION].filter (fun ra =>
      t.kids.any (fun i => Dict.has i.data.attrs ra) && !Dict.has t.data.attrs ra) ↔
      ra ∈ refAttrs ∧ Dict.get? t.data.attrs ra = none ∧ ∃ x ∈ t.kids, Dict.get? x.data.attrs ra ≠ none := by
    intro ra
    rw [List.mem_filter, mem_refAttrs, Bool.and_eq_true, Bool.not_eq_true', List.any_eq_true]
    have : Dict.has t.data.attrs ra = false ↔ Dict.get? t.data.attrs ra = none := by
      rw [← Bool.not_eq_true, has_ne_none]; simp
    rw [this]
    simp only [has_ne_none]
    constructor
    · rintro ⟨a, b, c⟩; exact ⟨a, c, b⟩
    · rintro ⟨a, b, c⟩; exact ⟨a, c, b⟩
  unfold itemRefattrs
  simp only
  constructor
  · intro h
    split at h
    · next hne => cases h; exact ⟨_, rfl, hne, List.filter_sublist, key⟩
    · cases h
  · rintro ⟨l, rfl, hne, hs, hl⟩
    have : l = [ALIGNMENT, CONTENT, SEGMENTATION].filter (fun ra =>
        t.kids.any (fun i => Dict.has i.data.attrs ra) && !Dict.has t.data.attrs ra) :=
      sublist_ext (by decide) hs List.filter_sublist fun a => (hl a).trans (key a).symm
    rw [← this, if_pos hne]

theorem referredTier_iff {g t : Obj} (hg : PlainRefs g) (ht : t ∈ g.kids) {ra} (hra : ra ∈ refAttrs) {u} :
    referredTier g t ra = some u ↔ ∃ s, Dict.get? t.data.attrs ra = some s ∧ s ≠ [] ∧
      g.kids.find? (fun u => u.data.id == some s) = some u := by
  unfold referredTier
  cases h : Dict.get? t.data.attrs ra with
  | none => simp
  | some s =>
    have hp := hg t ht ra hra s h
    simp only [contGet_plain hp.1, Option.some.injEq, exists_eq_left']
    by_cases hs : s = []
    · simp [hs]
    · rw [if_neg hs]
      cases hf : g.kids.find? (fun u => u.data.id == some s) with
      | none => simp
      | some v =>
        have hk : v.kids ≠ [] := hp.2 v (List.mem_of_find?_eq_some hf) (by simpa using List.find?_some hf)
        simp [hk, hs]

theorem itemRef_iff {g t x : Obj} {ra e u} : itemRef g t x ra = some (e, u) ↔
    Dict.get? x.data.attrs ra = some e ∧ e ≠ [] ∧ referredTier g t ra = some u := by
  unfold itemRef
  cases h : Dict.get? x.data.attrs ra <;> cases h' : referredTier g t ra
  · simp
  · simp
  · simp
  · next a b =>
    by_cases ha : a = []
    · subst ha
      simp
      intro h1 h2; exact fun _ => absurd h1 h2
    · simp only [if_neg ha, Option.some.injEq, Prod.mk.injEq]
      constructor
      · rintro ⟨rfl, rfl⟩; exact ⟨rfl, ha, rfl⟩
      · rintro ⟨rfl, _, rfl⟩; exact ⟨rfl, rfl⟩

theorem missing_eq (u : Obj) {e : Str} {is} (h : IdSplit e is) : (ids e).filter (fun i => (contGet u.kids i).isNone) =
    is.filter fun y => u.kids.all fun z => z.data.id != some y := by
  have hi : ids e = is := (C13_ids_all_strings e is).2 h
  rw [hi]
  apply List.filter_congr
  intro y hy
  rw [← hi] at hy
  rw [contGet_id (idAccepted_of (C13_ids_occur e y hy).1), find_beq, Bool.eq_iff_iff, Option.isNone_iff_eq_none, find_none]
  simp

theorem idsInTier_iff {g t x : Obj} (hg : PlainRefs g) (ht : t ∈ g.kids) {ra} (hra : ra ∈ refAttrs) {m} :
    idsInTier g t x ra = some m ↔ ∃ s e u is l, m = .idsMissing ra s l ∧ Dict.get? t.data.attrs ra = some s ∧ s ≠ [] ∧
      g.kids.find? (fun u => u.data.id == some s) = some u ∧ Dict.get? x.data.attrs ra = some e ∧ IdSplit e is ∧
      l = is.filter (fun y => u.kids.all fun z => z.data.id != some y) ∧ l ≠ [] := by
  have hid : ∀ {s u}, g.kids.find? (fun u => u.data.id == some s) = some u → strId u.data.id = s := by
    intro s u h
    have : u.data.id = some s := by simpa using List.find?_some h
    rw [this]; rfl
  unfold idsInTier
  constructor
  · intro h
    split at h
    · cases h
    · next e u hr =>
      obtain ⟨h1, h2, h3⟩ := itemRef_iff.1 hr
      obtain ⟨s, h4, h5, h6⟩ := (referredTier_iff hg ht hra).1 h3
      have hsp := (C13_ids_all_strings e (ids e)).1 rfl
      simp only [missing_eq u hsp, hid h6] at h
      split at h
      · next hne => cases h; exact ⟨s, e, u, _, _, rfl, h4, h5, h6, h1, hsp, rfl, hne⟩
      · cases h
  · rintro ⟨s, e, u, is, l, rfl, h4, h5, h6, h1, hsp, rfl, hne⟩
    have he : e ≠ [] := by
      rintro rfl
      have h0 : is = [] := by
        rw [← (C13_ids_all_strings [] is).2 hsp]
        exact (C13_ids_all_strings [] []).2 .nil
      subst h0
      exact hne rfl
    have hr := itemRef_iff.2 ⟨h1, he, (referredTier_iff hg ht hra).2 ⟨s, h4, h5, h6⟩⟩
    rw [hr]
    simp only [missing_eq u hsp, hid h6]
    rw [if_pos hne]

/-! ### C54 -/

theorem reported_nil {rs cs x} : Reported (.node rs cs) [] x ↔ x ∈ rs := by
  simp [Reported, Report.sub, Report.records]

theorem reported_cons {rs cs i p x} : Reported (.node rs cs) (i :: p) x ↔ ∃ c, cs[i]? = some c ∧ Reported c p x := by
  simp only [Reported, Report.sub, Report.children]
  cases cs[i]? <;> simp

theorem validateItem_mem {depth : Nat} {g t x : Obj} (hg : PlainRefs g) (ht : t ∈ g.kids) {rs}
    (h : validateItem depth g t x = .ok rs) {lvl m} : (⟨lvl, m⟩ : Rec) ∈ rs ↔
    (lvl = WARNING ∧ m = .noId ∧ Missing x.data.id) ∨ (lvl = ERROR ∧ ∃ ra ∈ refAttrs, idsInTier g t x ra = some m) ∨
    lvl = WARNING ∧ ∃ ra ∈ refAttrs, spansInItem depth g t x ra = .ok (some m) ∨ spansOverlap depth g t x ra = .ok (some m) := by
  have hall := conds_all h
  rw [conds_mem h]
  constructor
  · rintro ⟨r, hr, a, ha, hx⟩
    rcases List.mem_cons.1 hr with rfl | hr
    · obtain ⟨o, ho, hb⟩ := cond_ok ha
      cases ho
      obtain ⟨m', h1, h2⟩ := (hb _).1 hx
      cases h2
      exact .inl ⟨rfl, hasId_iff.1 h1⟩
    · obtain ⟨ra, hra, hr⟩ := List.mem_flatMap.1 hr
      simp only [List.mem_cons, List.not_mem_nil, or_false] at hr
      rcases hr with rfl | rfl | rfl
      · obtain ⟨o, ho, hb⟩ := cond_ok ha
        cases ho
        obtain ⟨m', h1, h2⟩ := (hb _).1 hx
        cases h2
        exact .inr (.inl ⟨rfl, ra, hra, h1⟩)
      · obtain ⟨o, ho, hb⟩ := cond_ok ha
        obtain ⟨m', rfl, h2⟩ := (hb _).1 hx
        cases h2
        exact .inr (.inr ⟨rfl, ra, hra, .inl ho⟩)
      · obtain ⟨o, ho, hb⟩ := cond_ok ha
        obtain ⟨m', rfl, h2⟩ := (hb _).1 hx
        cases h2
        exact .inr (.inr ⟨rfl, ra, hra, .inr ho⟩)
  · rintro (⟨rfl, h1⟩ | ⟨rfl, ra, hra, h1⟩ | ⟨rfl, ra, hra, h1⟩)
    · obtain ⟨a, ha⟩ := hall _ (List.mem_cons_self ..)
      obtain ⟨o, ho, hb⟩ := cond_ok ha
      cases ho
      exact ⟨_, List.mem_cons_self .., a, ha, (hb _).2 ⟨m, hasId_iff.2 h1, rfl⟩⟩
    · have hmem : cond ERROR (.ok (idsInTier g t x ra)) ∈ cond WARNING (.ok (hasId x)) :: refAttrs.flatMap fun ra =>
          [cond ERROR (.ok (idsInTier g t x ra)), cond WARNING (spansInItem depth g t x ra),
           cond WARNING (spansOverlap depth g t x ra)] :=
        List.mem_cons_of_mem _ (List.mem_flatMap.2 ⟨ra, hra, List.mem_cons_self ..⟩)
      obtain ⟨a, ha⟩ := hall _ hmem
      obtain ⟨o, ho, hb⟩ := cond_ok ha
      cases ho
      exact ⟨_, hmem, a, ha, (hb _).2 ⟨m, h1, rfl⟩⟩
    · rcases h1 with h1 | h1
      · have hmem : cond WARNING (spansInItem depth g t x ra) ∈ cond WARNING (.ok (hasId x)) :: refAttrs.flatMap fun ra =>
            [cond ERROR (.ok (idsInTier g t x ra)), cond WARNING (spansInItem depth g t x ra),
             cond WARNING (spansOverlap depth g t x ra)] :=
          List.mem_cons_of_mem _ (List.mem_flatMap.2 ⟨ra, hra, by simp⟩)
        obtain ⟨a, ha⟩ := hall _ hmem
        obtain ⟨o, ho, hb⟩ := cond_ok ha
        rw [h1] at ho
        cases ho
        exact ⟨_, hmem, a, ha, (hb _).2 ⟨m, rfl, rfl⟩⟩
      · have hmem : cond WARNING (spansOverlap depth g t x ra) ∈ cond WARNING (.ok (hasId x)) :: refAttrs.flatMap fun ra =>
            [cond ERROR (.ok (idsInTier g t x ra)), cond WARNING (spansInItem depth g t x ra),
             cond WARNING (spansOverlap depth g t x ra)] :=
          List.mem_cons_of_mem _ (List.mem_flatMap.2 ⟨ra, hra, by simp⟩)
        obtain ⟨a, ha⟩ := hall _ hmem
        obtain ⟨o, ho, hb⟩ := cond_ok ha
        rw [h1] at ho
        cases ho
        exact ⟨_, hmem, a, ha, (hb _).2 ⟨m, rfl, rfl⟩⟩

theorem mem_cond {lvl o a} (h : cond lvl (.ok o) = .ok a) {lvl' m} : (⟨lvl', m⟩ : Rec) ∈ a ↔ lvl' = lvl ∧ o = some m := by
  obtain ⟨o', ho, hb⟩ := cond_ok h
  cases ho
  rw [hb]
  constructor
  · rintro ⟨m', h1, h2⟩; cases h2; exact ⟨rfl, h1⟩
  · rintro ⟨rfl, h1⟩; exact ⟨m, h1, rfl⟩

/-- the records of a tier itself -/
theorem tierRecords_mem {g t : Obj} (hg : PlainRefs g) (ht : t ∈ g.kids) {rs}
    (h : conds ([cond WARNING (.ok (hasId t)), cond WARNING (.ok (hasType t)),
      cond ERROR (.ok (itemRefattrs t))] ++ refAttrs.map fun ra => cond ERROR (.ok (refIdInIgt g t ra))) = .ok rs) {lvl m} :
    (⟨lvl, m⟩ : Rec) ∈ rs ↔ (lvl = WARNING ∧ hasId t = some m) ∨ (lvl = WARNING ∧ hasType t = some m) ∨
      (lvl = ERROR ∧ itemRefattrs t = some m) ∨ lvl = ERROR ∧ ∃ ra ∈ refAttrs, refIdInIgt g t ra = some m := by
  have hall := conds_all h
  rw [conds_mem h]
  simp only [List.cons_append, List.nil_append, List.mem_cons, List.mem_map]
  simp only [List.cons_append, List.nil_append, List.mem_cons, List.mem_map] at hall
  constructor
  · rintro ⟨r, hr, a, ha, hx⟩
    rcases hr with rfl | rfl | rfl | ⟨ra, hra, rfl⟩
    · exact .inl ((mem_cond ha).1 hx)
    · exact .inr (.inl ((mem_cond ha).1 hx))
    · exact .inr (.inr (.inl ((mem_cond ha).1 hx)))
    · have := (mem_cond ha).1 hx
      exact .inr (.inr (.inr ⟨this.1, ra, hra, this.2⟩))
  · rintro (h1 | h1 | h1 | ⟨h1, ra, hra, h2⟩)
    · obtain ⟨a, ha⟩ := hall _ (.inl rfl)
      exact ⟨_, .inl rfl, a, ha, (mem_cond ha).2 h1⟩
    · obtain ⟨a, ha⟩ := hall _ (.inr (.inl rfl))
      exact ⟨_, .inr (.inl rfl), a, ha, (mem_cond ha).2 h1⟩
    · obtain ⟨a, ha⟩ := hall _ (.inr (.inr (.inl rfl)))
      exact ⟨_, .inr (.inr (.inl rfl)), a, ha, (mem_cond ha).2 h1⟩
    · obtain ⟨a, ha⟩ := hall _ (.inr (.inr (.inr ⟨ra, hra, rfl⟩)))
      exact ⟨_, .inr (.inr (.inr ⟨ra, hra, rfl⟩)), a, ha, (mem_cond ha).2 ⟨h1, h2⟩⟩

/-- a message about the spans of an item -/
def SpanFinding (depth : Nat) (igts : List Obj) (p : List Nat) (lvl : Nat) (m : Msg) : Prop :=
  ∃ i g j t k x ra, p = [i, j, k] ∧ lvl = WARNING ∧ igts[i]? = some g ∧ g.kids[j]? = some t ∧ t.kids[k]? = some x ∧ ra ∈ refAttrs ∧
    (spansInItem depth g t x ra = .ok (some m) ∨ spansOverlap depth g t x ra = .ok (some m))

theorem reported_iff (depth : Nat) (seen : List Str) (xc : Opened) (r : Report) (h : validateCorpus depth seen xc = .ok r) :
    ∃ igts : List Obj, xc.igts = igts.map .ok ∧ ((∀ g ∈ igts, PlainRefs g) → ∀ p lvl m,
      (Reported r p ⟨lvl, m⟩ ↔ Finding seen xc.corpus igts p lvl m ∨ SpanFinding depth igts p lvl m)) := by
  simp only [validateCorpus, bind, Except.bind] at h
  split at h
  · cases h
  · next rs hrs =>
    split at h
    · cases h
    · next cs hcs =>
      cases h
      obtain ⟨igts, h0, h1, h2⟩ := validateIgts_get hcs
      refine ⟨igts, h0, ?_⟩
      intro hp p lvl m
      rcases p with _ | ⟨i, p⟩
      · -- the corpus
        rw [reported_nil, conds_mem hrs]
        have hall := conds_all hrs
        simp only [List.mem_cons, List.not_mem_nil, or_false] at hall ⊢
        constructor
        · rintro ⟨c, rfl | rfl, a, ha, hx⟩
          · obtain ⟨rfl, hy⟩ := (mem_cond ha).1 hx
            obtain ⟨rfl, hz⟩ := hasId_iff.1 hy
            exact .inl (.corpusId hz)
          · obtain ⟨rfl, hy⟩ := (mem_cond ha).1 hx
            obtain ⟨rfl, s, e1, e2, e3⟩ := idIsUnique_iff.1 hy
            exact .inl (.corpusDup e1 e2 e3)
        · intro hf
          rcases hf with hf | ⟨i', g', j', t', k', x', ra', hp', hr'⟩
          rotate_left
          · cases hp'
          cases hf with
          | corpusId hx =>
            obtain ⟨a, ha⟩ := hall _ (.inl rfl)
            exact ⟨_, .inl rfl, a, ha, (mem_cond ha).2 ⟨rfl, hasId_iff.2 ⟨rfl, hx⟩⟩⟩
          | corpusDup e1 e2 e3 =>
            obtain ⟨a, ha⟩ := hall _ (.inr rfl)
            exact ⟨_, .inr rfl, a, ha, (mem_cond ha).2 ⟨rfl, idIsUnique_iff.2 ⟨rfl, _, e1, e2, e3⟩⟩⟩
      · rw [reported_cons]
        cases hi : igts[i]? with
        | none =>
          have : cs[i]? = none := by
            rw [List.getElem?_eq_none_iff] at hi ⊢; omega
          rw [this]
          constructor
          · rintro ⟨_, h, _⟩; cases h
          · intro hf
            rcases hf with hf | ⟨i', g', j', t', k', x', ra', hp', hl', hi', hj', hk', hr'⟩
            · cases hf <;> simp_all
            · cases hp'; simp_all
        | some g =>
          obtain ⟨ri, us, h3, h4, h5⟩ := h2 i g hi
          rw [List.nil_append] at h4
          simp only [h5, Option.some.injEq, exists_eq_left']
          have hg : PlainRefs g := hp g (List.mem_of_getElem? hi)
          simp only [validateIgt, bind, Except.bind] at h3
          split at h3
          · cases h3
          · next gs hgs =>
            split at h3
            · cases h3
            · next ts hts =>
              cases h3
              rw [extend]
              obtain ⟨h6, h7⟩ := validateTiers_get hts
              rcases p with _ | ⟨j, p⟩
              · -- an igt
                rw [reported_nil, List.mem_append, mem_cond h4, unique_before, conds_mem hgs]
                have hall := conds_all hgs
                simp only [List.mem_cons, List.not_mem_nil, or_false, exists_eq_left, forall_eq] at hall ⊢
                constructor
                · rintro (⟨a, ha, hx⟩ | ⟨rfl, rfl, hx⟩)
                  · obtain ⟨rfl, hy⟩ := (mem_cond ha).1 hx
                    obtain ⟨rfl, hz⟩ := hasId_iff.1 hy
                    exact .inl (.igtId hi hz)
                  · exact .inl (.igtDup hi hx)
                · intro hf
                  rcases hf with hf | ⟨i', g', j', t', k', x', ra', hp', hr'⟩
                  rotate_left
                  · cases hp'
                  cases hf with
                  | igtId hi' hx =>
                    rw [hi] at hi'; cases hi'
                    obtain ⟨a, ha⟩ := hall
                    exact .inl ⟨a, ha, (mem_cond ha).2 ⟨rfl, hasId_iff.2 ⟨rfl, hx⟩⟩⟩
                  | igtDup hi' hx =>
                    rw [hi] at hi'; cases hi'
                    exact .inr ⟨rfl, rfl, hx⟩
              · rw [reported_cons]
                cases hj : g.kids[j]? with
                | none =>
                  have : ts[j]? = none := by
                    rw [List.getElem?_eq_none_iff] at hj ⊢; omega
                  rw [this]
                  constructor
                  · rintro ⟨_, h, _⟩; cases h
                  · intro hf
                    rcases hf with hf | ⟨i', g', j', t', k', x', ra', hp', hl', hi', hj', hk', hr'⟩
                    · cases hf <;> simp_all
                    · cases hp'; simp_all
                | some t =>
                  obtain ⟨rt, ut, q, h8, h9, h10, h11⟩ := h7 j t hj
                  rw [List.nil_append] at h9 h10
                  simp only [h11, Option.some.injEq, exists_eq_left']
                  have ht : t ∈ g.kids := List.mem_of_getElem? hj
                  obtain ⟨rrs, its, rfl, h12, h13⟩ := validateTier_node h8
                  rw [Report.children] at h10
                  rw [Report.records]
                  obtain ⟨h14, h15⟩ := validateItems_get h13
                  obtain ⟨h16, h17, h18⟩ := igtItems_get h14 h10
                  rcases p with _ | ⟨k, p⟩
                  · -- a tier
                    rw [reported_nil, List.mem_append, mem_cond h9, unique_before, tierRecords_mem hg ht h12]
                    constructor
                    · rintro ((⟨rfl, hx⟩ | ⟨rfl, hx⟩ | ⟨rfl, hx⟩ | ⟨rfl, ra, hra, hx⟩) | ⟨rfl, rfl, hx⟩)
                      · obtain ⟨rfl, hz⟩ := hasId_iff.1 hx
                        exact .inl (.tierId hi hj hz)
                      · obtain ⟨rfl, hz⟩ := hasType_iff.1 hx
                        exact .inl (.tierType hi hj hz)
                      · obtain ⟨l, rfl, e1, e2, e3⟩ := itemRefattrs_iff.1 hx
                        exact .inl (.tierAttrs hi hj e1 e2 e3)
                      · obtain ⟨rfl, s, e1, e2, e3⟩ := (refIdInIgt_iff hg ht hra).1 hx
                        exact .inl (.tierRef hi hj hra e1 e2 e3)
                      · exact .inl (.tierDup hi hj hx)
                    · intro hf
                      rcases hf with hf | ⟨i', g', j', t', k', x', ra', hp', hr'⟩
                      rotate_left
                      · cases hp'
                      cases hf with
                      | tierId hi' hj' hx =>
                        rw [hi] at hi'; cases hi'; rw [hj] at hj'; cases hj'
                        exact .inl (.inl ⟨rfl, hasId_iff.2 ⟨rfl, hx⟩⟩)
                      | tierType hi' hj' hx =>
                        rw [hi] at hi'; cases hi'; rw [hj] at hj'; cases hj'
                        exact .inl (.inr (.inl ⟨rfl, hasType_iff.2 ⟨rfl, hx⟩⟩))
                      | tierAttrs hi' hj' e1 e2 e3 =>
                        rw [hi] at hi'; cases hi'; rw [hj] at hj'; cases hj'
                        exact .inl (.inr (.inr (.inl ⟨rfl, itemRefattrs_iff.2 ⟨_, rfl, e1, e2, e3⟩⟩)))
                      | tierRef hi' hj' hra e1 e2 e3 =>
                        rw [hi] at hi'; cases hi'; rw [hj] at hj'; cases hj'
                        exact .inl (.inr (.inr (.inr ⟨rfl, _, hra, (refIdInIgt_iff hg ht hra).2 ⟨rfl, _, e1, e2, e3⟩⟩)))
                      | tierDup hi' hj' hx =>
                        rw [hi] at hi'; cases hi'; rw [hj] at hj'; cases hj'
                        exact .inr ⟨rfl, rfl, hx⟩
                  · rw [reported_cons]
                    cases hk : t.kids[k]? with
                    | none =>
                      have : q.1[k]? = none := by
                        rw [List.getElem?_eq_none_iff] at hk ⊢; omega
                      rw [this]
                      constructor
                      · rintro ⟨_, h, _⟩; cases h
                      · intro hf
                        rcases hf with hf | ⟨i', g', j', t', k', x', ra', hp', hl', hi', hj', hk', hr'⟩
                        · cases hf <;> simp_all
                        · cases hp'; simp_all
                    | some x =>
                      obtain ⟨rx, ux, h19, h20, h21⟩ := h15 k x hk
                      rw [List.nil_append] at h21
                      obtain ⟨uy, h22, h23⟩ := h18 k x _ hk h19
                      simp only [h22, Option.some.injEq, exists_eq_left']
                      rw [extend]
                      rcases p with _ | ⟨n, p⟩
                      · -- an item
                        rw [reported_nil, List.mem_append, List.mem_append, mem_cond h21, mem_cond h23, unique_before,
                          idIsUnique_iff, validateItem_mem hg ht h20]
                        constructor
                        · rintro (((⟨rfl, rfl, hx⟩ | ⟨rfl, ra, hra, hx⟩ | ⟨rfl, ra, hra, hx⟩) | ⟨rfl, rfl, hx⟩) | ⟨rfl, rfl, s, e1, e2, e3⟩)
                          · exact .inl (.itemId hi hj hk hx)
                          · obtain ⟨s, e, u, is, l, rfl, e1, e2, e3, e4, e5, e6, e7⟩ := (idsInTier_iff hg ht hra).1 hx
                            exact .inl (.itemRef hi hj hk hra e1 e2 e3 e4 e5 e6 e7)
                          · exact .inr ⟨i, g, j, t, k, x, ra, rfl, rfl, hi, hj, hk, hra, hx⟩
                          · exact .inl (.itemDup hi hj hk hx)
                          · rcases List.mem_append.1 e3 with e3 | e3
                            · obtain ⟨j', t', y, f1, f2, f3, f4⟩ := mem_itemsBefore.1 e3
                              exact .inl (.itemDupIgt hi hj hk e1 e2 f1 f2 f3 f4)
                            · exact .inl (.itemDup hi hj hk ⟨s, e1, e2, mem_idsBefore.1 e3⟩)
                        · intro hf
                          rcases hf with hf | ⟨i', g', j', t', k', x', ra', hp', hr'⟩
                          rotate_left
                          · cases hp'
                            obtain ⟨rfl, hi', hj', hk', hra, hx⟩ := hr'
                            rw [hi] at hi'; cases hi'; rw [hj] at hj'; cases hj'; rw [hk] at hk'; cases hk'
                            exact .inl (.inl (.inr (.inr ⟨rfl, _, hra, hx⟩)))
                          cases hf with
                          | itemId hi' hj' hk' hx =>
                            rw [hi] at hi'; cases hi'; rw [hj] at hj'; cases hj'; rw [hk] at hk'; cases hk'
                            exact .inl (.inl (.inl ⟨rfl, rfl, hx⟩))
                          | itemDup hi' hj' hk' hx =>
                            rw [hi] at hi'; cases hi'; rw [hj] at hj'; cases hj'; rw [hk] at hk'; cases hk'
                            exact .inl (.inr ⟨rfl, rfl, hx⟩)
                          | itemDupIgt hi' hj' hk' e1 e2 f1 f2 f3 f4 =>
                            rw [hi] at hi'; cases hi'; rw [hj] at hj'; cases hj'; rw [hk] at hk'; cases hk'
                            exact .inr ⟨rfl, rfl, _, e1, e2, List.mem_append_left _ (mem_itemsBefore.2 ⟨_, _, _, f1, f2, f3, f4⟩)⟩
                          | itemRef hi' hj' hk' hra e1 e2 e3 e4 e5 e6 e7 =>
                            rw [hi] at hi'; cases hi'; rw [hj] at hj'; cases hj'; rw [hk] at hk'; cases hk'
                            exact .inl (.inl (.inr (.inl ⟨rfl, _, hra, (idsInTier_iff hg ht hra).2
                              ⟨_, _, _, _, _, rfl, e1, e2, e3, e4, e5, e6, e7⟩⟩)))
                      · rw [reported_cons]
                        constructor
                        · rintro ⟨_, h, _⟩; cases h
                        · rintro (hf | ⟨i', g', j', t', k', x', ra', hp', hr'⟩)
                          · cases hf
                          · cases hp'

theorem spanFinding_about {depth igts p lvl m} (h : SpanFinding depth igts p lvl m) : m.aboutSpans = true := by
  obtain ⟨i, g, j, t, k, x, ra, _, _, _, _, _, _, ho | ho⟩ := h
  · simp only [spansInItem, bind, Except.bind] at ho
    split at ho
    · cases ho
    · split at ho
      · cases ho
      · split at ho <;> cases ho
        rfl
  · simp only [spansOverlap, bind, Except.bind] at ho
    split at ho
    · cases ho
    · split at ho
      · cases ho
      · split at ho <;> cases ho
        rfl

/-- C54 (for tier references that are IDs of non-empty tiers): whenever the validator finishes, the
records in the tree of reports - missing IDs and types, repeated IDs, tier references without tier, item
reference attributes missing on the tier, and item references without item - are exactly the findings, each on the
object concerned; messages about spans are in C53 and C69. -/
theorem C54_partial (depth : Nat) (seen : List Str) (xc : Opened) (r : Report) (h : validateCorpus depth seen xc = .ok r) :
    ∃ igts : List Obj, xc.igts = igts.map .ok ∧ ((∀ g ∈ igts, PlainRefs g) → ∀ p lvl m, m.aboutSpans = false →
      (Reported r p ⟨lvl, m⟩ ↔ Finding seen xc.corpus igts p lvl m)) := by
  obtain ⟨igts, h1, h2⟩ := reported_iff depth seen xc r h
  refine ⟨igts, h1, fun hp p lvl m hm => ?_⟩
  rw [h2 hp]
  constructor
  · rintro (h | h)
    · exact h
    · rw [spanFinding_about h] at hm; cases hm
  · exact .inl

theorem sub_problem {lvl : Nat} : ∀ {p r s}, Report.sub r p = some s → Problem lvl s → Problem lvl r
  | [], r, s, h, hs => by simp only [Report.sub] at h; cases h; exact hs
  | i :: p, r, s, h, hs => by
    cases r with
    | empty => simp [Report.sub, Report.children] at h
    | node rs cs =>
      simp only [Report.sub, Report.children] at h
      split at h
      · next c hc => exact .within (List.mem_of_getElem? hc) (sub_problem h hs)
      · cases h

/-- a problem is a record somewhere -/
theorem problem_iff {lvl : Nat} {r : Report} : Problem lvl r ↔ ∃ p x, Reported r p x ∧ lvl ≤ x.level := by
  constructor
  · intro h
    induction h with
    | here hx hl => exact ⟨[], _, ⟨_, rfl, hx⟩, hl⟩
    | within hc _ ih =>
      obtain ⟨p, x, hx, hl⟩ := ih
      obtain ⟨i, hi⟩ := List.mem_iff_getElem?.1 hc
      exact ⟨i :: p, x, reported_cons.2 ⟨_, hi, hx⟩, hl⟩
  · rintro ⟨p, x, ⟨s, hs, hx⟩, hl⟩
    refine sub_problem hs ?_
    cases s with
    | empty => cases hx
    | node rs cs => exact .here hx hl

/-- C52 with C54: at level ERROR a corpus passes exactly if it has none of the findings of that level. -/
theorem C52_errors (depth : Nat) (seen : List Str) (xc : Opened) (r : Report) (h : validateCorpus depth seen xc = .ok r)
    (igts : List Obj) (hi : xc.igts = igts.map .ok) (hp : ∀ g ∈ igts, PlainRefs g) :
    isEmpty none (filterEmpty ERROR r) = true ↔ ∀ p m, ¬ Finding seen xc.corpus igts p ERROR m := by
  obtain ⟨igts', h1, h2⟩ := reported_iff depth seen xc r h
  have : igts' = igts := by
    rw [hi] at h1
    exact (List.map_inj_right (fun a b => by simp)).1 h1.symm
  subst this
  rw [C52_filter, problem_iff]
  constructor
  · intro hn p m hf
    exact hn ⟨p, ⟨ERROR, m⟩, (h2 hp p ERROR m).2 (.inl hf), Nat.le_refl _⟩
  · rintro hn ⟨p, ⟨lvl, m⟩, hr, hl⟩
    rcases (h2 hp p lvl m).1 hr with hf | ⟨_, _, _, _, _, _, _, _, rfl, _⟩
    · have : lvl = ERROR := by
        cases hf <;> first | rfl | (exfalso; revert hl; decide)
      subst this
      exact hn p m hf
    · exact absurd hl (by simp [ERROR, WARNING])

end
end Xigt.Vld
