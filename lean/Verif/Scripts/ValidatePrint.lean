import Verif.Scripts.ValidateProps
import Verif.Scripts.QueryPrintProps
/-
What /repo/xigt/scripts/xigt_validate.py prints (334-385), and C87, C88.

Printed lines are headings and messages, each with the position of the element in the corpus (`[i, j]` is the
j-th tier of the i-th igt).  Headings go to the standard output, messages to the logger, which drops those below
its level (340, 431-434; `filter_empty_reports` is called with the same level, 407-409).

Simplification: the two streams are one list of lines; messages are records, their texts are treated apart
(`Msg.template`, C88).
-/
set_option linter.unusedSectionVars false
set_option linter.unusedVariables false

namespace Xigt.Vld

/-- what is printed: headings (xigt_validate.py:337) and messages (339-340) -/
inductive Line where
  | heading (pos : List Nat)
  | message (pos : List Nat) (x : Rec)
  deriving DecidableEq

mutual
/-- xigt_validate.py:334-342 `print_report`, before the logger -/
def printReport (pos : List Nat) : Report → List Line
  | .empty => []
  | .node rs cs =>
    if isEmpty none (.node rs cs) then []
    else .heading pos :: rs.map (.message pos) ++ printReports pos 0 cs
/-- xigt_validate.py:341-342: the children -/
def printReports (pos : List Nat) (i : Nat) : List Report → List Line
  | [] => []
  | c :: cs => printReport (pos ++ [i]) c ++ printReports pos (i + 1) cs
end

/-- the logger passes messages of its level and above -/
def passes (lvl : Nat) : Line → Bool
  | .heading _ => true
  | .message _ x => decide (lvl ≤ x.level)

/-- xigt_validate.py:406-414: what is seen of the report of a file -/
def printed (lvl : Nat) (r : Report) : List Line :=
  if isEmpty none (filterEmpty lvl r) then [] else (printReport [] (filterEmpty lvl r)).filter (passes lvl)

/-- xigt_validate.py:14 -/
def datalevels : List Str := [lit! "corpus", lit! "igt", lit! "tier", lit! "item"]

/-- xigt_validate.py:349: the sequences for the terminal -/
def RESET_SEQ : Str := lit! "\x1b[0m"
/-- xigt_validate.py:351 -/
def BOLD_SEQ : Str := lit! "\x1b[1m"
/-- xigt_validate.py:350 -/
def COLOR_SEQ (d : Char) : Str := lit! "\x1b[3" ++ [d, 'm']

/-- xigt_validate.py:361-373 `format_heading`, for an element at some depth with an index and possibly an ID -/
def headingText (color : Bool) (depth index : Nat) (id : Option Str) : Py Str :=
  match datalevels[depth]? with
  | none => .error .indexError
  | some l => .ok ((if color then BOLD_SEQ else []) ++ List.replicate depth ' ' ++ l ++ ' ' :: natStr index ++ ' ' ::
      (if truthy id then lit! "(id: \"" ++ id.getD [] ++ lit! "\")" else []) ++ (if color then RESET_SEQ else []))

/-- xigt_validate.py:353-358, the levels of records only -/
def colorOf (level : Nat) : Py Str :=
  if level = INFO then .ok (COLOR_SEQ '7') else if level = WARNING then .ok (COLOR_SEQ '3')
  else if level = ERROR then .ok (COLOR_SEQ '1') else .error .keyError

/-- xigt_validate.py:375-385 `format_message` -/
def messageText (color : Bool) (depth level : Nat) (msg : Str) : Py Str := do
  let c ← colorOf level
  .ok ((if color then c else []) ++ List.replicate depth ' ' ++ lit! " * " ++ msg ++ (if color then RESET_SEQ else []))

/-! ### C87 -/

mutual
/-- the positions of the elements, in the order of the document -/
def Report.positions : Report → List (List Nat)
  | .empty => [[]]
  | .node _ cs => [] :: Report.positionsL 0 cs
/-- those of the children -/
def Report.positionsL (i : Nat) : List Report → List (List Nat)
  | [] => []
  | c :: cs => c.positions.map (i :: ·) ++ Report.positionsL (i + 1) cs
end

/-- the lines for an element: none if there is no problem of the level with it or within it, otherwise a heading and the
messages of the level or above -/
def Block (lvl : Nat) (r : Report) (p : List Nat) (ls : List Line) : Prop :=
  ∃ s, r.sub p = some s ∧ ((¬ Problem lvl s ∧ ls = []) ∨
    (Problem lvl s ∧ ls = .heading p :: (s.records.filter fun x => decide (lvl ≤ x.level)).map (.message p)))

/-- lines moved below a position -/
def Line.below (q : List Nat) : Line → Line
  | .heading p => .heading (q ++ p)
  | .message p x => .message (q ++ p) x

mutual
theorem printReport_below (q pos : List Nat) : ∀ r, printReport (q ++ pos) r = (printReport pos r).map (Line.below q)
  | .empty => by simp [printReport]
  | .node rs cs => by
    rw [printReport, printReport]
    split
    · rfl
    · rw [List.map_append, List.map_cons, ← printReports_below q pos cs 0]
      simp [Line.below, Function.comp_def]
theorem printReports_below (q pos : List Nat) : ∀ (cs : List Report) (i : Nat),
    printReports (q ++ pos) i cs = (printReports pos i cs).map (Line.below q)
  | [], i => by simp [printReports]
  | c :: cs, i => by
    rw [printReports, printReports, List.map_append, ← printReports_below q pos cs (i + 1), List.append_assoc,
      printReport_below q (pos ++ [i]) c]
end

theorem printReport_at (pos : List Nat) (r : Report) : printReport pos r = (printReport [] r).map (Line.below pos) := by
  have := printReport_below pos [] r
  rwa [List.append_nil] at this

theorem passes_below (lvl : Nat) (q : List Nat) (ls : List Line) :
    (ls.map (Line.below q)).filter (passes lvl) = (ls.filter (passes lvl)).map (Line.below q) := by
  induction ls with
  | nil => rfl
  | cons l ls ih =>
    have : passes lvl (l.below q) = passes lvl l := by cases l <;> rfl
    rw [List.map_cons, List.filter_cons, List.filter_cons, this, ih]
    split <;> rfl

theorem All2.map' {α β γ δ : Type} {R : α → β → Prop} {S : γ → δ → Prop} (f : α → γ) (g : β → δ) (h : ∀ a b, R a b → S (f a) (g b)) :
    ∀ {as bs}, All2 R as bs → All2 S (as.map f) (bs.map g) := by
  intro as bs hab
  induction hab with
  | nil => exact .nil
  | cons h1 _ ih => exact .cons (h _ _ h1) ih

theorem All2.append {α β : Type} {R : α → β → Prop} {as bs} (h : All2 R as bs) {as' bs'} (h' : All2 R as' bs') :
    All2 R (as ++ as') (bs ++ bs') := by
  induction h with
  | nil => exact h'
  | cons h1 _ ih => exact .cons h1 ih

/-- without filtering: the lines that pass, for an element with all that is filtered -/
def seen (lvl : Nat) (r : Report) : List Line := (printReport [] (filterEmpty lvl r)).filter (passes lvl)

theorem not_isEmpty {lvl : Nat} {rs cs} (h : isEmpty (some lvl) (.node rs cs) = false) : isEmpty none (.node rs cs) = false := by
  simp only [isEmpty, Report.records, Report.children, Bool.not_eq_false', Bool.or_eq_true, List.any_eq_true,
    decide_eq_true_eq] at h ⊢
  rcases h with ⟨x, hx, _⟩ | h
  · exact .inl ⟨x, hx, trivial⟩
  · exact .inr h

mutual
theorem seen_blocks (lvl : Nat) : ∀ r : Report, ∃ bs, All2 (Block lvl r) r.positions bs ∧ seen lvl r = bs.flatten
  | .empty => ⟨[[]], .cons ⟨.empty, rfl, .inl ⟨(by intro h; cases h), rfl⟩⟩ .nil, by simp [seen, filterEmpty, printReport]⟩
  | .node rs cs => by
    obtain ⟨bs, hb, hs⟩ := seenL_blocks lvl rs cs cs [] (by simp)
    simp only [List.length_nil] at hb hs
    by_cases hp : Problem lvl (.node rs cs)
    · have he : isEmpty (some lvl) (.node rs (filterEmptyL lvl cs)) = false := by
        have := (filterEmpty_true lvl (.node rs cs)).2 hp
        rw [filterEmpty] at this
        cases h : isEmpty (some lvl) (.node rs (filterEmptyL lvl cs)) with
        | false => rfl
        | true => rw [h, if_pos rfl] at this; cases this
      refine ⟨(.heading [] :: (rs.filter fun x => decide (lvl ≤ x.level)).map (.message [])) :: bs, .cons ⟨_, rfl, .inr ⟨hp, rfl⟩⟩ hb, ?_⟩
      rw [seen, filterEmpty, he, if_neg (by simp), printReport, not_isEmpty he, if_neg (by simp), List.filter_append, hs, List.flatten_cons]
      congr 1
      rw [List.filter_cons, show passes lvl (.heading []) = true from rfl, if_pos rfl, List.filter_map]
      rfl
    · have he : (filterEmpty lvl (.node rs cs)) = .empty := by
        have := mt (filterEmpty_true lvl (.node rs cs)).1 hp
        cases h : filterEmpty lvl (.node rs cs) with
        | empty => rfl
        | node a b => rw [h] at this; exact absurd rfl this
      have hbs : ∀ b ∈ bs, b = [] := by
        have hcs : ∀ c ∈ cs, ¬ Problem lvl c := fun c hc h => hp (.within hc h)
        have : ∀ (cs : List Report) (i : Nat), (∀ c ∈ cs, ¬ Problem lvl c) →
            (printReports [] i (filterEmptyL lvl cs)).filter (passes lvl) = [] := by
          intro cs
          induction cs with
          | nil => intro i _; simp [filterEmptyL, printReports]
          | cons c cs ih =>
            intro i h
            rw [filterEmptyL, printReports, List.filter_append, ih (i + 1) fun c hc => h c (by simp [hc])]
            have hc : filterEmpty lvl c = .empty := by
              have := mt (filterEmpty_true lvl c).1 (h c (by simp))
              cases h : filterEmpty lvl c with
              | empty => rfl
              | node a b => rw [h] at this; exact absurd rfl this
            rw [hc, printReport]
            rfl
        rw [this cs 0 hcs] at hs
        intro b hbm
        have := List.flatten_eq_nil_iff.1 hs.symm b hbm
        exact this
      refine ⟨[] :: bs, .cons ⟨_, rfl, .inl ⟨hp, rfl⟩⟩ hb, ?_⟩
      rw [seen, he, printReport, List.flatten_cons]
      simp only [List.filter_nil, List.nil_append]
      exact (List.flatten_eq_nil_iff.2 hbs).symm
theorem seenL_blocks (lvl : Nat) (rs : List Rec) (all : List Report) : ∀ (cs done : List Report), all = done ++ cs →
    ∃ bs, All2 (Block lvl (.node rs all)) (Report.positionsL done.length cs) bs ∧
      (printReports [] done.length (filterEmptyL lvl cs)).filter (passes lvl) = bs.flatten
  | [], done, _ => ⟨[], by rw [Report.positionsL]; exact .nil, by simp [filterEmptyL, printReports]⟩
  | c :: cs, done, h => by
    obtain ⟨bs, hb, hs⟩ := seenL_blocks lvl rs all cs (done ++ [c]) (by simp [h])
    obtain ⟨bs', hb', hs'⟩ := seen_blocks lvl c
    rw [List.length_append, List.length_singleton] at hb hs
    refine ⟨bs'.map (List.map (Line.below [done.length])) ++ bs, ?_, ?_⟩
    · rw [Report.positionsL]
      refine All2.append (All2.map' _ _ ?_ hb') hb
      rintro p b ⟨s, h1, h2⟩
      refine ⟨s, ?_, ?_⟩
      · rw [Report.sub]
        have : (Report.node rs all).children[done.length]? = some c := by
          rw [Report.children, h]
          simp
        rw [this]
        exact h1
      · rcases h2 with ⟨h2, rfl⟩ | ⟨h2, rfl⟩
        · exact .inl ⟨h2, rfl⟩
        · refine .inr ⟨h2, ?_⟩
          simp [Line.below, Function.comp_def]
    · rw [filterEmptyL, printReports, List.filter_append, hs, List.flatten_append, List.nil_append, printReport_at, passes_below]
      congr 1
      rw [seen] at hs'
      rw [hs', List.map_flatten]
end

mutual
/-- the positions are exactly those of elements -/
theorem mem_positions : ∀ (r : Report) (p : List Nat), p ∈ r.positions ↔ (r.sub p).isSome = true
  | .empty, p => by
    rw [Report.positions]
    cases p with
    | nil => simp [Report.sub]
    | cons i p => simp [Report.sub, Report.children]
  | .node rs cs, p => by
    rw [Report.positions]
    cases p with
    | nil => simp [Report.sub]
    | cons i p =>
      rw [List.mem_cons]
      have := mem_positionsL cs 0 i p
      simp only [Nat.zero_le, true_and, Nat.sub_zero] at this
      rw [Report.sub, Report.children]
      simp only [reduceCtorEq, false_or]
      rw [this]
      cases cs[i]? with
      | none => simp
      | some c => simp
theorem mem_positionsL : ∀ (cs : List Report) (k i : Nat) (p : List Nat), i :: p ∈ Report.positionsL k cs ↔
    k ≤ i ∧ ∃ c, cs[i - k]? = some c ∧ (c.sub p).isSome = true
  | [], k, i, p => by simp [Report.positionsL]
  | c :: cs, k, i, p => by
    rw [Report.positionsL, List.mem_append, mem_positionsL cs (k + 1) i p, List.mem_map]
    constructor
    · rintro (⟨q, h1, h2⟩ | ⟨h1, d, h2, h3⟩)
      · cases h2
        exact ⟨Nat.le_refl _, c, by simp, (mem_positions c p).1 h1⟩
      · refine ⟨by omega, d, ?_, h3⟩
        rw [show i - k = (i - (k + 1)) + 1 by omega, List.getElem?_cons_succ]
        exact h2
    · rintro ⟨h1, d, h2, h3⟩
      by_cases he : i = k
      · subst he
        simp only [Nat.sub_self, List.getElem?_cons_zero, Option.some.injEq] at h2
        subst h2
        exact .inl ⟨p, (mem_positions c p).2 h3, rfl⟩
      · right
        refine ⟨by omega, d, ?_, h3⟩
        rw [show i - k = (i - (k + 1)) + 1 by omega, List.getElem?_cons_succ] at h2
        exact h2
end

/-- positions of the document in order: an element before what it contains, everything in a child before the next child -/
inductive Before : List Nat → List Nat → Prop
  | nil {i p} : Before [] (i :: p)
  | lt {i j p q} : i < j → Before (i :: p) (j :: q)
  | same {i p q} : Before p q → Before (i :: p) (i :: q)

mutual
theorem positions_sorted : ∀ r : Report, r.positions.Pairwise Before
  | .empty => by rw [Report.positions]; simp
  | .node rs cs => by
    rw [Report.positions, List.pairwise_cons]
    refine ⟨?_, (positionsL_sorted cs 0).1⟩
    intro p hp
    obtain ⟨i, q, rfl, _⟩ := (positionsL_sorted cs 0).2 p hp
    exact .nil
theorem positionsL_sorted : ∀ (cs : List Report) (k : Nat), (Report.positionsL k cs).Pairwise Before ∧
    ∀ p ∈ Report.positionsL k cs, ∃ i q, p = i :: q ∧ k ≤ i
  | [], k => by rw [Report.positionsL]; simp
  | c :: cs, k => by
    have h1 := positions_sorted c
    obtain ⟨h2, h3⟩ := positionsL_sorted cs (k + 1)
    rw [Report.positionsL]
    constructor
    · rw [List.pairwise_append]
      refine ⟨?_, h2, ?_⟩
      · rw [List.pairwise_map]
        exact h1.imp fun h => .same h
      · intro a ha b hb
        obtain ⟨q, _, rfl⟩ := List.mem_map.1 ha
        obtain ⟨i, q', rfl, hi⟩ := h3 b hb
        exact .lt (by omega)
    · intro p hp
      rw [List.mem_append] at hp
      rcases hp with hp | hp
      · obtain ⟨q, _, rfl⟩ := List.mem_map.1 hp
        exact ⟨k, q, rfl, Nat.le_refl _⟩
      · obtain ⟨i, q, rfl, hi⟩ := h3 p hp
        exact ⟨i, q, rfl, by omega⟩
end

/-- **C87** what is printed: for every element in the order of the document (`positions_sorted`, `mem_positions`) with a
problem of the level or above in it or in what it contains, its heading and its own messages of the level or above;
nothing for the others. -/
theorem C87_printed (lvl : Nat) (r : Report) :
    ∃ bs, All2 (Block lvl r) r.positions bs ∧ printed lvl r = bs.flatten := by
  obtain ⟨bs, h1, h2⟩ := seen_blocks lvl r
  refine ⟨bs, h1, ?_⟩
  rw [printed]
  split
  · rename_i he
    rw [← h2, seen]
    have := (C52_filter lvl r).1 he
    have h3 : filterEmpty lvl r = .empty := by
      have := mt (filterEmpty_true lvl r).1 this
      cases h : filterEmpty lvl r with
      | empty => rfl
      | node a b => rw [h] at this; exact absurd rfl this
    rw [h3, printReport]
    rfl
  · exact h2

theorem _root_.Xigt.All2.mem_right {α β : Type} {R : α → β → Prop} : ∀ {as bs}, All2 R as bs → ∀ b ∈ bs, ∃ a ∈ as, R a b := by
  intro as bs h
  induction h with
  | nil => intro b hb; cases hb
  | cons h1 _ ih =>
    intro b hb
    rcases List.mem_cons.1 hb with rfl | hb
    · exact ⟨_, by simp, h1⟩
    · obtain ⟨a, ha, hr⟩ := ih b hb
      exact ⟨a, by simp [ha], hr⟩

/-- **C87** a message is printed at a position exactly if it is in the report there and of the level or above. -/
theorem C87_messages (lvl : Nat) (r : Report) (p : List Nat) (x : Rec) :
    .message p x ∈ printed lvl r ↔ Reported r p x ∧ lvl ≤ x.level := by
  obtain ⟨bs, h1, h2⟩ := C87_printed lvl r
  rw [h2, List.mem_flatten]
  constructor
  · rintro ⟨b, hb, hm⟩
    obtain ⟨q, _, s, hs, hb'⟩ := h1.mem_right b hb
    rcases hb' with ⟨_, rfl⟩ | ⟨_, rfl⟩
    · cases hm
    · simp only [List.mem_cons, reduceCtorEq, false_or, List.mem_map, List.mem_filter, decide_eq_true_eq, Line.message.injEq] at hm
      obtain ⟨y, ⟨hy, hl⟩, rfl, rfl⟩ := hm
      exact ⟨⟨s, hs, hy⟩, hl⟩
  · rintro ⟨⟨s, hs, hx⟩, hl⟩
    have hp : p ∈ r.positions := (mem_positions r p).2 (by rw [hs]; rfl)
    obtain ⟨b, hb, s', hs', hb'⟩ := h1.mem_left p hp
    rw [hs] at hs'
    cases hs'
    have hpr : Problem lvl s := by
      cases s with
      | empty => cases hx
      | node rs cs => exact .here hx hl
    rcases hb' with ⟨h, _⟩ | ⟨_, rfl⟩
    · exact absurd hpr h
    · exact ⟨_, hb, by simp [hx, hl]⟩

/-- **C87** nothing is printed exactly if the file passes. -/
theorem C87_nothing (lvl : Nat) (r : Report) : printed lvl r = [] ↔ ¬ Problem lvl r := by
  obtain ⟨bs, h1, h2⟩ := C87_printed lvl r
  constructor
  · intro h hp
    have hm : [] ∈ r.positions := (mem_positions r []).2 rfl
    obtain ⟨b, hb, s, hs, hb'⟩ := h1.mem_left [] hm
    cases hs
    rcases hb' with ⟨h, _⟩ | ⟨_, rfl⟩
    · exact h hp
    · rw [h2, List.flatten_eq_nil_iff] at h
      have := h _ hb
      cases this
  · intro h
    rw [printed, (C52_filter lvl r).2 h, if_pos rfl]

/-- reports are not deeper than items -/
def Report.Shallow : Nat → Report → Prop
  | 0, r => r.children = []
  | n + 1, r => ∀ c ∈ r.children, c.Shallow n

theorem shallow_sub : ∀ (n : Nat) (r : Report) (p : List Nat), r.Shallow n → (r.sub p).isSome = true → p.length ≤ n := by
  intro n
  induction n with
  | zero =>
    intro r p h hs
    cases p with
    | nil => simp
    | cons i p => rw [Report.sub, show r.children = [] from h] at hs; simp at hs
  | succ n ih =>
    intro r p h hs
    cases p with
    | nil => simp
    | cons i p =>
      rw [Report.sub] at hs
      cases hc : r.children[i]? with
      | none => rw [hc] at hs; cases hs
      | some c =>
        rw [hc] at hs
        have := ih c p (h c (List.mem_of_getElem? hc)) hs
        simpa using this

section
variable [Uni]

theorem items_shallow (depth : Nat) (igt tier : Obj) : ∀ (xs : List Obj) (sn : List Str) (l), validateItems depth igt tier xs sn = .ok l →
    ∀ c ∈ l, c.Shallow 0 := by
  intro xs
  induction xs with
  | nil => intro sn l h; simp only [validateItems] at h; cases h; simp
  | cons x xs ih =>
    intro sn l h
    simp only [validateItems, bind, Except.bind] at h
    split at h
    · cases h
    split at h
    · cases h
    split at h
    · cases h
    rename_i hl
    cases h
    intro c hc
    rcases List.mem_cons.1 hc with rfl | hc
    · rfl
    · exact ih _ _ hl c hc

theorem tier_shallow (depth : Nat) (igt tier : Obj) (r) (h : validateTier depth igt tier = .ok r) : r.Shallow 1 := by
  simp only [validateTier, bind, Except.bind] at h
  split at h
  · cases h
  split at h
  · cases h
  rename_i hl
  cases h
  exact items_shallow depth igt tier _ _ _ hl

theorem extend_children (rs : List Rec) (r : Report) : (extend rs r).children = r.children := by cases r <;> rfl

theorem igtItems_shallow : ∀ (xs : List (Obj × Report)) (sn : List Str) (p), igtItems xs sn = .ok p → (∀ x ∈ xs, x.2.Shallow 0) →
    ∀ c ∈ p.1, c.Shallow 0 := by
  intro xs
  induction xs with
  | nil => intro sn p h _; simp only [igtItems] at h; cases h; simp
  | cons x xs ih =>
    intro sn p h hx
    obtain ⟨y, r⟩ := x
    simp only [igtItems, bind, Except.bind] at h
    split at h
    · cases h
    split at h
    · cases h
    rename_i hl
    cases h
    intro c hc
    rcases List.mem_cons.1 hc with rfl | hc
    · show (extend _ r).children = []
      rw [extend_children]
      exact hx (y, r) (by simp)
    · exact ih _ _ hl (fun x hx' => hx x (by simp [hx'])) c hc

theorem tiers_shallow (depth : Nat) (igt : Obj) : ∀ (ts : List Obj) (a b : List Str) (l), validateTiers depth igt ts a b = .ok l →
    ∀ c ∈ l, c.Shallow 1 := by
  intro ts
  induction ts with
  | nil => intro a b l h; simp only [validateTiers] at h; cases h; simp
  | cons t ts ih =>
    intro a b l h
    simp only [validateTiers, bind, Except.bind] at h
    split at h
    · cases h
    rename_i r hr
    split at h
    · cases h
    split at h
    · cases h
    rename_i q hq
    split at h
    · cases h
    rename_i hl
    cases h
    intro c hc
    rcases List.mem_cons.1 hc with rfl | hc
    · exact igtItems_shallow _ _ _ hq fun x hx => tier_shallow depth igt t r hr x.2 (List.of_mem_zip hx).2
    · exact ih _ _ _ hl c hc

theorem igt_shallow (depth : Nat) (igt : Obj) (r) (h : validateIgt depth igt = .ok r) : r.Shallow 2 := by
  simp only [validateIgt, bind, Except.bind] at h
  split at h
  · cases h
  split at h
  · cases h
  rename_i hl
  cases h
  exact tiers_shallow depth igt _ _ _ _ hl

theorem igts_shallow (depth : Nat) : ∀ (xs : List (Py Obj)) (a : List Str) (l), validateIgts depth xs a = .ok l → ∀ c ∈ l, c.Shallow 2 := by
  intro xs
  induction xs with
  | nil => intro a l h; simp only [validateIgts] at h; cases h; simp
  | cons x xs ih =>
    intro a l h
    simp only [validateIgts, bind, Except.bind] at h
    split at h
    · cases h
    split at h
    · cases h
    rename_i r hr
    split at h
    · cases h
    split at h
    · cases h
    rename_i hl
    cases h
    intro c hc
    rcases List.mem_cons.1 hc with rfl | hc
    · intro d hd
      rw [extend_children] at hd
      exact igt_shallow depth _ r hr d hd
    · exact ih _ _ hl c hc

/-- **C87** every heading of a report has a text: reports go down to items and no further. -/
theorem C87_heading (lvl depth : Nat) (seen : List Str) (xc : Opened) (r : Report) (h : validateCorpus depth seen xc = .ok r)
    (p : List Nat) (hp : .heading p ∈ printed lvl r) (color : Bool) (index : Nat) (id : Option Str) :
    ∃ t, headingText color p.length index id = .ok t := by
  have hs : r.Shallow 3 := by
    simp only [validateCorpus, bind, Except.bind] at h
    split at h
    · cases h
    split at h
    · cases h
    rename_i hl
    cases h
    exact igts_shallow depth _ _ _ hl
  obtain ⟨bs, h1, h2⟩ := C87_printed lvl r
  rw [h2, List.mem_flatten] at hp
  obtain ⟨b, hb, hm⟩ := hp
  obtain ⟨q, hq, s, hs', hb'⟩ := h1.mem_right b hb
  have he : q = p := by
    rcases hb' with ⟨_, rfl⟩ | ⟨_, rfl⟩
    · cases hm
    · simp only [List.mem_cons, Line.heading.injEq, List.mem_map, reduceCtorEq, and_false, exists_false, or_false] at hm
      exact hm.symm
  subst he
  have hlen := shallow_sub 3 r q hs (by rw [hs']; rfl)
  rw [headingText]
  have : ∃ l, datalevels[q.length]? = some l := by
    have : q.length < datalevels.length := by simp [datalevels]; omega
    exact ⟨_, List.getElem?_eq_getElem this⟩
  obtain ⟨l, hl⟩ := this
  rw [hl]
  exact ⟨_, rfl⟩

end

/-! ### C88 -/

/-- the keyword arguments of a message (xigt_validate.py:21-30, 42) -/
def msgArgs (modal name scope : Str) (id index : Fmt.Val) (str : Str → Fmt.Val) : Dict Str Fmt.Val :=
  [(lit! "modal", str modal), (lit! "id", id), (lit! "index", index), (lit! "name", str name), (lit! "scope", str scope)]

/-- the sentences -/
def Msg.sentence (modal name scope : Str) : Msg → Str
  | .noId => lit! "Each " ++ name ++ lit! " " ++ modal ++ lit! " specify an id."
  | .notUnique => lit! "The given id for each " ++ name ++ lit! " " ++ modal ++ lit! " be unique within its " ++ scope ++ lit! "."
  | .noType => lit! "Each " ++ name ++ lit! " " ++ modal ++ lit! " specify a type."
  | .tierRef ra => lit! "The reference attribute \"" ++ ra ++ lit! "\" " ++ modal ++ lit! " select an available <tier> id."
  | .refattrs l => lit! "Reference attributes on <item> elements " ++ modal ++ lit! " be specified on their <tier> as well. The following are not: " ++ joinWith (lit! ", ") l
  | .idsMissing ra tier l => lit! "The \"" ++ ra ++ lit! "\" alignment expression " ++ modal ++ lit! " select available <item> ids from the aligned <tier> (\"" ++ tier ++ lit! "\"). The following are unavailable: " ++ joinWith (lit! ", ") l
  | .spansOut l => lit! "Alignment expressions " ++ modal ++ lit! " select spans within the aligned <item> elements. The following spans are not valid: " ++ joinWith (lit! ", ") l
  | .overlap l => lit! "Alignment expression spans " ++ modal ++ lit! " NOT overlap. Spans for the following <item> elements overlap: " ++ joinWith (lit! ", ") l

/-- the texts put into a message -/
def Msg.inserted : Msg → List Str
  | .noId | .notUnique | .noType => []
  | .tierRef ra => [ra]
  | .refattrs l | .spansOut l | .overlap l => l
  | .idsMissing ra tier l => ra :: tier :: l

open Fmt Qry

def fld (n : Str) : Qry.Piece := .field ⟨n, none, []⟩
def MODAL : Qry.Piece := fld (lit! "modal")

/-- the messages as parts -/
def Msg.pieces : Msg → List Qry.Piece
  | .noId => [.lit (lit! "Each "), fld (lit! "name"), .lit (lit! " "), MODAL, .lit (lit! " specify an id.")]
  | .notUnique => [.lit (lit! "The given id for each "), fld (lit! "name"), .lit (lit! " "), MODAL, .lit (lit! " be unique within its "), fld (lit! "scope"), .lit (lit! ".")]
  | .noType => [.lit (lit! "Each "), fld (lit! "name"), .lit (lit! " "), MODAL, .lit (lit! " specify a type.")]
  | .tierRef ra => [.lit (lit! "The reference attribute \"" ++ ra ++ lit! "\" "), MODAL, .lit (lit! " select an available <tier> id.")]
  | .refattrs l => [.lit (lit! "Reference attributes on <item> elements "), MODAL, .lit (lit! " be specified on their <tier> as well. The following are not: " ++ joinWith (lit! ", ") l)]
  | .idsMissing ra tier l => [.lit (lit! "The \"" ++ ra ++ lit! "\" alignment expression "), MODAL, .lit (lit! " select available <item> ids from the aligned <tier> (\"" ++ tier ++ lit! "\"). The following are unavailable: " ++ joinWith (lit! ", ") l)]
  | .spansOut l => [.lit (lit! "Alignment expressions "), MODAL, .lit (lit! " select spans within the aligned <item> elements. The following spans are not valid: " ++ joinWith (lit! ", ") l)]
  | .overlap l => [.lit (lit! "Alignment expression spans "), MODAL, .lit (lit! " NOT overlap. Spans for the following <item> elements overlap: " ++ joinWith (lit! ", ") l)]

theorem plainOf {s : Str} (h : (s.all fun c => c != '{' && c != '}') = true) : Plain' s := by
  intro c hc
  have := List.all_eq_true.1 h c hc
  simpa using this

theorem plainAppend {a b : Str} (ha : Plain' a) (hb : Plain' b) : Plain' (a ++ b) := by
  intro c hc
  rcases List.mem_append.1 hc with h | h
  · exact ha c h
  · exact hb c h

theorem plainJoin {l : List Str} (h : ∀ s ∈ l, Plain' s) : Plain' (joinWith (lit! ", ") l) := by
  induction l with
  | nil => intro c hc; cases hc
  | cons a l ih =>
    cases l with
    | nil => exact h a (by simp)
    | cons b l =>
      rw [joinWith]
      exact plainAppend (plainAppend (h a (by simp)) (plainOf (by decide))) (ih fun s hs => h s (by simp [hs]))

theorem render_plain {s : Str} (h : Plain' s) : (Qry.Piece.lit s).render = s := by
  rw [render_lit, esc_plain (plain_iff.1 h)]

theorem template_pieces (m : Msg) (h : ∀ s ∈ m.inserted, Plain' s) : m.template = renderAll m.pieces := by
  have hj : ∀ l : List Str, (∀ s ∈ l, Plain' s) → Plain' (joinWith (lit! ", ") l) := fun l => plainJoin
  have hM : MODAL.render = lit! "{modal}" := by decide
  cases m with
  | noId => decide
  | notUnique => decide
  | noType => decide
  | tierRef ra =>
    have := h ra (by simp [Msg.inserted])
    simp only [Msg.pieces, renderAll, List.flatMap_cons, List.flatMap_nil, hM, Msg.template]
    rw [render_plain (plainAppend (plainAppend (plainOf (by decide)) this) (plainOf (by decide))), render_plain (plainOf (by decide))]
    simp
  | refattrs l =>
    have := hj l (fun s hs => h s hs)
    simp only [Msg.pieces, renderAll, List.flatMap_cons, List.flatMap_nil, hM, Msg.template]
    rw [render_plain (plainOf (by decide)), render_plain (plainAppend (plainOf (by decide)) this)]
    simp
  | idsMissing ra tier l =>
    have h1 := h ra (by simp [Msg.inserted])
    have h2 := h tier (by simp [Msg.inserted])
    have h3 := hj l (fun s hs => h s (by simp [Msg.inserted, hs]))
    simp only [Msg.pieces, renderAll, List.flatMap_cons, List.flatMap_nil, hM, Msg.template]
    rw [render_plain (plainAppend (plainAppend (plainOf (by decide)) h1) (plainOf (by decide))),
      render_plain (plainAppend (plainAppend (plainAppend (plainOf (by decide)) h2) (plainOf (by decide))) h3)]
    simp
  | spansOut l =>
    have := hj l (fun s hs => h s hs)
    simp only [Msg.pieces, renderAll, List.flatMap_cons, List.flatMap_nil, hM, Msg.template]
    rw [render_plain (plainOf (by decide)), render_plain (plainAppend (plainOf (by decide)) this)]
    simp
  | overlap l =>
    have := hj l (fun s hs => h s hs)
    simp only [Msg.pieces, renderAll, List.flatMap_cons, List.flatMap_nil, hM, Msg.template]
    rw [render_plain (plainOf (by decide)), render_plain (plainAppend (plainOf (by decide)) this)]
    simp

theorem fld_ok {n : Str} (h : (n.all fun c => c != '{' && c != '}' && c != '[' && c != ':' && c != '!') = true) : (fld n).OK := by
  refine ⟨fun c hc => ?_, (by intro c hc; cases hc), (by intro c hc; cases hc)⟩
  have := List.all_eq_true.1 h c hc
  simp only [Bool.and_eq_true, bne_iff_ne, ne_eq] at this
  exact ⟨this.1.1.1.1, this.1.1.1.2, this.1.1.2, this.1.2, this.2⟩

/-- **C88** (partial): the message is the sentence with modal verb, name and scope filled in.

Missing: IDs, references and attributes with braces, `C88_refuted`. -/
theorem C88_partial (env : Env) (str : Str → Fmt.Val) (hstr : ∀ s, str s [] none [] = .ok s) (modal name scope : Str) (id index : Fmt.Val)
    (m : Msg) (h : ∀ s ∈ m.inserted, Plain' s) :
    strFormat env (msgArgs modal name scope id index str) m.template = .ok (m.sentence modal name scope) := by
  have hm : MODAL.OK := fld_ok (by decide)
  have hn : (fld (lit! "name")).OK := fld_ok (by decide)
  have hs : (fld (lit! "scope")).OK := fld_ok (by decide)
  have hok : ∀ p ∈ m.pieces, p.OK := by
    intro p hp
    cases m <;> simp only [Msg.pieces, List.mem_cons, List.not_mem_nil, or_false] at hp
    case noId => rcases hp with rfl | rfl | rfl | rfl | rfl <;> first | exact hm | exact hn | trivial
    case notUnique => rcases hp with rfl | rfl | rfl | rfl | rfl | rfl | rfl <;> first | exact hm | exact hn | exact hs | trivial
    case noType => rcases hp with rfl | rfl | rfl | rfl | rfl <;> first | exact hm | exact hn | trivial
    all_goals (rcases hp with rfl | rfl | rfl <;> first | exact hm | trivial)
  rw [template_pieces m h, strFormat_fmtS, fmtS_fills (keeps_s _ _) _ hok]
  have sM : Shows (msgArgs modal name scope id index str) ⟨lit! "modal", none, []⟩ modal :=
    (shows_name hm (by decide)).2 ⟨_, rfl, hstr _⟩
  have sN : Shows (msgArgs modal name scope id index str) ⟨lit! "name", none, []⟩ name :=
    (shows_name hn (by decide)).2 ⟨_, rfl, hstr _⟩
  have sS : Shows (msgArgs modal name scope id index str) ⟨lit! "scope", none, []⟩ scope :=
    (shows_name hs (by decide)).2 ⟨_, rfl, hstr _⟩
  have three : ∀ a b : Str, Fills (Shows (msgArgs modal name scope id index str)) [.lit a, MODAL, .lit b] (a ++ modal ++ b) := by
    intro a b
    have := Fills.lit a (Fills.field sM (Fills.lit b .nil))
    simpa [MODAL, fld] using this
  have five : ∀ a b c : Str, Fills (Shows (msgArgs modal name scope id index str)) [.lit a, fld (lit! "name"), .lit b, MODAL, .lit c]
      (a ++ name ++ b ++ modal ++ c) := by
    intro a b c
    have := Fills.lit a (Fills.field sN (Fills.lit b (Fills.field sM (Fills.lit c .nil))))
    simpa [MODAL, fld] using this
  cases m with
  | noId => exact five _ _ _
  | notUnique =>
    have := Fills.lit (lit! "The given id for each ") (Fills.field sN (Fills.lit (lit! " ") (Fills.field sM (Fills.lit (lit! " be unique within its ")
      (Fills.field sS (Fills.lit (lit! ".") .nil))))))
    simpa [Msg.pieces, Msg.sentence, MODAL, fld] using this
  | noType => exact five _ _ _
  | tierRef ra => exact three _ _
  | refattrs l => rw [Msg.sentence, List.append_assoc]; exact three _ _
  | idsMissing ra tier l =>
    have := three (lit! "The \"" ++ ra ++ lit! "\" alignment expression ")
      (lit! " select available <item> ids from the aligned <tier> (\"" ++ tier ++ lit! "\"). The following are unavailable: " ++ joinWith (lit! ", ") l)
    simpa [Msg.pieces, Msg.sentence] using this
  | spansOut l => rw [Msg.sentence, List.append_assoc]; exact three _ _
  | overlap l => rw [Msg.sentence, List.append_assoc]; exact three _ _

section
attribute [local instance] asciiUni

/-- **C88** refuted: a tier ID with braces (as it may be in a file) is taken for a field when an item is missing from the tier;
validation stops with KeyError or the message names another ID. -/
theorem C88_refuted : strFormat exQ.toEnv (msgArgs (lit! "MUST") (lit! "<item>") (lit! "<tier>") (exVal (lit! "x1")) (exVal (lit! "0")) exVal)
      (Msg.template (.idsMissing ALIGNMENT (lit! "{b}") [lit! "w9"])) = .error .keyError ∧
    strFormat exQ.toEnv (msgArgs (lit! "MUST") (lit! "<item>") (lit! "<tier>") (exVal (lit! "x1")) (exVal (lit! "0")) exVal)
      (Msg.template (.idsMissing ALIGNMENT (lit! "{id}") [lit! "w9"])) = .ok (Msg.sentence (lit! "MUST") (lit! "<item>") (lit! "<tier>") (.idsMissing ALIGNMENT (lit! "x1") [lit! "w9"])) := by
  constructor <;> decide +kernel

/-- a report with two igts, the first without problems above the level -/
def exReport : Report := .node [⟨INFO, .noId⟩] [.node [⟨INFO, .noId⟩] [], .node [] [.node [⟨WARNING, .noType⟩, ⟨INFO, .noId⟩] [.node [⟨ERROR, .notUnique⟩] []]]]
example : printed WARNING exReport = [.heading [], .heading [1], .heading [1, 0], .message [1, 0] ⟨WARNING, .noType⟩,
    .heading [1, 0, 0], .message [1, 0, 0] ⟨ERROR, .notUnique⟩] := by decide +kernel
example : headingText false 2 5 (some (lit! "w")) = .ok (lit! "  tier 5 (id: \"w\")") := by decide +kernel

end
end Xigt.Vld
